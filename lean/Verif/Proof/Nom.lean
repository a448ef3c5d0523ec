import Verif.Model.IrItem
import Verif.Proof.Str

/-!
Parsers consume a prefix of their input and never get stuck; unfolding equations for the repetition
combinators.
-/

namespace CallStack

variable {α β : Type}

/-- On inputs shorter than `n` characters the parser is not stuck and returns a suffix. -/
def GoodTo (n : Nat) (p : P α) : Prop :=
  ∀ i, i.length < n → p i ≠ .stuck ∧ ∀ r a, p i = .ok r a → r <:+ i

/-- `GoodTo`, and something is consumed. -/
def EatsTo (n : Nat) (p : P α) : Prop :=
  ∀ i, i.length < n → p i ≠ .stuck ∧ ∀ r a, p i = .ok r a → r <:+ i ∧ r.length < i.length

theorem EatsTo.good {n : Nat} {p : P α} (h : EatsTo n p) : GoodTo n p := fun i hi =>
  ⟨(h i hi).1, fun r a hr => ((h i hi).2 r a hr).1⟩

theorem EatsTo.mono {n m : Nat} {p : P α} (h : EatsTo n p) (hm : m ≤ n) : EatsTo m p :=
  fun i hi => h i (by omega)

theorem GoodTo.mono {n m : Nat} {p : P α} (h : GoodTo n p) (hm : m ≤ n) : GoodTo m p :=
  fun i hi => h i (by omega)

theorem P.bind_ok {p : P α} {f : α → P β} {i r : Str} {a : α} (h : p i = .ok r a) :
    (p >>= f) i = f a r := by
  show P.bind p f i = _
  unfold P.bind
  rw [h]

theorem P.bind_error {p : P α} {f : α → P β} {i : Str} (h : p i = .error) :
    (p >>= f) i = .error := by
  show P.bind p f i = _
  unfold P.bind
  rw [h]

theorem P.bind_stuck {p : P α} {f : α → P β} {i : Str} (h : p i = .stuck) :
    (p >>= f) i = .stuck := by
  show P.bind p f i = _
  unfold P.bind
  rw [h]

theorem P.bind_eq_ok {p : P α} {f : α → P β} {i r : Str} {b : β} (h : (p >>= f) i = .ok r b) :
    ∃ r' a, p i = .ok r' a ∧ f a r' = .ok r b := by
  cases hp : p i with
  | ok r' a => exact ⟨r', a, rfl, by rw [P.bind_ok hp] at h; exact h⟩
  | error => rw [P.bind_error hp] at h; exact absurd h (by simp)
  | stuck => rw [P.bind_stuck hp] at h; exact absurd h (by simp)

theorem P.bind_eq_error {p : P α} {f : α → P β} {i : Str} (h : (p >>= f) i = .error) :
    p i = .error ∨ ∃ r' a, p i = .ok r' a ∧ f a r' = .error := by
  cases hp : p i with
  | ok r' a => exact .inr ⟨r', a, rfl, by rw [P.bind_ok hp] at h; exact h⟩
  | error => exact .inl rfl
  | stuck => rw [P.bind_stuck hp] at h; exact absurd h (by simp)

theorem P.bind_eq_stuck {p : P α} {f : α → P β} {i : Str} (h : (p >>= f) i = .stuck) :
    p i = .stuck ∨ ∃ r' a, p i = .ok r' a ∧ f a r' = .stuck := by
  cases hp : p i with
  | ok r' a => exact .inr ⟨r', a, rfl, by rw [P.bind_ok hp] at h; exact h⟩
  | error => rw [P.bind_error hp] at h; exact absurd h (by simp)
  | stuck => exact .inl rfl

theorem P.pure_eq (a : α) (i : Str) : (Pure.pure a : P α) i = .ok i a := rfl

theorem good_pure {n : Nat} (a : α) : GoodTo n (Pure.pure a : P α) := fun i _ =>
  ⟨by rw [P.pure_eq]; simp, fun r b h => by
    rw [P.pure_eq] at h
    injection h with h _
    exact h ▸ List.suffix_refl _⟩

theorem eats_fail {n : Nat} : EatsTo n (P.fail : P α) := fun i _ =>
  ⟨by simp [P.fail], fun r b h => by simp [P.fail] at h⟩

theorem good_bind {n : Nat} {p : P α} {f : α → P β} (hp : GoodTo n p) (hf : ∀ a, GoodTo n (f a)) :
    GoodTo n (p >>= f) := by
  intro i hi
  refine ⟨fun h => ?_, fun r b h => ?_⟩
  · rcases P.bind_eq_stuck h with h | ⟨r, a, h1, h2⟩
    · exact (hp i hi).1 h
    · exact (hf a r (by have := ((hp i hi).2 r a h1).length_le; omega)).1 h2
  · obtain ⟨r', a, h1, h2⟩ := P.bind_eq_ok h
    have hs := (hp i hi).2 r' a h1
    exact ((hf a r' (by have := hs.length_le; omega)).2 r b h2).trans hs

theorem eats_bind_left {n : Nat} {p : P α} {f : α → P β} (hp : EatsTo n p)
    (hf : ∀ a, GoodTo (n - 1) (f a)) : EatsTo n (p >>= f) := by
  intro i hi
  refine ⟨fun h => ?_, fun r b h => ?_⟩
  · rcases P.bind_eq_stuck h with h | ⟨r, a, h1, h2⟩
    · exact (hp i hi).1 h
    · exact (hf a r (by have := ((hp i hi).2 r a h1).2; omega)).1 h2
  · obtain ⟨r', a, h1, h2⟩ := P.bind_eq_ok h
    have hs := (hp i hi).2 r' a h1
    have h3 := (hf a r' (by omega)).2 r b h2
    exact ⟨h3.trans hs.1, by have := h3.length_le; omega⟩

theorem eats_bind_right {n : Nat} {p : P α} {f : α → P β} (hp : GoodTo n p)
    (hf : ∀ a, EatsTo n (f a)) : EatsTo n (p >>= f) := by
  intro i hi
  refine ⟨fun h => ?_, fun r b h => ?_⟩
  · rcases P.bind_eq_stuck h with h | ⟨r, a, h1, h2⟩
    · exact (hp i hi).1 h
    · exact (hf a r (by have := ((hp i hi).2 r a h1).length_le; omega)).1 h2
  · obtain ⟨r', a, h1, h2⟩ := P.bind_eq_ok h
    have hs := ((hp i hi).2 r' a h1)
    have h3 := (hf a r' (by have := hs.length_le; omega)).2 r b h2
    exact ⟨h3.1.trans hs, by have := hs.length_le; omega⟩

/-! ### Basic parsers -/

theorem stripPrefix_eq {s p r : Str} (h : stripPrefix s p = some r) : s = p ++ r := by
  induction p generalizing s with
  | nil => simp only [stripPrefix, Option.some.injEq] at h; simpa using h
  | cons c p ih =>
    cases s with
    | nil => simp [stripPrefix] at h
    | cons d s =>
      simp only [stripPrefix] at h
      by_cases hd : d = c
      · rw [if_pos hd] at h
        rw [hd, ih h]
        rfl
      · rw [if_neg hd] at h
        exact absurd h (by simp)

theorem stripPrefix_append (p r : Str) : stripPrefix (p ++ r) p = some r := by
  induction p with
  | nil => cases r <;> rfl
  | cons c p ih => simp [stripPrefix, ih]

theorem tag_ok {t i r : Str} {a : Unit} (h : tag t i = .ok r a) : i = t ++ r := by
  unfold tag at h
  cases hs : stripPrefix i t with
  | none => rw [hs] at h; simp at h
  | some r' =>
    rw [hs] at h
    injection h with h _
    exact h ▸ stripPrefix_eq hs

theorem tag_append (t r : Str) : tag t (t ++ r) = .ok r () := by
  unfold tag
  rw [stripPrefix_append]

theorem tag_ne_stuck (t i : Str) : tag t i ≠ .stuck := by
  unfold tag
  cases stripPrefix i t <;> simp

theorem eats_tag {n : Nat} {c : Char} {t : Str} : EatsTo n (tag (c :: t)) := fun i _ =>
  ⟨tag_ne_stuck _ i, fun r _ h => by
    have := tag_ok h
    subst this
    exact ⟨List.suffix_append _ _, by simp; omega⟩⟩

theorem charP_ok {c : Char} {i r : Str} {a : Unit} (h : charP c i = .ok r a) : i = c :: r := by
  cases i with
  | nil => simp [charP] at h
  | cons d i =>
    simp only [charP] at h
    by_cases hd : d = c
    · rw [if_pos hd] at h
      injection h with h _
      rw [hd, h]
    · rw [if_neg hd] at h
      exact absurd h (by simp)

theorem charP_ne_stuck (c : Char) (i : Str) : charP c i ≠ .stuck := by
  cases i with
  | nil => simp [charP]
  | cons d i => simp only [charP]; split <;> simp

theorem charP_cons (c : Char) (r : Str) : charP c (c :: r) = .ok r () := by simp [charP]

theorem charP_ne {c d : Char} (r : Str) (h : d ≠ c) : charP c (d :: r) = .error := by
  simp [charP, h]

theorem eats_charP {n : Nat} {c : Char} : EatsTo n (charP c) := fun i _ =>
  ⟨charP_ne_stuck _ i, fun r _ h => by
    rw [charP_ok h]
    exact ⟨List.suffix_cons _ _, by simp⟩⟩

theorem spanP_append (f : Char → Bool) (i : Str) : (spanP f i).1 ++ (spanP f i).2 = i := by
  induction i with
  | nil => rfl
  | cons c i ih =>
    simp only [spanP]
    by_cases h : f c
    · rw [if_pos h]; simpa using ih
    · rw [if_neg h]; rfl

theorem spanP_fst (f : Char → Bool) (i : Str) : ∀ c ∈ (spanP f i).1, f c = true := by
  induction i with
  | nil => simp [spanP]
  | cons c i ih =>
    simp only [spanP]
    by_cases h : f c
    · rw [if_pos h]
      intro d hd
      rcases List.mem_cons.1 hd with hd | hd
      · exact hd ▸ h
      · exact ih d hd
    · rw [if_neg h]; simp

theorem spanP_snd (f : Char → Bool) (i : Str) : ∀ c, (spanP f i).2.head? = some c → f c = false := by
  induction i with
  | nil => simp [spanP]
  | cons c i ih =>
    simp only [spanP]
    by_cases h : f c
    · rw [if_pos h]; exact ih
    · rw [if_neg h]
      intro d hd
      simp only [List.head?_cons, Option.some.injEq] at hd
      rw [← hd]
      simpa using h

/-- `spanP` on a block of fitting characters followed by one that does not fit. -/
theorem spanP_eq {f : Char → Bool} {s r : Str} (hs : ∀ c ∈ s, f c = true)
    (hr : ∀ c, r.head? = some c → f c = false) : spanP f (s ++ r) = (s, r) := by
  induction s with
  | nil =>
    cases r with
    | nil => rfl
    | cons c r =>
      have := hr c rfl
      simp [spanP, this]
  | cons c s ih =>
    have hc := hs c (by simp)
    have := ih (fun d hd => hs d (by simp [hd]))
    simp [spanP, hc, this]

theorem takeWhile1_ok {f : Char → Bool} {i r s : Str} (h : takeWhile1 f i = .ok r s) :
    i = s ++ r ∧ s ≠ [] ∧ (∀ c ∈ s, f c = true) ∧ ∀ c, r.head? = some c → f c = false := by
  have h1 := spanP_append f i
  have h2 := spanP_fst f i
  have h3 := spanP_snd f i
  unfold takeWhile1 at h
  generalize spanP f i = p at h h1 h2 h3
  obtain ⟨s', r'⟩ := p
  cases s' with
  | nil => simp at h
  | cons c s' =>
    injection h with hr hs
    subst hr hs
    exact ⟨h1.symm, by simp, h2, h3⟩

theorem takeWhile1_eq {f : Char → Bool} {s r : Str} (hne : s ≠ []) (hs : ∀ c ∈ s, f c = true)
    (hr : ∀ c, r.head? = some c → f c = false) : takeWhile1 f (s ++ r) = .ok r s := by
  unfold takeWhile1
  rw [spanP_eq hs hr]
  cases s with
  | nil => exact absurd rfl hne
  | cons c s => rfl

theorem takeWhile1_ne_stuck (f : Char → Bool) (i : Str) : takeWhile1 f i ≠ .stuck := by
  unfold takeWhile1
  split <;> simp

theorem takeWhile1_error {f : Char → Bool} {r : Str} (hr : ∀ c, r.head? = some c → f c = false) :
    takeWhile1 f r = .error := by
  unfold takeWhile1
  have := spanP_eq (s := []) (by simp) hr
  simp only [List.nil_append] at this
  rw [this]

theorem eats_takeWhile1 {n : Nat} {f : Char → Bool} : EatsTo n (takeWhile1 f) := fun i _ =>
  ⟨takeWhile1_ne_stuck _ i, fun r s h => by
    obtain ⟨h1, h2, _, _⟩ := takeWhile1_ok h
    subst h1
    refine ⟨List.suffix_append _ _, ?_⟩
    cases s with
    | nil => exact absurd rfl h2
    | cons c s => simp; omega⟩

theorem good_space0 {n : Nat} : GoodTo n space0 := fun i _ =>
  ⟨by simp [space0], fun r a h => by
    unfold space0 at h
    injection h with h _
    refine h ▸ ⟨(spanP isSpace i).1, spanP_append _ _⟩⟩

theorem good_notLineEnding {n : Nat} : GoodTo n notLineEnding := fun i _ => by
  have h1 : (spanP notEol i).2 <:+ i := ⟨_, spanP_append _ _⟩
  unfold notLineEnding
  generalize (spanP notEol i).2 = r at h1
  refine ⟨by split <;> simp, fun r' a h => ?_⟩
  split at h
  · injection h with h _; exact h ▸ h1
  · simp at h
  · injection h with h _; exact h ▸ h1

theorem eats_lineEnding {n : Nat} : EatsTo n lineEnding := fun i _ => by
  unfold lineEnding
  refine ⟨by split <;> simp, fun r' a h => ?_⟩
  split at h
  · injection h with h _
    exact h ▸ ⟨List.suffix_cons _ _, by simp⟩
  · injection h with h _
    exact h ▸ ⟨(List.suffix_cons _ _).trans (List.suffix_cons _ _), by simp; omega⟩
  · simp at h

theorem good_takeUntilQuote {n : Nat} : GoodTo n takeUntilQuote := fun i _ => by
  have h1 : (spanP (fun c => c != '"') i).2 <:+ i := ⟨_, spanP_append _ _⟩
  unfold takeUntilQuote
  generalize spanP (fun c => c != '"') i = q at h1
  obtain ⟨s, t⟩ := q
  cases t with
  | nil => simp
  | cons c t =>
    refine ⟨by simp, fun r a h => ?_⟩
    injection h with h _
    exact h ▸ h1

/-! ### Combinators -/

theorem good_mapRes {n : Nat} {p : P α} {f : α → Option β} (h : GoodTo n p) : GoodTo n (mapRes p f) := by
  refine good_bind h fun a => ?_
  cases f a with
  | none => exact eats_fail.good
  | some b => exact good_pure b

theorem eats_mapRes {n : Nat} {p : P α} {f : α → Option β} (h : EatsTo n p) : EatsTo n (mapRes p f) := by
  refine eats_bind_left h fun a => ?_
  cases f a with
  | none => exact eats_fail.good
  | some b => exact good_pure b

theorem good_opt {n : Nat} {p : P α} (h : GoodTo n p) : GoodTo n (opt p) := by
  intro i hi
  have h1 := h i hi
  unfold opt
  cases hp : p i with
  | ok r a =>
    refine ⟨by simp, fun r' b hr => ?_⟩
    injection hr with hr _
    exact hr ▸ h1.2 r a hp
  | error =>
    refine ⟨by simp, fun r' b hr => ?_⟩
    injection hr with hr _
    exact hr ▸ List.suffix_refl _
  | stuck => exact absurd hp h1.1

theorem good_orElse {n : Nat} {p q : P α} (hp : GoodTo n p) (hq : GoodTo n q) : GoodTo n (orElse p q) := by
  intro i hi
  have h1 := hp i hi
  unfold orElse
  cases h : p i with
  | ok r a =>
    refine ⟨by simp, fun r' b hr => ?_⟩
    injection hr with hr _
    exact hr ▸ h1.2 r a h
  | error => exact hq i hi
  | stuck => exact absurd h h1.1

theorem eats_orElse {n : Nat} {p q : P α} (hp : EatsTo n p) (hq : EatsTo n q) : EatsTo n (orElse p q) := by
  intro i hi
  have h1 := hp i hi
  unfold orElse
  cases h : p i with
  | ok r a =>
    refine ⟨by simp, fun r' b hr => ?_⟩
    injection hr with hr _
    exact hr ▸ h1.2 r a h
  | error => exact hq i hi
  | stuck => exact absurd h h1.1

theorem eats_alt_one {n : Nat} {p : P α} (hp : EatsTo n p) : EatsTo n (alt [p]) := hp

theorem eats_alt_cons {n : Nat} {p q : P α} {ps : List (P α)} (hp : EatsTo n p)
    (hq : EatsTo n (alt (q :: ps))) : EatsTo n (alt (p :: q :: ps)) := eats_orElse hp hq

theorem good_alt_one {n : Nat} {p : P α} (hp : GoodTo n p) : GoodTo n (alt [p]) := hp

theorem good_alt_cons {n : Nat} {p q : P α} {ps : List (P α)} (hp : GoodTo n p)
    (hq : GoodTo n (alt (q :: ps))) : GoodTo n (alt (p :: q :: ps)) := good_orElse hp hq

theorem many0F_good {p : P α} (k : Nat) : ∀ {n : Nat}, EatsTo n p → ∀ i : Str, i.length < n → i.length < k →
    (∃ r as, many0F p k i = .ok r as ∧ r <:+ i) := by
  induction k with
  | zero => intro n _ i _ h; omega
  | succ k ih =>
    intro n hp i hi hk
    have h1 := hp i hi
    unfold many0F
    cases h : p i with
    | error => exact ⟨i, [], rfl, List.suffix_refl _⟩
    | stuck => exact absurd h h1.1
    | ok r a =>
      have h2 := h1.2 r a h
      obtain ⟨r', as, h3, h4⟩ := ih (n := n) hp r (by omega) (by omega)
      refine ⟨r', a :: as, ?_, h4.trans h2.1⟩
      simp [h2.2, h3]

theorem many0_ok {n : Nat} {p : P α} (hp : EatsTo n p) (i : Str) (hi : i.length < n) :
    ∃ r as, many0 p i = .ok r as ∧ r <:+ i := many0F_good _ hp i hi (by omega)

theorem good_many0 {n : Nat} {p : P α} (hp : EatsTo n p) : GoodTo n (many0 p) := fun i hi => by
  obtain ⟨r, as, h, hs⟩ := many0_ok hp i hi
  rw [h]
  refine ⟨by simp, fun r' a hr => ?_⟩
  injection hr with hr _
  exact hr ▸ hs

theorem eats_many1 {n : Nat} {p : P α} (hp : EatsTo n p) : EatsTo n (many1 p) := fun i hi => by
  have h1 := hp i hi
  unfold many1
  cases h : p i with
  | error => simp
  | stuck => exact absurd h h1.1
  | ok r a =>
    have h2 := h1.2 r a h
    obtain ⟨r', as, h3, h4⟩ := many0_ok hp r (by omega)
    simp only [h3]
    refine ⟨by simp, fun r'' b hr => ?_⟩
    injection hr with hr _
    exact hr ▸ ⟨h4.trans h2.1, by have := h4.length_le; omega⟩

theorem sepLoopF_good {sep : P β} {p : P α} (k : Nat) : ∀ {n : Nat}, EatsTo n sep → GoodTo (n - 1) p →
    ∀ i : Str, i.length < n → i.length < k → (∃ r as, sepLoopF sep p k i = .ok r as ∧ r <:+ i) := by
  induction k with
  | zero => intro n _ _ i _ h; omega
  | succ k ih =>
    intro n hsep hp i hi hk
    have h1 := hsep i hi
    unfold sepLoopF
    cases h : sep i with
    | error => exact ⟨i, [], rfl, List.suffix_refl _⟩
    | stuck => exact absurd h h1.1
    | ok r b =>
      have h2 := h1.2 r b h
      have h3 := hp r (by omega)
      simp only [h2.2, if_true]
      cases h' : p r with
      | error => exact ⟨i, [], rfl, List.suffix_refl _⟩
      | stuck => exact absurd h' h3.1
      | ok r' a =>
        have h4 := h3.2 r' a h'
        have := h4.length_le
        obtain ⟨r'', as, h5, h6⟩ := ih (n := n) hsep hp r' (by omega) (by omega)
        exact ⟨r'', a :: as, by simp [h5], (h6.trans h4).trans h2.1⟩

theorem sepLoop_ok {n : Nat} {sep : P β} {p : P α} (hsep : EatsTo n sep) (hp : GoodTo (n - 1) p) (i : Str)
    (hi : i.length < n) : ∃ r as, sepLoop sep p i = .ok r as ∧ r <:+ i :=
  sepLoopF_good _ hsep hp i hi (by omega)

theorem good_sepList1 {n : Nat} {sep : P β} {p : P α} (hsep : EatsTo n sep) (hp : GoodTo n p) :
    GoodTo n (sepList1 sep p) := fun i hi => by
  have h1 := hp i hi
  unfold sepList1
  cases h : p i with
  | error => simp
  | stuck => exact absurd h h1.1
  | ok r a =>
    have h2 := h1.2 r a h
    obtain ⟨r', as, h3, h4⟩ := sepLoop_ok hsep (hp.mono (by omega)) r (by have := h2.length_le; omega)
    simp only [h3]
    refine ⟨by simp, fun r'' b hr => ?_⟩
    injection hr with hr _
    exact hr ▸ h4.trans h2

theorem eats_sepList1 {n : Nat} {sep : P β} {p : P α} (hsep : EatsTo n sep) (hp : EatsTo n p) :
    EatsTo n (sepList1 sep p) := fun i hi => by
  have h1 := hp i hi
  unfold sepList1
  cases h : p i with
  | error => simp
  | stuck => exact absurd h h1.1
  | ok r a =>
    have h2 := h1.2 r a h
    obtain ⟨r', as, h3, h4⟩ := sepLoop_ok hsep (hp.good.mono (by omega)) r (by omega)
    simp only [h3]
    refine ⟨by simp, fun r'' b hr => ?_⟩
    injection hr with hr _
    exact hr ▸ ⟨h4.trans h2.1, by have := h4.length_le; omega⟩

theorem good_sepList0 {n : Nat} {sep : P β} {p : P α} (hsep : EatsTo n sep) (hp : GoodTo n p) :
    GoodTo n (sepList0 sep p) := fun i hi => by
  have h1 := good_sepList1 hsep hp i hi
  unfold sepList0
  cases h : sepList1 sep p i with
  | error =>
    refine ⟨by simp, fun r' b hr => ?_⟩
    injection hr with hr _
    exact hr ▸ List.suffix_refl _
  | stuck => exact absurd h h1.1
  | ok r a => exact ⟨by simp, fun r' b hr => by injection hr with hr _; exact hr ▸ h1.2 r a h⟩

theorem eats_delimited {n : Nat} {o c : P Unit} {p : P α} (ho : EatsTo n o) (hp : GoodTo (n - 1) p)
    (hc : GoodTo (n - 1) c) : EatsTo n (delimited o p c) :=
  eats_bind_left ho fun _ => good_bind hp fun _ => good_bind hc fun _ => good_pure _

/-- Proves `EatsTo n p` and `GoodTo n p` by following the structure of the parser. -/
syntax "good" : tactic

macro_rules
  | `(tactic| good) => `(tactic| first
    | with_reducible assumption
    | with_reducible exact eats_charP
    | with_reducible exact eats_tag
    | with_reducible exact eats_takeWhile1
    | with_reducible exact eats_lineEnding
    | with_reducible exact eats_fail
    | with_reducible exact good_space0
    | with_reducible exact good_notLineEnding
    | with_reducible exact good_takeUntilQuote
    | with_reducible exact good_pure _
    | (with_reducible refine EatsTo.mono (by assumption) ?_; omega)
    | (with_reducible refine eats_alt_one ?_; good)
    | (with_reducible refine eats_alt_cons ?_ ?_ <;> good)
    | (with_reducible refine eats_mapRes ?_; good)
    | (with_reducible refine eats_many1 ?_; good)
    | (with_reducible refine eats_sepList1 ?_ ?_ <;> good)
    | (with_reducible refine eats_delimited ?_ ?_ ?_ <;> good)
    | (with_reducible refine eats_bind_left ?_ fun _ => ?_ <;> good)
    | (with_reducible refine eats_bind_right ?_ fun _ => ?_ <;> good)
    | (with_reducible refine EatsTo.good ?_; good)
    | (with_reducible refine good_alt_one ?_; good)
    | (with_reducible refine good_alt_cons ?_ ?_ <;> good)
    | (with_reducible refine good_opt ?_; good)
    | (with_reducible refine good_many0 ?_; good)
    | (with_reducible refine good_sepList0 ?_ ?_ <;> good)
    | (with_reducible refine good_bind ?_ fun _ => ?_ <;> good))

end CallStack
