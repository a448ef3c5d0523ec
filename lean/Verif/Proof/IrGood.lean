import Verif.Proof.Nom

/-!
The parsers of src/ir.rs and its submodules consume a prefix of their input and are never stuck; the
recursion equation of `typeP`.
-/

namespace CallStack

variable {α β : Type}

theorem eats_space1 {n : Nat} : EatsTo n space1 := by unfold space1; good
theorem eats_digit1 {n : Nat} : EatsTo n digit1 := by unfold digit1; good

macro_rules | `(tactic| good) => `(tactic| with_reducible first | exact eats_space1 | exact eats_digit1)

theorem eats_commentP {n : Nat} : EatsTo n commentP := by unfold commentP; good
theorem eats_identP {n : Nat} (u : CharClass) : EatsTo n (identP u) := by unfold identP; good
theorem eats_stringP {n : Nat} : EatsTo n stringP := by unfold stringP; good

macro_rules | `(tactic| good) => `(tactic| with_reducible first | exact eats_commentP | exact eats_identP _ | exact eats_stringP)

theorem eats_globalP {n : Nat} (u : CharClass) : EatsTo n (globalP u) := by unfold globalP; good
theorem eats_localP {n : Nat} (u : CharClass) : EatsTo n (localP u) := by unfold localP; good
theorem eats_nullP {n : Nat} : EatsTo n nullP := by unfold nullP; good
theorem eats_undefP {n : Nat} : EatsTo n undefP := by unfold undefP; good
theorem eats_nameP {n : Nat} (u : CharClass) : EatsTo n (nameP u) := by unfold nameP; good

macro_rules | `(tactic| good) => `(tactic| with_reducible first | exact eats_globalP _ | exact eats_localP _ | exact eats_nullP | exact eats_undefP | exact eats_nameP _)

theorem eats_functionP {n : Nat} (u : CharClass) : EatsTo n (functionP u) := by unfold functionP; good
theorem eats_aliasP {n : Nat} (u : CharClass) : EatsTo n (aliasP u) := by unfold aliasP; good
theorem eats_usizeP {n : Nat} : EatsTo n usizeP := by unfold usizeP; good
theorem eats_commaP {n : Nat} : EatsTo n commaP := by unfold commaP; good

macro_rules | `(tactic| good) => `(tactic| with_reducible first | exact eats_functionP _ | exact eats_aliasP _ | exact eats_usizeP | exact eats_commaP)

/-! ### Types -/

theorem starsP_ok : ∀ (i : Str) (t : Ty), ∃ r t', starsP t i = .ok r t' ∧ r <:+ i
  | [], t => ⟨[], t, by simp [starsP], List.suffix_refl _⟩
  | c :: i, t => by
    by_cases h : c = '*'
    · subst h
      obtain ⟨r, t', h1, h2⟩ := starsP_ok i (.pointer t)
      exact ⟨r, t', by simpa [starsP] using h1, h2.trans (List.suffix_cons _ _)⟩
    · exact ⟨c :: i, t, by
        unfold starsP
        split
        · rename_i heq; injection heq with heq _; exact absurd heq h
        · rfl, List.suffix_refl _⟩

theorem good_starsP {n : Nat} (t : Ty) : GoodTo n (starsP t) := fun i _ => by
  obtain ⟨r, t', h1, h2⟩ := starsP_ok i t
  rw [h1]
  refine ⟨by simp, fun r' b hr => ?_⟩
  injection hr with hr _
  exact hr ▸ h2

theorem eats_fieldsP {n : Nat} {ty : P Ty} (h : EatsTo (n - 1) ty) : EatsTo n (fieldsP ty) := by
  unfold fieldsP; good

theorem eats_fnInputsP {n : Nat} {ty : P Ty} (h : EatsTo (n - 1) ty) : EatsTo n (fnInputsP ty) := by
  unfold fnInputsP; good

theorem eats_fnTailP {n : Nat} {ty : P Ty} (h : EatsTo (n - 1) ty) : EatsTo n (fnTailP ty) := by
  refine eats_bind_left eats_space1 fun _ => (eats_fnInputsP (h.mono (by omega))).good

theorem fnLoopF_good {ty : P Ty} (k : Nat) : ∀ {n : Nat}, EatsTo (n - 1) ty → ∀ (i : Str) (t : Ty),
    i.length < n → i.length < k → (∃ r t', fnLoopF ty k t i = .ok r t' ∧ r <:+ i) := by
  induction k with
  | zero => intro n _ i t _ h; omega
  | succ k ih =>
    intro n hty i t hi hk
    have h1 := eats_fnTailP hty i hi
    unfold fnLoopF opt
    cases h : fnTailP ty i with
    | stuck => exact absurd h h1.1
    | error => exact ⟨i, t, rfl, List.suffix_refl _⟩
    | ok r inputs =>
      have h2 := h1.2 r inputs h
      obtain ⟨r', t', h3, h4⟩ := starsP_ok r (.fn inputs (some t))
      have := h4.length_le
      obtain ⟨r'', t'', h5, h6⟩ := ih hty r' t' (by omega) (by omega)
      exact ⟨r'', t'', by simp [h3, h5], h6.trans (h4.trans h2.1)⟩

theorem good_fnLoopP {n : Nat} {ty : P Ty} (h : EatsTo (n - 1) ty) (t : Ty) : GoodTo n (fnLoopP ty t) :=
  fun i hi => by
    obtain ⟨r, t', h1, h2⟩ := fnLoopF_good (i.length + 1) h i t hi (by omega)
    unfold fnLoopP
    rw [h1]
    refine ⟨by simp, fun r' b hr => ?_⟩
    injection hr with hr _
    exact hr ▸ h2

theorem eats_baseP {n : Nat} (u : CharClass) {ty : P Ty} (h : EatsTo (n - 1) ty) :
    EatsTo n (baseP u ty) := by
  have hf := eats_fieldsP h
  have hf1 : EatsTo (n - 1) (fieldsP ty) := eats_fieldsP (h.mono (by omega))
  have h1 : EatsTo (n - 1 - 1) ty := h.mono (by omega)
  unfold baseP arrayP packedStructP structP tyAliasP doubleP floatP opaquePointerP integerP varargsP
    mvtVectorP countedP
  good

theorem eats_typeBody {n : Nat} (u : CharClass) {ty : P Ty} (h : EatsTo (n - 1) ty) :
    EatsTo n (typeBody u ty) := by
  refine eats_bind_right (by good) fun o => ?_
  cases o with
  | some x =>
    refine eats_bind_left eats_space1 fun _ => good_bind (eats_fnInputsP (h.mono (by omega))).good
      fun _ => good_starsP _
  | none =>
    refine eats_bind_left (eats_baseP u h) fun _ => good_bind (good_starsP _) fun _ =>
      good_fnLoopP (h.mono (by omega)) _

theorem eats_typeF (u : CharClass) : ∀ n : Nat, EatsTo n (typeF u n) := by
  intro n
  induction n with
  | zero => intro i hi; exact absurd hi (by omega)
  | succ n ih => exact eats_typeBody (n := n + 1) u ih

theorem eats_typeP {n : Nat} (u : CharClass) : EatsTo n (typeP u) := fun i _ =>
  eats_typeF u (i.length + 1) i (by omega)

macro_rules | `(tactic| good) => `(tactic| with_reducible exact eats_typeP _)

/-! ### More fuel does not change results -/

/-- `q` gives the same results as `p` wherever `p` is not stuck. -/
def Le (p q : P α) : Prop := ∀ i, p i = .stuck ∨ p i = q i

theorem Le.refl (p : P α) : Le p p := fun _ => .inr rfl

theorem le_bind {p q : P α} {f g : α → P β} (h : Le p q) (hf : ∀ a, Le (f a) (g a)) :
    Le (p >>= f) (q >>= g) := by
  intro i
  rcases h i with hi | hi
  · exact .inl (P.bind_stuck hi)
  · cases hp : p i with
    | stuck => exact .inl (P.bind_stuck hp)
    | error => exact .inr (by rw [P.bind_error hp, P.bind_error (hi ▸ hp)])
    | ok r a => rw [P.bind_ok hp, P.bind_ok (hi ▸ hp)]; exact hf a r

theorem le_orElse {p q p' q' : P α} (h : Le p q) (h' : Le p' q') : Le (orElse p p') (orElse q q') := by
  intro i
  unfold orElse
  rcases h i with hi | hi
  · exact .inl (by rw [hi])
  · cases hp : p i with
    | stuck => exact .inl rfl
    | error => rw [hi] at hp; rw [hp]; exact h' i
    | ok r a => rw [hi] at hp; rw [hp]; exact .inr rfl

theorem le_opt {p q : P α} (h : Le p q) : Le (opt p) (opt q) := by
  intro i
  unfold opt
  rcases h i with hi | hi
  · exact .inl (by rw [hi])
  · exact .inr (by rw [hi])

theorem le_sepLoopF {sep : P β} {p q : P α} (h : Le p q) (n : Nat) :
    Le (sepLoopF sep p n) (sepLoopF sep q n) := by
  induction n with
  | zero => exact fun i => .inl rfl
  | succ n ih =>
    intro i
    unfold sepLoopF
    cases sep i with
    | stuck => exact .inl rfl
    | error => exact .inr rfl
    | ok r b =>
      by_cases hl : r.length < i.length
      · simp only [if_pos hl]
        rcases h r with hr | hr
        · exact .inl (by rw [hr])
        · rw [← hr]
          cases p r with
          | stuck => exact .inl rfl
          | error => exact .inr rfl
          | ok r' a =>
            rcases ih r' with h' | h'
            · exact .inl (by simp only [h'])
            · exact .inr (by simp only [h'])
      · exact .inl (by simp only [if_neg hl])

theorem le_sepList0 {sep : P β} {p q : P α} (h : Le p q) : Le (sepList0 sep p) (sepList0 sep q) := by
  intro i
  unfold sepList0 sepList1
  rcases h i with hi | hi
  · exact .inl (by rw [hi])
  · rw [← hi]
    cases p i with
    | stuck => exact .inl rfl
    | error => exact .inr rfl
    | ok r a =>
      rcases le_sepLoopF (sep := sep) h (r.length + 1) r with h' | h'
      · exact .inl (by simp only [sepLoop, h'])
      · exact .inr (by simp only [sepLoop, h'])

theorem le_countedP {p q : P Ty} (h : Le p q) (mk : Nat → Ty → Ty) : Le (countedP p mk) (countedP q mk) :=
  le_bind (Le.refl _) fun _ => le_bind (Le.refl _) fun _ => le_bind (Le.refl _) fun _ =>
    le_bind (Le.refl _) fun _ => le_bind h fun _ => Le.refl _

theorem le_delimited {p q : P α} (h : Le p q) (o c : P Unit) : Le (delimited o p c) (delimited o q c) :=
  le_bind (Le.refl _) fun _ => le_bind h fun _ => Le.refl _

theorem le_fieldsP {p q : P Ty} (h : Le p q) : Le (fieldsP p) (fieldsP q) :=
  le_bind (Le.refl _) fun _ => le_bind (Le.refl _) fun _ => le_bind (le_sepList0 h) fun _ => Le.refl _

theorem le_fnInputsP {p q : P Ty} (h : Le p q) : Le (fnInputsP p) (fnInputsP q) :=
  le_bind (Le.refl _) fun _ => le_bind (Le.refl _) fun _ => le_bind (le_sepList0 h) fun _ => Le.refl _

theorem le_fnTailP {p q : P Ty} (h : Le p q) : Le (fnTailP p) (fnTailP q) :=
  le_bind (Le.refl _) fun _ => le_fnInputsP h

theorem le_fnLoopF {p q : P Ty} (h : Le p q) (n : Nat) : ∀ t, Le (fnLoopF p n t) (fnLoopF q n t) := by
  induction n with
  | zero => exact fun t i => .inl rfl
  | succ n ih =>
    intro t i
    unfold fnLoopF
    rcases le_opt (le_fnTailP h) i with hi | hi
    · exact .inl (by rw [hi])
    · rw [← hi]
      cases opt (fnTailP p) i with
      | stuck => exact .inl rfl
      | error => exact .inr rfl
      | ok r o =>
        cases o with
        | none => exact .inr rfl
        | some inputs =>
          cases hs : starsP (.fn inputs (some t)) r with
          | stuck => exact .inl (by simp only [hs])
          | error => exact .inr (by simp only [hs])
          | ok r' t' => simp only [hs]; exact ih t' r'

theorem le_baseP (u : CharClass) {p q : P Ty} (h : Le p q) : Le (baseP u p) (baseP u q) :=
  le_orElse (le_delimited (le_countedP h _) _ _) <|
  le_orElse (le_bind (Le.refl _) fun _ => le_bind (le_fieldsP h) fun _ => Le.refl _) <|
  le_orElse (le_bind (le_fieldsP h) fun _ => Le.refl _) <|
  le_orElse (Le.refl _) <| le_orElse (Le.refl _) <| le_orElse (Le.refl _) <| le_orElse (Le.refl _) <|
  le_orElse (Le.refl _) <| le_orElse (Le.refl _) <| le_delimited (le_countedP h _) _ _

theorem le_typeBody (u : CharClass) {p q : P Ty} (h : Le p q) : Le (typeBody u p) (typeBody u q) := by
  refine le_bind (Le.refl _) fun o => ?_
  cases o with
  | some x => exact le_bind (Le.refl _) fun _ => le_bind (le_fnInputsP h) fun _ => Le.refl _
  | none =>
    exact le_bind (le_baseP u h) fun _ => le_bind (Le.refl _) fun t => fun i => le_fnLoopF h _ t i

theorem le_typeF_succ (u : CharClass) (n : Nat) : Le (typeF u n) (typeF u (n + 1)) := by
  induction n with
  | zero => exact fun i => .inl rfl
  | succ n ih => exact le_typeBody u ih

theorem le_typeF (u : CharClass) {n m : Nat} (h : n ≤ m) : Le (typeF u n) (typeF u m) := by
  induction h with
  | refl => exact Le.refl _
  | @step m _ ih =>
    intro i
    rcases ih i with hi | hi
    · exact .inl hi
    · rw [hi]; exact le_typeF_succ u m i

theorem typeF_eq (u : CharClass) {n : Nat} {i : Str} (h : i.length < n) : typeF u n i = typeP u i := by
  rcases le_typeF u (n := i.length + 1) (m := n) (by omega) i with hi | hi
  · exact absurd hi (eats_typeF u (i.length + 1) i (by omega)).1
  · exact hi.symm

theorem le_typeP (u : CharClass) (n : Nat) : Le (typeF u n) (typeP u) := by
  intro i
  by_cases h : i.length < n
  · exact .inr (typeF_eq u h)
  · exact le_typeF u (n := n) (m := i.length + 1) (by omega) i

/-- `typeP` satisfies the recursion of the code, without any bound. -/
theorem typeP_unfold (u : CharClass) (i : Str) : typeP u i = typeBody u (typeP u) i := by
  rw [← typeF_eq u (n := i.length + 2) (by omega)]
  rcases le_typeBody u (le_typeP u (i.length + 1)) i with h | h
  · exact absurd h (eats_typeF u (i.length + 2) i (by omega)).1
  · exact h

/-! ### The unfolding of loops -/

theorem many0F_eq {p : P α} (n : Nat) : ∀ (m : Nat) (i : Str), i.length < n → i.length < m →
    many0F p n i = many0F p m i := by
  induction n with
  | zero => intro m i h; omega
  | succ n ih =>
    intro m i h1 h2
    obtain ⟨m, rfl⟩ : ∃ k, m = k + 1 := ⟨m - 1, by omega⟩
    unfold many0F
    cases p i with
    | stuck => rfl
    | error => rfl
    | ok r a =>
      by_cases hl : r.length < i.length
      · simp only [if_pos hl]
        rw [ih m r (by omega) (by omega)]
      · simp only [if_neg hl]

theorem many0_error {p : P α} {i : Str} (h : p i = .error) : many0 p i = .ok i [] := by
  unfold many0 many0F
  rw [h]

theorem many0_cons {p : P α} {i r r' : Str} {a : α} {as : List α} (h : p i = .ok r a)
    (hl : r.length < i.length) (h' : many0 p r = .ok r' as) : many0 p i = .ok r' (a :: as) := by
  unfold many0 at h' ⊢
  rw [many0F, h]
  simp only [if_pos hl]
  rw [many0F_eq _ (r.length + 1) r (by omega) (by omega), h']

/-- One round of `many0`. -/
theorem many0_eq_ok {p : P α} {i r' : Str} {as : List α} (h : many0 p i = .ok r' as) :
    (p i = .error ∧ r' = i ∧ as = []) ∨ ∃ r a as', p i = .ok r a ∧ r.length < i.length ∧
      many0 p r = .ok r' as' ∧ as = a :: as' := by
  unfold many0 many0F at h
  cases hp : p i with
  | stuck => rw [hp] at h; simp at h
  | error =>
    rw [hp] at h
    injection h with h1 h2
    exact .inl ⟨rfl, h1.symm, h2.symm⟩
  | ok r a =>
    rw [hp] at h
    by_cases hl : r.length < i.length
    · simp only [if_pos hl] at h
      rw [many0F_eq _ (r.length + 1) r (by omega) (by omega)] at h
      change (match many0 p r with | .ok r' as => .ok r' (a :: as) | .error => .error | .stuck => .stuck)
        = Res.ok r' as at h
      cases hm : many0 p r with
      | ok r'' as' =>
        rw [hm] at h
        injection h with h1 h2
        exact .inr ⟨r, a, as', rfl, hl, by rw [hm, h1], h2.symm⟩
      | error => rw [hm] at h; simp at h
      | stuck => rw [hm] at h; simp at h
    · simp only [if_neg hl] at h
      simp at h

theorem sepLoopF_eq {sep : P β} {p : P α} (hp : ∀ n, GoodTo n p) (n : Nat) :
    ∀ (m : Nat) (i : Str), i.length < n → i.length < m → sepLoopF sep p n i = sepLoopF sep p m i := by
  induction n with
  | zero => intro m i h; omega
  | succ n ih =>
    intro m i h1 h2
    obtain ⟨m, rfl⟩ : ∃ k, m = k + 1 := ⟨m - 1, by omega⟩
    unfold sepLoopF
    cases sep i with
    | stuck => rfl
    | error => rfl
    | ok r b =>
      by_cases hl : r.length < i.length
      · simp only [if_pos hl]
        cases h : p r with
        | stuck => rfl
        | error => rfl
        | ok r' a =>
          have := ((hp (r.length + 1) r (by omega)).2 r' a h).length_le
          simp only
          rw [ih m r' (by omega) (by omega)]
      · simp only [if_neg hl]

theorem sepLoop_error {sep : P β} {p : P α} {i : Str} (h : sep i = .error) : sepLoop sep p i = .ok i [] := by
  unfold sepLoop sepLoopF
  rw [h]

theorem sepLoop_stop {sep : P β} {p : P α} {i r : Str} {b : β} (h : sep i = .ok r b)
    (hl : r.length < i.length) (h' : p r = .error) : sepLoop sep p i = .ok i [] := by
  unfold sepLoop sepLoopF
  rw [h]
  simp only [if_pos hl]
  rw [h']

theorem sepLoop_cons {sep : P β} {p : P α} (hg : ∀ n, GoodTo n p) {i r r' r'' : Str} {b : β} {a : α}
    {as : List α} (h : sep i = .ok r b) (hl : r.length < i.length) (hp : p r = .ok r' a)
    (h' : sepLoop sep p r' = .ok r'' as) : sepLoop sep p i = .ok r'' (a :: as) := by
  have := ((hg (r.length + 1) r (by omega)).2 r' a hp).length_le
  unfold sepLoop at h' ⊢
  rw [sepLoopF, h]
  simp only [if_pos hl]
  rw [hp]
  simp only
  rw [sepLoopF_eq hg _ (r'.length + 1) r' (by omega) (by omega), h']

/-- One round of the loop of a separated list. -/
theorem sepLoop_eq_ok {sep : P β} {p : P α} (hg : ∀ n, GoodTo n p) {i r'' : Str} {as : List α}
    (h : sepLoop sep p i = .ok r'' as) :
    (sep i = .error ∧ r'' = i ∧ as = []) ∨
    (∃ r b, sep i = .ok r b ∧ r.length < i.length ∧ p r = .error ∧ r'' = i ∧ as = []) ∨
    ∃ r b r' a as', sep i = .ok r b ∧ r.length < i.length ∧ p r = .ok r' a ∧
      sepLoop sep p r' = .ok r'' as' ∧ as = a :: as' := by
  unfold sepLoop sepLoopF at h
  cases hs : sep i with
  | stuck => rw [hs] at h; simp at h
  | error =>
    rw [hs] at h
    injection h with h1 h2
    exact .inl ⟨rfl, h1.symm, h2.symm⟩
  | ok r b =>
    rw [hs] at h
    by_cases hl : r.length < i.length
    · simp only [if_pos hl] at h
      cases hp : p r with
      | stuck => rw [hp] at h; simp at h
      | error =>
        rw [hp] at h
        injection h with h1 h2
        exact .inr (.inl ⟨r, b, rfl, hl, hp, h1.symm, h2.symm⟩)
      | ok r' a =>
        rw [hp] at h
        have := ((hg (r.length + 1) r (by omega)).2 r' a hp).length_le
        simp only at h
        rw [sepLoopF_eq hg _ (r'.length + 1) r' (by omega) (by omega)] at h
        change (match sepLoop sep p r' with
          | .ok r' as => .ok r' (a :: as) | .error => .error | .stuck => .stuck) = Res.ok r'' as at h
        cases hm : sepLoop sep p r' with
        | ok r3 as' =>
          rw [hm] at h
          injection h with h1 h2
          exact .inr (.inr ⟨r, b, r', a, as', rfl, hl, hp, by rw [hm, h1], h2.symm⟩)
        | error => rw [hm] at h; simp at h
        | stuck => rw [hm] at h; simp at h
    · simp only [if_neg hl] at h
      simp at h

theorem sepList1_eq {sep : P β} {p : P α} {i r r' : Str} {a : α} {as : List α} (h : p i = .ok r a)
    (h' : sepLoop sep p r = .ok r' as) : sepList1 sep p i = .ok r' (a :: as) := by
  unfold sepList1
  rw [h]
  simp only [h']

theorem sepList1_eq_ok {sep : P β} {p : P α} {i r' : Str} {as : List α} (h : sepList1 sep p i = .ok r' as) :
    ∃ r a as', p i = .ok r a ∧ sepLoop sep p r = .ok r' as' ∧ as = a :: as' := by
  unfold sepList1 at h
  cases hp : p i with
  | stuck => rw [hp] at h; simp at h
  | error => rw [hp] at h; simp at h
  | ok r a =>
    rw [hp] at h
    simp only at h
    cases hm : sepLoop sep p r with
    | ok r'' as' =>
      rw [hm] at h
      injection h with h1 h2
      exact ⟨r, a, as', rfl, by rw [hm, h1], h2.symm⟩
    | error => rw [hm] at h; simp at h
    | stuck => rw [hm] at h; simp at h

theorem sepList0_error {sep : P β} {p : P α} {i : Str} (h : p i = .error) :
    sepList0 sep p i = .ok i [] := by
  unfold sepList0 sepList1
  rw [h]

theorem sepList0_eq {sep : P β} {p : P α} {i r r' : Str} {a : α} {as : List α} (h : p i = .ok r a)
    (h' : sepLoop sep p r = .ok r' as) : sepList0 sep p i = .ok r' (a :: as) := by
  unfold sepList0
  rw [sepList1_eq h h']

/-! ### The other parsers -/

theorem eats_attributeP {n : Nat} (u : CharClass) : EatsTo n (attributeP u) := by
  refine eats_bind_left eats_takeWhile1 fun attr => ?_
  cases attrKind attr <;> simp only <;> good

macro_rules | `(tactic| good) => `(tactic| with_reducible exact eats_attributeP _)

theorem good_attrsP {n : Nat} (u : CharClass) : GoodTo n (attrsP u) := by unfold attrsP; good
theorem good_attrsAfterP {n : Nat} (u : CharClass) : GoodTo n (attrsAfterP u) := by unfold attrsAfterP; good
theorem eats_gepIndexP {n : Nat} (u : CharClass) : EatsTo n (gepIndexP u) := by unfold gepIndexP; good

macro_rules | `(tactic| good) => `(tactic| with_reducible first | exact good_attrsP _ | exact good_attrsAfterP _ | exact eats_gepIndexP _)

theorem eats_gepInnerP {n : Nat} (u : CharClass) : EatsTo n (gepInnerP u) := by unfold gepInnerP; good

macro_rules | `(tactic| good) => `(tactic| with_reducible exact eats_gepInnerP _)

theorem eats_getelementptrP {n : Nat} (u : CharClass) : EatsTo n (getelementptrP u) := by
  unfold getelementptrP; good

macro_rules | `(tactic| good) => `(tactic| with_reducible exact eats_getelementptrP _)

theorem eats_bitcastP {n : Nat} (u : CharClass) : EatsTo n (bitcastP u) := by
  unfold bitcastP bitcastInnerP; good

theorem eats_outputP {n : Nat} (u : CharClass) : EatsTo n (outputP u) := by unfold outputP; good
theorem good_tailP {n : Nat} : GoodTo n tailP := by unfold tailP; good

macro_rules | `(tactic| good) => `(tactic| with_reducible first | exact eats_bitcastP _ | exact eats_outputP _ | exact good_tailP)

theorem eats_parameterP {n : Nat} (u : CharClass) : EatsTo n (parameterP u) := by unfold parameterP; good
theorem eats_labelP {n : Nat} (u : CharClass) : EatsTo n (labelP u) := by unfold labelP; good
theorem eats_stmtCommentP {n : Nat} : EatsTo n stmtCommentP := by unfold stmtCommentP; good
theorem eats_asmP {n : Nat} (u : CharClass) : EatsTo n (asmP u) := by unfold asmP; good
theorem eats_valueP {n : Nat} (u : CharClass) : EatsTo n (valueP u) := by unfold valueP; good

macro_rules | `(tactic| good) => `(tactic| with_reducible first | exact eats_parameterP _ | exact eats_labelP _ | exact eats_stmtCommentP | exact eats_asmP _ | exact eats_valueP _)

theorem eats_argumentP {n : Nat} (u : CharClass) : EatsTo n (argumentP u) := by unfold argumentP; good

macro_rules | `(tactic| good) => `(tactic| with_reducible exact eats_argumentP _)

theorem eats_bitcastCallP {n : Nat} (u : CharClass) : EatsTo n (bitcastCallP u) := by
  unfold bitcastCallP; good
theorem eats_directCallP {n : Nat} (u : CharClass) : EatsTo n (directCallP u) := by
  unfold directCallP; good
theorem eats_indirectCallP {n : Nat} (u : CharClass) : EatsTo n (indirectCallP u) := by
  unfold indirectCallP; good
theorem eats_tokenP {n : Nat} : EatsTo n tokenP := by unfold tokenP; good

macro_rules | `(tactic| good) => `(tactic| with_reducible first | exact eats_bitcastCallP _ | exact eats_directCallP _ | exact eats_indirectCallP _ | exact eats_tokenP)

theorem eats_otherP {n : Nat} : EatsTo n otherP := by unfold otherP; good

macro_rules | `(tactic| good) => `(tactic| with_reducible exact eats_otherP)

theorem eats_assignP {n : Nat} (u : CharClass) : EatsTo n (assignP u) := by unfold assignP; good

macro_rules | `(tactic| good) => `(tactic| with_reducible exact eats_assignP _)

theorem eats_indentedP {n : Nat} (u : CharClass) : EatsTo n (indentedP u) := by unfold indentedP; good

macro_rules | `(tactic| good) => `(tactic| with_reducible exact eats_indentedP _)

theorem eats_stmtP {n : Nat} (u : CharClass) : EatsTo n (stmtP u) := by unfold stmtP; good

macro_rules | `(tactic| good) => `(tactic| with_reducible exact eats_stmtP _)

theorem eats_defineP {n : Nat} (u : CharClass) : EatsTo n (defineP u) := by unfold defineP; good

macro_rules | `(tactic| good) => `(tactic| with_reducible exact eats_defineP _)

theorem good_declareRestP {n : Nat} (u : CharClass) (o : Option Ty) (s : Str) :
    GoodTo n (declareRestP u o s) := by
  unfold declareRestP declParamP
  split <;> good

macro_rules | `(tactic| good) => `(tactic| with_reducible exact good_declareRestP _ _ _)

theorem eats_itemP {n : Nat} (u : CharClass) : EatsTo n (itemP u) := by
  unfold itemP itemCommentP sourceFilenameP targetP itemTypeP itemGlobalP itemAliasP declareP attributesP
    metadataP moduleAsmP
  good

end CallStack
