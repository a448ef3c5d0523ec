import Verif.Proof.IrTypes
import Verif.Spec.IrModule

/-!
Reading attributes and output types.
-/

namespace CallStack

variable {α β : Type}

/-- The characters of attributes. -/
def wordChar (u : CharClass) (c : Char) : Bool := u.alphabetic c || c == '_'

theorem wordChar_iff (u : CharClass) (c : Char) : wordChar u c = true ↔ u.alphabetic c = true ∨ c = '_' := by
  simp [wordChar]

theorem wordChar_ident (u : CharClass) {c : Char} (h : wordChar u c = true) : identChar u c = true := by
  rcases (wordChar_iff u c).1 h with h | h <;> simp [identChar, CharClass.alphanumeric, h]

theorem wordChar_ascii (u : CharClass) {c : Char} (h : c.toNat < 128) :
    wordChar u c = ((65 ≤ c.toNat && c.toNat ≤ 90) || (97 ≤ c.toNat && c.toNat ≤ 122) || c == '_') := by
  simp [wordChar, u.alphabetic_ascii c h]

theorem wordChar_not_digit (u : CharClass) {c : Char} (h : wordChar u c = true) : isDigit c = false := by
  cases hd : isDigit c with
  | false => rfl
  | true =>
    simp only [isDigit, Bool.and_eq_true, decide_eq_true_eq] at hd
    have hu : c ≠ '_' := by rintro rfl; exact absurd hd (by decide)
    rw [wordChar_ascii u (by omega)] at h
    simp [hu] at h
    omega

theorem wordChar_not_space (u : CharClass) {c : Char} (h : wordChar u c = true) : isSpace c = false := by
  cases hd : isSpace c with
  | false => rfl
  | true => have := identChar_space u hd; rw [wordChar_ident u h] at this; exact this

/-- The text does not go on with a letter or underscore. -/
def NoWord (u : CharClass) (k : Str) : Prop := ∀ c, k.head? = some c → wordChar u c = false

theorem Stop.noWord {u : CharClass} {k : Str} (h : Stop u k) : NoWord u k := fun c hc => by
  cases hw : wordChar u c with
  | false => rfl
  | true => have := h c hc; rw [wordChar_ident u hw] at this; exact this

theorem noWord_cons {u : CharClass} {c : Char} (k : Str) (h : wordChar u c = false) : NoWord u (c :: k) := by
  intro d hd
  simp only [List.head?_cons, Option.some.injEq] at hd
  exact hd ▸ h

theorem noWord_digits {u : CharClass} {ds : Str} (h : Digits ds) (k : Str) : NoWord u (ds ++ k) := by
  obtain ⟨d, ds, rfl⟩ := List.exists_cons_of_ne_nil h.1
  refine noWord_cons _ ?_
  have := (isDigit_iff d).2 (h.2 d (by simp))
  cases hw : wordChar u d with
  | false => rfl
  | true => rw [wordChar_not_digit u hw] at this; exact absurd this (by simp)

/-- ASCII words. -/
theorem wordChars (u : CharClass) {w : Str} (h : w.all (fun c => decide (c.toNat < 128) &&
    ((65 ≤ c.toNat && c.toNat ≤ 90) || (97 ≤ c.toNat && c.toNat ≤ 122) || c == '_')) = true) :
    ∀ c ∈ w, wordChar u c = true := by
  intro c hc
  have := List.all_eq_true.1 h c hc
  rw [Bool.and_eq_true, decide_eq_true_eq] at this
  rw [wordChar_ascii u this.1, this.2]

/-! ### One attribute -/

/-- What follows the name of an attribute. -/
def attrRestP (u : CharClass) : AttrKind → P Unit
  | .number => do
    charP '('
    let _ ← digit1
    charP ')'
  | .type => do
    charP '('
    let _ ← typeP u
    charP ')'
  | .align => do
    space1
    let _ ← digit1
  | .none => P.fail
  | .plain => pure ()

theorem attributeP_def (u : CharClass) :
    attributeP u = (takeWhile1 (wordChar u) >>= fun a => attrRestP u (attrKind a)) := by
  unfold attributeP
  congr 1

theorem attributeP_word {u : CharClass} {w k : Str} (hw : w ≠ []) (hc : ∀ c ∈ w, wordChar u c = true)
    (hk : NoWord u k) : attributeP u (w ++ k) = attrRestP u (attrKind w) k := by
  rw [attributeP_def]
  exact P.bind_ok (takeWhile1_eq hw hc hk)

theorem attrKind_plain {w : Str} (h1 : w ∉ numberAttrs) (h2 : w ∉ typeAttrs) (h3 : w ≠ c!"align")
    (h4 : w ∉ keywords) : attrKind w = .plain := by
  simp only [numberAttrs, typeAttrs, keywords, List.mem_cons, List.not_mem_nil, or_false, not_or] at h1 h2 h4
  unfold attrKind
  simp [h1, h2, h3, h4]

theorem numberAttrs_kind {w : Str} (h : w ∈ numberAttrs) : attrKind w = .number := by
  simp only [numberAttrs, List.mem_cons, List.not_mem_nil, or_false] at h
  rcases h with rfl | rfl | rfl <;> decide

theorem typeAttrs_kind {w : Str} (h : w ∈ typeAttrs) : attrKind w = .type := by
  simp only [typeAttrs, List.mem_cons, List.not_mem_nil, or_false] at h
  rcases h with rfl | rfl | rfl | rfl | rfl | rfl <;> decide

theorem keywords_kind {w : Str} (h : w ∈ keywords) : attrKind w = .none := by
  simp only [keywords, List.mem_cons, List.not_mem_nil, or_false] at h
  rcases h with rfl | rfl | rfl | rfl | rfl | rfl | rfl | rfl | rfl <;> decide

theorem numberAttrs_word (u : CharClass) {w : Str} (h : w ∈ numberAttrs) :
    w ≠ [] ∧ ∀ c ∈ w, wordChar u c = true := by
  simp only [numberAttrs, List.mem_cons, List.not_mem_nil, or_false] at h
  rcases h with rfl | rfl | rfl <;> exact ⟨by simp, wordChars u (by decide)⟩

theorem typeAttrs_word (u : CharClass) {w : Str} (h : w ∈ typeAttrs) :
    w ≠ [] ∧ ∀ c ∈ w, wordChar u c = true := by
  simp only [typeAttrs, List.mem_cons, List.not_mem_nil, or_false] at h
  rcases h with rfl | rfl | rfl | rfl | rfl | rfl <;> exact ⟨by simp, wordChars u (by decide)⟩

theorem keywords_word (u : CharClass) {w : Str} (h : w ∈ keywords) :
    w ≠ [] ∧ ∀ c ∈ w, wordChar u c = true := by
  simp only [keywords, List.mem_cons, List.not_mem_nil, or_false] at h
  rcases h with rfl | rfl | rfl | rfl | rfl | rfl | rfl | rfl | rfl <;>
    exact ⟨by simp, wordChars u (by decide)⟩

theorem wordChar_paren (u : CharClass) : wordChar u '(' = false := by rw [wordChar_ascii u (by decide)]; decide

theorem noWord_blanks {u : CharClass} {b : Str} (h : Blanks b) (k : Str) : NoWord u (b ++ k) :=
  (stop_blanks u h k).noWord

theorem isDigit_paren : ∀ {k : Str} (c : Char), (')' :: k : Str).head? = some c → isDigit c = false := by
  intro k c hc
  simp only [List.head?_cons, Option.some.injEq] at hc
  subst hc
  decide

theorem Digits.noBlank {ds : Str} (h : Digits ds) (k : Str) : NoBlank (ds ++ k) := by
  obtain ⟨d, ds, rfl⟩ := List.exists_cons_of_ne_nil h.1
  refine noBlank_cons _ ?_
  have := (isDigit_iff d).2 (h.2 d (by simp))
  cases hs : isSpace d with
  | false => rfl
  | true => rcases (isSpace_iff d).1 hs with rfl | rfl <;> exact absurd this (by decide)

/-- The word with which an attribute begins. -/
theorem AttrText.word' {u : CharClass} {a : Str} (h : AttrText u a) {k : Str} (hk : Stop u k) :
    ∃ w k', a ++ k = w ++ k' ∧ w ≠ [] ∧ (∀ c ∈ w, wordChar u c = true) ∧ NoWord u k' ∧
      w ∉ keywords ∧ ∀ c, k'.head? = some c → isDigit c = false := by
  cases h with
  | word h1 h2 h3 h4 h5 h6 =>
    exact ⟨a, k, rfl, h1, fun c hc => (wordChar_iff u c).2 (h2 c hc), hk.noWord, h6, hk.digit⟩
  | number h1 h2 =>
    rename_i w ds
    refine ⟨w, '(' :: (ds ++ c!")" ++ k), by simp, (numberAttrs_word u h1).1, (numberAttrs_word u h1).2,
      noWord_cons _ (wordChar_paren u), ?_, ?_⟩
    · intro h
      have := keywords_kind h
      rw [numberAttrs_kind h1] at this
      simp at this
    · intro c hc
      simp only [List.head?_cons, Option.some.injEq] at hc
      subst hc
      decide
  | type h1 h2 =>
    rename_i w s t
    refine ⟨w, '(' :: (s ++ c!")" ++ k), by simp, (typeAttrs_word u h1).1, (typeAttrs_word u h1).2,
      noWord_cons _ (wordChar_paren u), ?_, ?_⟩
    · intro h
      have := keywords_kind h
      rw [typeAttrs_kind h1] at this
      simp at this
    · intro c hc
      simp only [List.head?_cons, Option.some.injEq] at hc
      subst hc
      decide
  | align h1 h2 =>
    rename_i b ds
    refine ⟨c!"align", b ++ (ds ++ k), by simp, by simp, wordChars u (by decide), noWord_blanks h1 _,
      by decide, (stop_blanks u h1 _).digit⟩

theorem AttrText.noBlank {u : CharClass} {a : Str} (h : AttrText u a) (k : Str) : NoBlank (a ++ k) := by
  obtain ⟨w, k', h1, h2, h3, _⟩ := h.word' (stop_nil u)
  rw [List.append_nil] at h1
  obtain ⟨c, w, rfl⟩ := List.exists_cons_of_ne_nil h2
  rw [h1]
  exact noBlank_cons _ (wordChar_not_space u (h3 c (by simp)))

theorem AttrText.head {u : CharClass} {a : Str} (h : AttrText u a) :
    ∃ c a', a = c :: a' ∧ wordChar u c = true := by
  obtain ⟨w, k', h1, h2, h3, _⟩ := h.word' (stop_nil u)
  rw [List.append_nil] at h1
  obtain ⟨c, w, rfl⟩ := List.exists_cons_of_ne_nil h2
  exact ⟨c, _, h1, h3 c (by simp)⟩

theorem AttrText.reads {u : CharClass} {a : Str} (h : AttrText u a) {k : Str} (hk : Stop u k) :
    attributeP u (a ++ k) = .ok k () := by
  cases h with
  | word h1 h2 h3 h4 h5 h6 =>
    rw [attributeP_word h1 (fun c hc => (wordChar_iff u c).2 (h2 c hc)) hk.noWord,
      attrKind_plain h3 h4 h5 h6]
    rfl
  | number h1 h2 =>
    rw [List.append_assoc, attributeP_word (numberAttrs_word u h1).1 (numberAttrs_word u h1).2
      (by simp only [List.cons_append, List.append_assoc]; exact noWord_cons _ (wordChar_paren u)), numberAttrs_kind h1]
    simp only [List.cons_append, List.append_assoc, List.nil_append, attrRestP]
    rw [P.bind_ok (charP_cons _ _), P.bind_ok (digit1_eq h2 isDigit_paren)]
    exact charP_cons _ _
  | type h1 h2 =>
    rw [List.append_assoc, attributeP_word (typeAttrs_word u h1).1 (typeAttrs_word u h1).2
      (by simp only [List.cons_append, List.append_assoc]; exact noWord_cons _ (wordChar_paren u)), typeAttrs_kind h1]
    simp only [List.cons_append, List.append_assoc, List.nil_append, attrRestP]
    rw [P.bind_ok (charP_cons _ _), P.bind_ok (h2.reads.ends
      (endsType_cons _ (identChar_false u (by decide) (by decide)) (by decide) (by decide)))]
    exact charP_cons _ _
  | align h1 h2 =>
    rw [List.append_assoc, List.append_assoc, attributeP_word (by simp) (wordChars u (by decide))
      (noWord_blanks h1 _)]
    have : attrKind c!"align" = .align := by decide
    rw [this]
    simp only [attrRestP]
    rw [P.bind_ok (space1_eq h1 (h2.noBlank _)), P.bind_ok (digit1_eq h2 hk.digit)]
    rfl

/-! ### Sequences of attributes -/

/-- One step of `attrsP`. -/
def attrStep (u : CharClass) : P Unit := do
  attributeP u
  space1

/-- One step of `attrsAfterP`. -/
def attrAfterStep (u : CharClass) : P Unit := do
  space1
  attributeP u

theorem AttrsText.noBlank {u : CharClass} {s : Str} (h : AttrsText u s) {k : Str} (hk : NoBlank k) :
    NoBlank (s ++ k) := by
  cases h with
  | nil => exact hk
  | cons h1 h2 h3 => rw [List.append_assoc]; exact h1.noBlank _

theorem AttrsText.steps {u : CharClass} {s : Str} (h : AttrsText u s) {k : Str} (hk : NoBlank k)
    (he : attrStep u k = .error) : ∃ as, many0 (attrStep u) (s ++ k) = .ok k as := by
  induction h with
  | nil => exact ⟨[], many0_error he⟩
  | cons h1 h2 h3 ih =>
    rename_i a b s
    obtain ⟨as, has⟩ := ih
    refine ⟨() :: as, many0_cons (r := s ++ k) ?_ ?_ has⟩
    · unfold attrStep
      rw [List.append_assoc, List.append_assoc, P.bind_ok (h1.reads (stop_blanks u h2 _))]
      exact space1_eq h2 (h3.noBlank hk)
    · obtain ⟨c, b', rfl, _⟩ := h2.head
      simp; omega

theorem AttrsText.reads {u : CharClass} {s : Str} (h : AttrsText u s) {k : Str} (hk : NoBlank k)
    (he : attrStep u k = .error) : attrsP u (s ++ k) = .ok k () := by
  obtain ⟨as, has⟩ := h.steps hk he
  exact P.bind_ok has

theorem AttrsAfterText.stop {u : CharClass} {s : Str} (h : AttrsAfterText u s) {k : Str} (hk : Stop u k) :
    Stop u (s ++ k) := by
  cases h with
  | nil => exact hk
  | cons h1 h2 h3 => rw [List.append_assoc]; exact stop_blanks u h1 _

theorem AttrsAfterText.reads {u : CharClass} {s : Str} (h : AttrsAfterText u s) {k : Str} (hk : Stop u k)
    (he : attrAfterStep u k = .error) : attrsAfterP u (s ++ k) = .ok k () := by
  have : ∃ as, many0 (attrAfterStep u) (s ++ k) = .ok k as := by
    induction h with
    | nil => exact ⟨[], many0_error he⟩
    | cons h1 h2 h3 ih =>
      rename_i b a s
      obtain ⟨as, has⟩ := ih
      refine ⟨() :: as, many0_cons (r := s ++ k) ?_ ?_ has⟩
      · unfold attrAfterStep
        rw [List.append_assoc, List.append_assoc, P.bind_ok (space1_eq h1 (h2.noBlank _))]
        exact h2.reads (h3.stop hk)
      · obtain ⟨c, b', rfl, _⟩ := h1.head
        simp; omega
  obtain ⟨as, has⟩ := this
  exact P.bind_ok has

theorem attrStep_ne {u : CharClass} {c : Char} (k : Str) (h : wordChar u c = false) :
    attrStep u (c :: k) = .error := by
  unfold attrStep
  refine P.bind_error ?_
  rw [attributeP_def]
  exact P.bind_error (takeWhile1_error (noWord_cons k h))

theorem attributeP_ne {u : CharClass} {c : Char} (k : Str) (h : wordChar u c = false) :
    attributeP u (c :: k) = .error := by
  rw [attributeP_def]
  exact P.bind_error (takeWhile1_error (noWord_cons k h))

theorem attrStep_keyword {u : CharClass} {w k : Str} (h : w ∈ keywords) (hk : NoWord u k) :
    attrStep u (w ++ k) = .error := by
  unfold attrStep
  refine P.bind_error ?_
  rw [attributeP_word (keywords_word u h).1 (keywords_word u h).2 hk, keywords_kind h]
  rfl

theorem attrStep_noBlank {u : CharClass} {w k : Str} (hw : w ≠ []) (hc : ∀ c ∈ w, wordChar u c = true)
    (hp : attrKind w = .plain) (hk : NoWord u k) (hb : NoBlank k) : attrStep u (w ++ k) = .error := by
  unfold attrStep
  have : attributeP u (w ++ k) = .ok k () := by
    rw [attributeP_word hw hc hk, hp]
    rfl
  rw [P.bind_ok this]
  exact space1_error hb

theorem noWord_star {u : CharClass} (k : Str) : NoWord u ('*' :: k) :=
  (stop_cons u k (identChar_false u (by decide) (by decide))).noWord

/-- A type does not begin with attributes. -/
theorem TyText.attrStop {u : CharClass} : ∀ {t : Ty} {s : Str}, TyText u t s → ∀ {k : Str}, Stop u k →
    attrStep u (s ++ k) = .error
  | _, _, .alias _, _, _ => attrStep_ne _ (by rw [wordChar_ascii u (by decide)]; decide)
  | _, _, .array _ _ _ _ _, _, _ => attrStep_ne _ (by rw [wordChar_ascii u (by decide)]; decide)
  | _, _, .mvtVector _ _ _ _ _, _, _ => attrStep_ne _ (by rw [wordChar_ascii u (by decide)]; decide)
  | _, _, .double, _, hk => attrStep_keyword (by decide) hk.noWord
  | _, _, .float, _, hk => attrStep_keyword (by decide) hk.noWord
  | _, _, .opaquePointer, _, hk => attrStep_keyword (by decide) hk.noWord
  | _, _, .integer (ds := ds) _ hd, k, hk => by
    have : Digits ds := ⟨hd.1, hd.2.1⟩
    rw [List.append_assoc]
    exact attrStep_noBlank (by simp) (wordChars u (by decide)) (by decide) (noWord_digits this k)
      (this.noBlank k)
  | _, _, .varargs, _, _ => attrStep_ne _ (by rw [wordChar_ascii u (by decide)]; decide)
  | _, _, .struct _ _ _, _, _ => attrStep_ne _ (by rw [wordChar_ascii u (by decide)]; decide)
  | _, _, .packedStruct _ _ _, _, _ => attrStep_ne _ (by rw [wordChar_ascii u (by decide)]; decide)
  | _, _, .voidFn hb _ _, k, _ => by
    rw [List.append_assoc, List.append_assoc]
    exact attrStep_keyword (by decide) (noWord_blanks hb _)
  | _, _, .fn h _ hb _ _, k, _ => by
    rw [List.append_assoc, List.append_assoc]
    exact TyText.attrStop h (stop_blanks u hb _)
  | _, _, .pointer h, k, _ => by
    rw [List.append_assoc]
    exact TyText.attrStop h (stop_cons u _ (identChar_false u (by decide) (by decide)))

/-! ### Output types -/

theorem OutText.noBlank {u : CharClass} {o : Option Ty} {s : Str} (h : OutText u o s) (k : Str) :
    NoBlank (s ++ k) := by
  cases h with
  | void => exact noBlank_cons _ (by decide)
  | some h => exact h.noBlank k

theorem OutText.attrStop {u : CharClass} {o : Option Ty} {s : Str} (h : OutText u o s) {k : Str}
    (hk : Stop u k) : attrStep u (s ++ k) = .error := by
  cases h with
  | void => exact attrStep_keyword (by decide) hk.noWord
  | some h => exact h.attrStop hk

theorem typeP_void_error {u : CharClass} {k : Str}
    (h : ∀ b k', Blanks b → k = b ++ k' → k'.head? ≠ some '(') : typeP u (c!"void" ++ k) = .error := by
  rw [typeP_unfold]
  unfold typeBody
  rw [P.bind_ok (opt_ok (tag_append _ _))]
  simp only
  have := fnTailP_error (u := u) h
  unfold fnTailP at this
  rcases P.bind_eq_error this with h | ⟨r, a, h1, h2⟩
  · exact P.bind_error h
  · rw [P.bind_ok h1]
    exact P.bind_error h2

theorem OutText.reads {u : CharClass} {o : Option Ty} {s : Str} (h : OutText u o s) {k : Str}
    (hk : EndsType u k) : outputP u (s ++ k) = .ok k o := by
  unfold outputP
  cases h with
  | void =>
    rw [alt_error (P.bind_error (typeP_void_error hk.2))]
    exact alt_ok (P.bind_ok (tag_append _ _))
  | some h => exact alt_ok (P.bind_ok (h.reads.ends hk))

theorem append_word {u : CharClass} {w k p r : Str} (hp : ∀ c ∈ p, wordChar u c = true) (hk : NoWord u k)
    (h : w ++ k = p ++ r) : ∃ x, w = p ++ x ∧ r = x ++ k := by
  rcases List.append_eq_append_iff.1 h with ⟨x, h1, h2⟩ | ⟨x, h1, h2⟩
  · cases x with
    | nil => exact ⟨[], by simpa using h1.symm, by simpa using h2.symm⟩
    | cons c x =>
      have h3 := hk c (by rw [h2]; rfl)
      rw [hp c (by rw [h1]; simp)] at h3
      exact absurd h3 (by simp)
  · exact ⟨x, h1, h2⟩

theorem typeP_keyword {u : CharClass} {c : Char} {i : Str} {p : Str} {t : Ty} (hc : c ≠ 'v')
    (hb : baseP u (typeP u) (c :: i) = (tag p >>= fun _ => (Pure.pure t : P Ty)) (c :: i)) :
    (∃ r, c :: i = p ++ r ∧ typeP u (c :: i) = postP u t r) ∨ typeP u (c :: i) = .error := by
  cases ht : tag p (c :: i) with
  | stuck => exact absurd ht (tag_ne_stuck _ _)
  | error =>
    refine .inr ?_
    rw [P.bind_error ht] at hb
    rw [typeP_unfold]
    unfold typeBody
    rw [P.bind_ok (opt_error (tag_ne hc))]
    simp only
    exact P.bind_error hb
  | ok r a =>
    rw [P.bind_ok ht, P.pure_eq] at hb
    exact .inl ⟨r, tag_ok ht, typeP_base hc hb⟩

theorem eats_doubleP {n : Nat} : EatsTo n doubleP := by unfold doubleP; good
theorem eats_floatP {n : Nat} : EatsTo n floatP := by unfold floatP; good
theorem eats_opaquePointerP {n : Nat} : EatsTo n opaquePointerP := by unfold opaquePointerP; good

/-- An attribute is not taken for an output type. -/
theorem AttrText.notOutput {u : CharClass} {a : Str} (h : AttrText u a) {k : Str} (hk : Stop u k) :
    outputP u (a ++ k) = .error ∨ ∃ r o, outputP u (a ++ k) = .ok r o ∧ NoBlank r := by
  obtain ⟨w, k', h1, h2, h3, h4, h5, h6⟩ := h.word' hk
  rw [h1]
  obtain ⟨c, w, rfl⟩ := List.exists_cons_of_ne_nil h2
  have key : ∀ {p r : Str}, (∀ c ∈ p, wordChar u c = true) → p ∈ keywords → c :: w ++ k' = p ++ r →
      ∃ d r', r = d :: r' ∧ wordChar u d = true := by
    intro p r hp hpk he
    obtain ⟨x, hx, hr⟩ := append_word hp h4 he
    cases x with
    | nil => rw [List.append_nil] at hx; exact absurd (hx ▸ hpk) h5
    | cons d x => exact ⟨d, x ++ k', hr, h3 d (by rw [hx]; simp)⟩
  have post : ∀ {t : Ty} {d : Char} {r : Str}, wordChar u d = true → postP u t (d :: r) = .ok (d :: r) t := by
    intro t d r hd
    unfold postP
    rw [P.bind_ok (starsP_stop (by
      simp only [List.head?_cons, ne_eq, Option.some.injEq]
      rintro rfl
      rw [wordChar_ascii u (by decide)] at hd
      exact absurd hd (by decide)))]
    refine fnLoopP_error ?_
    unfold fnTailP
    exact P.bind_error (space1_error (noBlank_cons _ (wordChar_not_space u hd)))
  have second : c ≠ 'v' → typeP u (c :: w ++ k') = .error → outputP u (c :: w ++ k') = .error := by
    intro hv ht
    unfold outputP
    rw [alt_error (P.bind_error ht)]
    exact P.bind_error (tag_ne hv)
  have third : ∀ {p : Str} {t : Ty}, p ∈ keywords → c ≠ 'v' →
      baseP u (typeP u) (c :: (w ++ k')) = (tag p >>= fun _ => (Pure.pure t : P Ty)) (c :: (w ++ k')) →
      outputP u (c :: w ++ k') = .error ∨ ∃ r o, outputP u (c :: w ++ k') = .ok r o ∧ NoBlank r := by
    intro p t hp hv hb
    rcases typeP_keyword hv hb with ⟨r, hr, ht⟩ | ht
    · obtain ⟨d, r', rfl, hd⟩ := key (keywords_word u hp).2 hp hr
      refine .inr ⟨d :: r', some t, ?_, noBlank_cons _ (wordChar_not_space u hd)⟩
      unfold outputP
      refine alt_ok (P.bind_ok ?_)
      rw [← post hd]
      exact ht
    · exact .inl (second hv ht)
  by_cases hs : TypeStart c
  · have hw := h3 c (by simp)
    have hcases : c = 'v' ∨ c = 'd' ∨ c = 'f' ∨ c = 'p' ∨ c = 'i' := by
      simp only [TypeStart, List.mem_cons, List.not_mem_nil, or_false] at hs
      rcases hs with rfl | rfl | rfl | rfl | rfl | rfl | rfl | rfl | rfl | rfl <;>
        first
          | (rw [wordChar_ascii u (by decide)] at hw; exact absurd hw (by decide))
          | simp
    rcases hcases with rfl | rfl | rfl | rfl | rfl
    · cases ht : tag c!"void" ('v' :: w ++ k') with
      | stuck => exact absurd ht (tag_ne_stuck _ _)
      | error =>
        refine .inl ?_
        have : typeP u ('v' :: w ++ k') = .error := by
          rw [typeP_unfold]
          unfold typeBody
          rw [P.bind_ok (opt_error ht)]
          simp only
          refine P.bind_error ?_
          unfold baseP
          rw [List.cons_append, alt_error (arrayP_ne _ (by decide)), alt_error (packedStructP_ne _ (by decide)),
            alt_error (structP_ne _ (by decide)), alt_error (tyAliasP_ne _ (by decide)),
            alt_error (doubleP_ne _ (by decide)), alt_error (floatP_ne _ (by decide)),
            alt_error (opaquePointerP_ne _ (by decide)), alt_error (integerP_ne _ (by decide)),
            alt_error (varargsP_ne _ (by decide))]
          exact mvtVectorP_ne _ (by decide)
        unfold outputP
        rw [alt_error (P.bind_error this)]
        exact P.bind_error ht
      | ok r x =>
        have hr := tag_ok ht
        obtain ⟨d, r', rfl, hd⟩ := key (wordChars u (by decide)) (by decide) hr
        have hn : NoBlank (d :: r') := noBlank_cons _ (wordChar_not_space u hd)
        refine .inr ⟨d :: r', none, ?_, hn⟩
        have : typeP u ('v' :: w ++ k') = .error := by
          rw [typeP_unfold]
          unfold typeBody
          rw [P.bind_ok (opt_ok ht)]
          simp only
          exact P.bind_error (space1_error hn)
        unfold outputP
        rw [alt_error (P.bind_error this)]
        exact P.bind_ok ht
    · refine third (p := c!"double") (t := .double) (by decide) (by decide) ?_
      unfold baseP
      rw [alt_error (arrayP_ne _ (by decide)), alt_error (packedStructP_ne _ (by decide)),
        alt_error (structP_ne _ (by decide)), alt_error (tyAliasP_ne _ (by decide))]
      cases hd : doubleP ('d' :: (w ++ k')) with
      | stuck => exact absurd hd (eats_doubleP _ (Nat.lt_succ_self _)).1
      | ok r t => rw [alt_ok hd]; exact hd.symm
      | error =>
        rw [alt_error hd, alt_error (floatP_ne _ (by decide)),
          alt_error (opaquePointerP_ne _ (by decide)), alt_error (integerP_ne _ (by decide)),
          alt_error (varargsP_ne _ (by decide))]
        exact (mvtVectorP_ne _ (by decide)).trans hd.symm
    · refine third (p := c!"float") (t := .float) (by decide) (by decide) ?_
      unfold baseP
      rw [alt_error (arrayP_ne _ (by decide)), alt_error (packedStructP_ne _ (by decide)),
        alt_error (structP_ne _ (by decide)), alt_error (tyAliasP_ne _ (by decide)),
        alt_error (doubleP_ne _ (by decide))]
      cases hd : floatP ('f' :: (w ++ k')) with
      | stuck => exact absurd hd (eats_floatP _ (Nat.lt_succ_self _)).1
      | ok r t => rw [alt_ok hd]; exact hd.symm
      | error =>
        rw [alt_error hd,
          alt_error (opaquePointerP_ne _ (by decide)), alt_error (integerP_ne _ (by decide)),
          alt_error (varargsP_ne _ (by decide))]
        exact (mvtVectorP_ne _ (by decide)).trans hd.symm
    · refine third (p := c!"ptr") (t := .opaquePointer) (by decide) (by decide) ?_
      unfold baseP
      rw [alt_error (arrayP_ne _ (by decide)), alt_error (packedStructP_ne _ (by decide)),
        alt_error (structP_ne _ (by decide)), alt_error (tyAliasP_ne _ (by decide)),
        alt_error (doubleP_ne _ (by decide)), alt_error (floatP_ne _ (by decide))]
      cases hd : opaquePointerP ('p' :: (w ++ k')) with
      | stuck => exact absurd hd (eats_opaquePointerP _ (Nat.lt_succ_self _)).1
      | ok r t => rw [alt_ok hd]; exact hd.symm
      | error =>
        rw [alt_error hd, alt_error (integerP_ne _ (by decide)),
          alt_error (varargsP_ne _ (by decide))]
        exact (mvtVectorP_ne _ (by decide)).trans hd.symm
    · refine .inl (second (by decide) ?_)
      have hnd : ∀ c, (w ++ k').head? = some c → isDigit c = false := by
        cases w with
        | nil => exact h6
        | cons d w =>
          intro c hc
          simp only [List.cons_append, List.head?_cons, Option.some.injEq] at hc
          subst hc
          exact wordChar_not_digit u (h3 d (by simp))
      rw [typeP_unfold]
      unfold typeBody
      rw [List.cons_append, P.bind_ok (opt_error (tag_ne (by decide)))]
      simp only
      refine P.bind_error ?_
      have hi : integerP ('i' :: (w ++ k')) = .error := by
        unfold integerP
        rw [P.bind_ok (charP_cons _ _)]
        exact P.bind_error (mapRes_error (takeWhile1_error hnd))
      unfold baseP
      rw [alt_error (arrayP_ne _ (by decide)), alt_error (packedStructP_ne _ (by decide)),
        alt_error (structP_ne _ (by decide)), alt_error (tyAliasP_ne _ (by decide)),
        alt_error (doubleP_ne _ (by decide)), alt_error (floatP_ne _ (by decide)),
        alt_error (opaquePointerP_ne _ (by decide)), alt_error hi, alt_error (varargsP_ne _ (by decide))]
      exact mvtVectorP_ne _ (by decide)
  · refine .inl (second ?_ (typeP_error _ hs))
    rintro rfl
    exact hs (by decide)

end CallStack
