import Verif.Proof.IrGood
import Verif.Proof.Names
import Verif.Proof.Output
import Verif.Spec.IrText

/-!
Reading types.
-/

namespace CallStack

variable {α β : Type}

/-! ### Characters -/

theorem isDigit_iff (c : Char) : isDigit c = true ↔ c ∈ c!"0123456789" := by
  rw [mem_digits]
  simp [isDigit]

theorem isSpace_iff (c : Char) : isSpace c = true ↔ c = ' ' ∨ c = '\t' := by simp [isSpace]

theorem identChar_iff (u : CharClass) (c : Char) : identChar u c = true ↔ IdentChar u c := by
  simp [identChar, IdentChar, CharClass.alphanumeric, or_assoc]

theorem identChar_digit (u : CharClass) {c : Char} (h : isDigit c = true) : identChar u c = true := by
  have h1 : c.toNat < 128 := by
    simp only [isDigit, Bool.and_eq_true, decide_eq_true_eq] at h
    omega
  simp [identChar, CharClass.alphanumeric, u.numeric_ascii c h1, h]

/-- ASCII characters that occur in no name. -/
theorem identChar_ascii (u : CharClass) {c : Char} (h : c.toNat < 128) : identChar u c =
    ((65 ≤ c.toNat && c.toNat ≤ 90) || (97 ≤ c.toNat && c.toNat ≤ 122) || isDigit c || c == '-' ||
      c == '$' || c == '.' || c == '_') := by
  simp [identChar, CharClass.alphanumeric, u.alphabetic_ascii c h, u.numeric_ascii c h]

/-- The text does not go on with a character of a name. -/
def Stop (u : CharClass) (k : Str) : Prop := ∀ c, k.head? = some c → identChar u c = false

theorem Stop.digit {u : CharClass} {k : Str} (h : Stop u k) : ∀ c, k.head? = some c → isDigit c = false :=
  fun c hc => by
    cases hd : isDigit c with
    | false => rfl
    | true => have := h c hc; rw [identChar_digit u hd] at this; exact this

theorem stop_cons (u : CharClass) {c : Char} (k : Str) (h : identChar u c = false) : Stop u (c :: k) := by
  intro d hd
  simp only [List.head?_cons, Option.some.injEq] at hd
  exact hd ▸ h

theorem stop_nil (u : CharClass) : Stop u [] := by intro d hd; simp at hd

/-- `identChar u c = false` for a concrete ASCII character. -/
theorem identChar_false (u : CharClass) {c : Char} (h : c.toNat < 128)
    (h' : ((65 ≤ c.toNat && c.toNat ≤ 90) || (97 ≤ c.toNat && c.toNat ≤ 122) || isDigit c || c == '-' ||
      c == '$' || c == '.' || c == '_') = false) : identChar u c = false := by
  rw [identChar_ascii u h, h']

theorem isSpace_blank {c : Char} (h : c = ' ' ∨ c = '\t') : isSpace c = true := (isSpace_iff c).2 h

theorem identChar_space (u : CharClass) {c : Char} (h : isSpace c = true) : identChar u c = false := by
  rcases (isSpace_iff c).1 h with rfl | rfl
  · exact identChar_false u (by decide) (by decide)
  · exact identChar_false u (by decide) (by decide)

/-- The text does not go on with a blank. -/
def NoBlank (k : Str) : Prop := ∀ c, k.head? = some c → isSpace c = false

theorem noBlank_cons {c : Char} (k : Str) (h : isSpace c = false) : NoBlank (c :: k) := by
  intro d hd
  simp only [List.head?_cons, Option.some.injEq] at hd
  exact hd ▸ h

theorem Blanks.head {b : Str} (h : Blanks b) : ∃ c b', b = c :: b' ∧ isSpace c = true := by
  cases b with
  | nil => exact absurd rfl h.1
  | cons c b' => exact ⟨c, b', rfl, isSpace_blank (h.2 c (by simp))⟩

theorem Blanks.opt {b : Str} (h : Blanks b) : OptBlanks b := h.2

theorem stop_blanks (u : CharClass) {b : Str} (h : Blanks b) (k : Str) : Stop u (b ++ k) := by
  obtain ⟨c, b', rfl, hc⟩ := h.head
  exact stop_cons u _ (identChar_space u hc)

theorem space0_eq {b k : Str} (h : OptBlanks b) (hk : NoBlank k) : space0 (b ++ k) = .ok k () := by
  unfold space0
  rw [spanP_eq (fun c hc => isSpace_blank (h c hc)) hk]

theorem space0_none {k : Str} (hk : NoBlank k) : space0 k = .ok k () :=
  space0_eq (b := []) (by intro c hc; simp at hc) hk

theorem space1_eq {b k : Str} (h : Blanks b) (hk : NoBlank k) : space1 (b ++ k) = .ok k () := by
  unfold space1
  rw [P.bind_ok (takeWhile1_eq h.1 (fun c hc => isSpace_blank (h.2 c hc)) hk)]
  rfl

theorem space1_error {k : Str} (hk : NoBlank k) : space1 k = .error := by
  unfold space1
  rw [P.bind_error (takeWhile1_error hk)]

theorem space1_ok {i r : Str} {a : Unit} (h : space1 i = .ok r a) : ∃ b, i = b ++ r ∧ Blanks b ∧ NoBlank r := by
  unfold space1 at h
  obtain ⟨r', s, h1, h2⟩ := P.bind_eq_ok h
  rw [P.pure_eq] at h2
  injection h2 with h2 _
  subst h2
  obtain ⟨h3, h4, h5, h6⟩ := takeWhile1_ok h1
  exact ⟨s, h3, ⟨h4, fun c hc => (isSpace_iff c).1 (h5 c hc)⟩, h6⟩

/-! ### Alternatives -/

theorem orElse_ok {p q : P α} {i r : Str} {a : α} (h : p i = .ok r a) : orElse p q i = .ok r a := by
  unfold orElse
  rw [h]

theorem orElse_error {p q : P α} {i : Str} (h : p i = .error) : orElse p q i = q i := by
  unfold orElse
  rw [h]

theorem alt_ok {p : P α} {ps : List (P α)} {i r : Str} {a : α} (h : p i = .ok r a) :
    alt (p :: ps) i = .ok r a := by
  cases ps with
  | nil => exact h
  | cons q ps => exact orElse_ok h

theorem alt_error {p q : P α} {ps : List (P α)} {i : Str} (h : p i = .error) :
    alt (p :: q :: ps) i = alt (q :: ps) i := orElse_error h

theorem opt_ok {p : P α} {i r : Str} {a : α} (h : p i = .ok r a) : opt p i = .ok r (some a) := by
  unfold opt
  rw [h]

theorem opt_error {p : P α} {i : Str} (h : p i = .error) : opt p i = .ok i none := by
  unfold opt
  rw [h]

theorem tag_ne {c d : Char} {t r : Str} (h : d ≠ c) : tag (c :: t) (d :: r) = .error := by
  simp [tag, stripPrefix, h]

theorem tag_nil {c : Char} {t : Str} : tag (c :: t) [] = .error := by simp [tag, stripPrefix]

/-! ### Names and numbers -/

theorem mapRes_some {p : P α} {f : α → Option β} {i r : Str} {a : α} {b : β} (h : p i = .ok r a)
    (hf : f a = some b) : mapRes p f i = .ok r b := by
  unfold mapRes
  rw [P.bind_ok h]
  simp only [hf]
  rfl

theorem mapRes_none {p : P α} {f : α → Option β} {i r : Str} {a : α} (h : p i = .ok r a)
    (hf : f a = none) : mapRes p f i = .error := by
  unfold mapRes
  rw [P.bind_ok h]
  simp only [hf]
  rfl

theorem mapRes_error {p : P α} {f : α → Option β} {i : Str} (h : p i = .error) :
    mapRes p f i = .error := by
  unfold mapRes
  rw [P.bind_error h]

theorem digit1_eq {s k : Str} (hs : Digits s) (hk : ∀ c, k.head? = some c → isDigit c = false) :
    digit1 (s ++ k) = .ok k s := takeWhile1_eq hs.1 (fun c hc => (isDigit_iff c).2 (hs.2 c hc)) hk

theorem usizeP_eq {s k : Str} {n : Nat} (hn : n < 2 ^ 64) (hs : IsDecimal s n)
    (hk : ∀ c, k.head? = some c → isDigit c = false) : usizeP (s ++ k) = .ok k n :=
  mapRes_some (digit1_eq ⟨hs.1, hs.2.1⟩ hk) ((parseU64_iff s n).2 ⟨hn, .inl hs⟩)

theorem stringP_eq {s : Str} (hs : '"' ∉ s) (k : Str) : stringP ('"' :: (s ++ '"' :: k)) = .ok k s := by
  unfold stringP
  rw [P.bind_ok (charP_cons _ _)]
  have : takeUntilQuote (s ++ '"' :: k) = .ok ('"' :: k) s := by
    unfold takeUntilQuote
    rw [spanP_eq]
    · intro c hc
      have : c ≠ '"' := fun h => hs (h ▸ hc)
      simpa using this
    · intro c hc
      simp only [List.head?_cons, Option.some.injEq] at hc
      simp [← hc]
  rw [P.bind_ok this, P.bind_ok (charP_cons _ _)]
  rfl

theorem identP_eq {u : CharClass} {s k : Str} (hs : Ident u s) (hk : Stop u k) :
    identP u (s ++ k) = .ok k s := by
  refine mapRes_some (takeWhile1_eq hs.1 (fun c hc => (identChar_iff u c).2 (hs.2.1 c hc)) hk) ?_
  have : s.head?.any isDigit = false := by
    cases h : s.head? with
    | none => rfl
    | some c =>
      have := hs.2.2 c h
      rw [← isDigit_iff] at this
      simpa using this
  rw [this]
  rfl

theorem stringP_ne {c : Char} (k : Str) (h : c ≠ '"') : stringP (c :: k) = .error := by
  unfold stringP
  exact P.bind_error (charP_ne _ h)

theorem identChar_quote (u : CharClass) : identChar u '"' = false := identChar_false u (by decide) (by decide)

theorem nameP_eq {u : CharClass} {name s k : Str} (h : NameText u name s) (hk : Stop u k) :
    nameP u (s ++ k) = .ok k name := by
  unfold nameP
  cases h with
  | quoted h =>
    have : ('"' :: (name ++ ['"']) ++ k : Str) = '"' :: (name ++ '"' :: k) := by simp
    rw [this]
    exact alt_ok (stringP_eq h k)
  | plain h =>
    have h1 : stringP (name ++ k) = .error := by
      obtain ⟨c, s', rfl⟩ := List.exists_cons_of_ne_nil h.1
      refine stringP_ne _ fun hc => ?_
      have := (identChar_iff u c).2 (h.2.1 c (by simp))
      rw [hc, identChar_quote] at this
      exact absurd this (by simp)
    rw [alt_error h1]
    exact alt_ok (identP_eq h hk)
  | number h =>
    have hd : ∀ c ∈ name, isDigit c = true := fun c hc => (isDigit_iff c).2 (h.2 c hc)
    have h1 : stringP (name ++ k) = .error := by
      obtain ⟨c, s', rfl⟩ := List.exists_cons_of_ne_nil h.1
      refine stringP_ne _ fun hc => ?_
      have := hd c (by simp)
      rw [hc] at this
      exact absurd this (by decide)
    have h2 : identP u (name ++ k) = .error := by
      refine mapRes_none (takeWhile1_eq h.1 (fun c hc => identChar_digit u (hd c hc)) hk) ?_
      obtain ⟨c, s', rfl⟩ := List.exists_cons_of_ne_nil h.1
      simp [hd c (by simp)]
    rw [alt_error h1, alt_error h2]
    exact digit1_eq h hk.digit

theorem aliasP_eq {u : CharClass} {name s k : Str} (h : NameText u name s) (hk : Stop u k) :
    aliasP u ('%' :: (s ++ k)) = .ok k name := by
  unfold aliasP
  rw [P.bind_ok (charP_cons _ _)]
  exact nameP_eq h hk

theorem functionP_eq {u : CharClass} {name s k : Str} (h : NameText u name s) (hk : Stop u k) :
    functionP u ('@' :: (s ++ k)) = .ok k name := by
  unfold functionP
  rw [P.bind_ok (charP_cons _ _)]
  exact nameP_eq h hk

theorem commaP_eq {b k : Str} (h : Blanks b) (hk : NoBlank k) : commaP (',' :: (b ++ k)) = .ok k () := by
  unfold commaP
  rw [P.bind_ok (charP_cons _ _)]
  exact space1_eq h hk

theorem commaP_ne {c : Char} (k : Str) (h : c ≠ ',') : commaP (c :: k) = .error := by
  unfold commaP
  exact P.bind_error (charP_ne _ h)

/-! ### The loops of types -/

theorem starsP_star (t : Ty) (k : Str) : starsP t ('*' :: k) = starsP (.pointer t) k := by
  rw [starsP]

theorem starsP_stop {t : Ty} {k : Str} (h : k.head? ≠ some '*') : starsP t k = .ok k t := by
  unfold starsP
  split
  · exact absurd rfl h
  · rfl

theorem fnLoopF_eq {ty : P Ty} (hg : ∀ n, EatsTo n ty) (n : Nat) : ∀ (m : Nat) (t : Ty) (i : Str),
    i.length < n → i.length < m → fnLoopF ty n t i = fnLoopF ty m t i := by
  induction n with
  | zero => intro m t i h; omega
  | succ n ih =>
    intro m t i h1 h2
    obtain ⟨m, rfl⟩ : ∃ k, m = k + 1 := ⟨m - 1, by omega⟩
    unfold fnLoopF opt
    cases h : fnTailP ty i with
    | stuck => rfl
    | error => rfl
    | ok r inputs =>
      have h3 := (eats_fnTailP (hg _) i (Nat.lt_succ_self _)).2 r inputs h
      obtain ⟨r', t', h4, h5⟩ := starsP_ok r (.fn inputs (some t))
      have := h5.length_le
      simp only [h4]
      exact ih m t' r' (by omega) (by omega)

/-- What `type_` does after the base type. -/
def postP (u : CharClass) (t : Ty) : P Ty := starsP t >>= fnLoopP (typeP u)

theorem fnLoopP_error {u : CharClass} {t : Ty} {i : Str} (h : fnTailP (typeP u) i = .error) :
    fnLoopP (typeP u) t i = .ok i t := by
  unfold fnLoopP fnLoopF
  rw [opt_error h]

theorem fnLoopP_ok {u : CharClass} {t : Ty} {i r : Str} {ts : List Ty}
    (h : fnTailP (typeP u) i = .ok r ts) : fnLoopP (typeP u) t i = postP u (.fn ts (some t)) r := by
  have h3 := (eats_fnTailP (eats_typeP u) i (Nat.lt_succ_self _)).2 r ts h
  obtain ⟨r', t', h4, h5⟩ := starsP_ok r (.fn ts (some t))
  have := h5.length_le
  unfold postP
  rw [P.bind_ok h4]
  unfold fnLoopP
  rw [fnLoopF, opt_ok h]
  simp only [h4]
  exact fnLoopF_eq (fun n => eats_typeP u) _ _ t' r' (by omega) (by omega)

theorem postP_star (u : CharClass) (t : Ty) (k : Str) : postP u t ('*' :: k) = postP u (.pointer t) k := by
  unfold postP
  show P.bind _ _ _ = P.bind _ _ _
  unfold P.bind
  rw [starsP_star]

theorem fnTailP_error {u : CharClass} {k : Str}
    (h : ∀ b k', Blanks b → k = b ++ k' → k'.head? ≠ some '(') : fnTailP (typeP u) k = .error := by
  unfold fnTailP
  cases hs : space1 k with
  | error => exact P.bind_error hs
  | stuck => exact absurd hs ((eats_space1 k (Nat.lt_succ_self _)).1)
  | ok r a =>
    rw [P.bind_ok hs]
    obtain ⟨b, h1, h2, _⟩ := space1_ok hs
    have := h b r h2 h1
    unfold fnInputsP
    cases r with
    | nil => exact P.bind_error (by simp [charP])
    | cons c r =>
      refine P.bind_error (charP_ne _ fun hc => this ?_)
      rw [hc]
      rfl

theorem postP_ends {u : CharClass} {t : Ty} {k : Str} (h : EndsType u k) : postP u t k = .ok k t := by
  have h1 : k.head? ≠ some '*' := fun hc => (h.1 _ hc).2 rfl
  unfold postP
  rw [P.bind_ok (starsP_stop h1)]
  exact fnLoopP_error (fnTailP_error h.2)

theorem EndsType.stop {u : CharClass} {k : Str} (h : EndsType u k) : Stop u k := fun c hc => by
  have := (h.1 c hc).1
  rw [← identChar_iff] at this
  simpa using this

theorem endsType_cons {u : CharClass} {c : Char} (k : Str) (h : identChar u c = false) (h1 : c ≠ '*')
    (h2 : isSpace c = false) : EndsType u (c :: k) := by
  refine ⟨fun d hd => ?_, fun b k' hb hk => ?_⟩
  · simp only [List.head?_cons, Option.some.injEq] at hd
    subst hd
    rw [← identChar_iff, h]
    exact ⟨by simp, h1⟩
  · obtain ⟨d, b', rfl, hd⟩ := hb.head
    simp only [List.cons_append, List.cons.injEq] at hk
    rw [hk.1, hd] at h2
    exact absurd h2 (by simp)

/-- Blanks end a type unless an opening parenthesis follows. -/
theorem endsType_blanks {u : CharClass} {b k : Str} (hb : Blanks b) (hk : NoBlank k)
    (h : k.head? ≠ some '(') : EndsType u (b ++ k) := by
  obtain ⟨c, b', rfl, hc⟩ := hb.head
  refine ⟨fun d hd => ?_, fun b2 k' hb2 hk2 => ?_⟩
  · simp only [List.cons_append, List.head?_cons, Option.some.injEq] at hd
    subst hd
    rw [← identChar_iff, identChar_space u hc]
    refine ⟨by simp, ?_⟩
    rcases (isSpace_iff c).1 hc with h | h <;> rw [h] <;> decide
  · intro hk'
    -- both sides are blanks followed by a character which is none
    have h1 := spanP_eq (f := isSpace) (s := c :: b') (r := k)
      (fun x hx => isSpace_blank (hb.2 x hx)) hk
    have h2 := spanP_eq (f := isSpace) (s := b2) (r := k')
      (fun x hx => isSpace_blank (hb2.2 x hx)) (by
        intro x hx
        rw [hk', Option.some.injEq] at hx
        subst hx
        decide)
    rw [hk2, h2] at h1
    injection h1 with _ h1
    exact h (h1 ▸ hk')

theorem endsType_nil (u : CharClass) : EndsType u [] := by
  refine ⟨fun c hc => by simp at hc, fun b k hb hk => ?_⟩
  obtain ⟨c, b', rfl, _⟩ := hb.head
  simp at hk

/-! ### Base types -/

section base

variable {u : CharClass}

/-- A type starts with one of these characters. -/
def TypeStart (c : Char) : Prop := c ∈ c!"v[<{%dfpi."

instance (c : Char) : Decidable (TypeStart c) := inferInstanceAs (Decidable (_ ∈ _))

theorem arrayP_ne {ty : P Ty} {c : Char} (k : Str) (h : c ≠ '[') : arrayP ty (c :: k) = .error :=
  P.bind_error (charP_ne _ h)
theorem packedStructP_ne {ty : P Ty} {c : Char} (k : Str) (h : c ≠ '<') :
    packedStructP ty (c :: k) = .error := P.bind_error (charP_ne _ h)
theorem structP_ne {ty : P Ty} {c : Char} (k : Str) (h : c ≠ '{') :
    structP ty (c :: k) = .error := P.bind_error (P.bind_error (charP_ne _ h))
theorem tyAliasP_ne {c : Char} (k : Str) (h : c ≠ '%') : tyAliasP u (c :: k) = .error :=
  P.bind_error (P.bind_error (charP_ne _ h))
theorem doubleP_ne {c : Char} (k : Str) (h : c ≠ 'd') : doubleP (c :: k) = .error := P.bind_error (tag_ne h)
theorem floatP_ne {c : Char} (k : Str) (h : c ≠ 'f') : floatP (c :: k) = .error := P.bind_error (tag_ne h)
theorem opaquePointerP_ne {c : Char} (k : Str) (h : c ≠ 'p') : opaquePointerP (c :: k) = .error :=
  P.bind_error (tag_ne h)
theorem integerP_ne {c : Char} (k : Str) (h : c ≠ 'i') : integerP (c :: k) = .error :=
  P.bind_error (charP_ne _ h)
theorem varargsP_ne {c : Char} (k : Str) (h : c ≠ '.') : varargsP (c :: k) = .error :=
  P.bind_error (tag_ne h)
theorem mvtVectorP_ne {ty : P Ty} {c : Char} (k : Str) (h : c ≠ '<') : mvtVectorP ty (c :: k) = .error :=
  P.bind_error (charP_ne _ h)

theorem typeBody_void {ty : P Ty} {b k : Str} {r : Str} {ts : List Ty} (hb : Blanks b) (hk : NoBlank k)
    (h : fnInputsP ty k = .ok r ts) :
    typeBody u ty (c!"void" ++ (b ++ k)) = starsP (.fn ts none) r := by
  unfold typeBody
  rw [P.bind_ok (opt_ok (tag_append _ _))]
  simp only
  rw [P.bind_ok (space1_eq hb hk), P.bind_ok h]

theorem typeP_base {c : Char} {i k : Str} {t : Ty} (hc : c ≠ 'v')
    (h : baseP u (typeP u) (c :: i) = .ok k t) : typeP u (c :: i) = postP u t k := by
  rw [typeP_unfold]
  unfold typeBody
  rw [P.bind_ok (opt_error (tag_ne hc))]
  simp only
  rw [P.bind_ok h]
  rfl

theorem typeP_error {c : Char} (k : Str) (h : ¬ TypeStart c) : typeP u (c :: k) = .error := by
  simp only [TypeStart, List.mem_cons, List.not_mem_nil, or_false, not_or] at h
  obtain ⟨h1, h2, h3, h4, h5, h6, h7, h8, h9, h10⟩ := h
  rw [typeP_unfold]
  unfold typeBody
  rw [P.bind_ok (opt_error (tag_ne h1))]
  simp only
  refine P.bind_error ?_
  unfold baseP
  rw [alt_error (arrayP_ne _ h2), alt_error (packedStructP_ne _ h3), alt_error (structP_ne _ h4),
    alt_error (tyAliasP_ne _ h5), alt_error (doubleP_ne _ h6), alt_error (floatP_ne _ h7),
    alt_error (opaquePointerP_ne _ h8), alt_error (integerP_ne _ h9), alt_error (varargsP_ne _ h10)]
  exact mvtVectorP_ne _ h3

theorem typeP_nil : typeP u [] = .error := by rfl

theorem base_array {i k : Str} {t : Ty} (h : arrayP (typeP u) ('[' :: i) = .ok k t) :
    baseP u (typeP u) ('[' :: i) = .ok k t := alt_ok h

theorem base_packedStruct {i k : Str} {t : Ty} (h : packedStructP (typeP u) ('<' :: i) = .ok k t) :
    baseP u (typeP u) ('<' :: i) = .ok k t := by
  unfold baseP
  rw [alt_error (arrayP_ne _ (by decide))]
  exact alt_ok h

theorem base_struct {i k : Str} {t : Ty} (h : structP (typeP u) ('{' :: i) = .ok k t) :
    baseP u (typeP u) ('{' :: i) = .ok k t := by
  unfold baseP
  rw [alt_error (arrayP_ne _ (by decide)), alt_error (packedStructP_ne _ (by decide))]
  exact alt_ok h

theorem base_alias {i k : Str} {t : Ty} (h : tyAliasP u ('%' :: i) = .ok k t) :
    baseP u (typeP u) ('%' :: i) = .ok k t := by
  unfold baseP
  rw [alt_error (arrayP_ne _ (by decide)), alt_error (packedStructP_ne _ (by decide)),
    alt_error (structP_ne _ (by decide))]
  exact alt_ok h

theorem base_double {i k : Str} {t : Ty} (h : doubleP ('d' :: i) = .ok k t) :
    baseP u (typeP u) ('d' :: i) = .ok k t := by
  unfold baseP
  rw [alt_error (arrayP_ne _ (by decide)), alt_error (packedStructP_ne _ (by decide)),
    alt_error (structP_ne _ (by decide)), alt_error (tyAliasP_ne _ (by decide))]
  exact alt_ok h

theorem base_float {i k : Str} {t : Ty} (h : floatP ('f' :: i) = .ok k t) :
    baseP u (typeP u) ('f' :: i) = .ok k t := by
  unfold baseP
  rw [alt_error (arrayP_ne _ (by decide)), alt_error (packedStructP_ne _ (by decide)),
    alt_error (structP_ne _ (by decide)), alt_error (tyAliasP_ne _ (by decide)),
    alt_error (doubleP_ne _ (by decide))]
  exact alt_ok h

theorem base_opaquePointer {i k : Str} {t : Ty} (h : opaquePointerP ('p' :: i) = .ok k t) :
    baseP u (typeP u) ('p' :: i) = .ok k t := by
  unfold baseP
  rw [alt_error (arrayP_ne _ (by decide)), alt_error (packedStructP_ne _ (by decide)),
    alt_error (structP_ne _ (by decide)), alt_error (tyAliasP_ne _ (by decide)),
    alt_error (doubleP_ne _ (by decide)), alt_error (floatP_ne _ (by decide))]
  exact alt_ok h

theorem base_integer {i k : Str} {t : Ty} (h : integerP ('i' :: i) = .ok k t) :
    baseP u (typeP u) ('i' :: i) = .ok k t := by
  unfold baseP
  rw [alt_error (arrayP_ne _ (by decide)), alt_error (packedStructP_ne _ (by decide)),
    alt_error (structP_ne _ (by decide)), alt_error (tyAliasP_ne _ (by decide)),
    alt_error (doubleP_ne _ (by decide)), alt_error (floatP_ne _ (by decide)),
    alt_error (opaquePointerP_ne _ (by decide))]
  exact alt_ok h

theorem base_varargs {i k : Str} {t : Ty} (h : varargsP ('.' :: i) = .ok k t) :
    baseP u (typeP u) ('.' :: i) = .ok k t := by
  unfold baseP
  rw [alt_error (arrayP_ne _ (by decide)), alt_error (packedStructP_ne _ (by decide)),
    alt_error (structP_ne _ (by decide)), alt_error (tyAliasP_ne _ (by decide)),
    alt_error (doubleP_ne _ (by decide)), alt_error (floatP_ne _ (by decide)),
    alt_error (opaquePointerP_ne _ (by decide)), alt_error (integerP_ne _ (by decide))]
  exact alt_ok h

theorem base_mvtVector {i k : Str} {t : Ty} (hd : i.head? ≠ some '{')
    (h : mvtVectorP (typeP u) ('<' :: i) = .ok k t) :
    baseP u (typeP u) ('<' :: i) = .ok k t := by
  have hp : packedStructP (typeP u) ('<' :: i) = .error := by
    unfold packedStructP
    rw [P.bind_ok (charP_cons _ _)]
    refine P.bind_error (P.bind_error ?_)
    cases i with
    | nil => rfl
    | cons d i => exact charP_ne _ (fun h => hd (by rw [h]; rfl))
  unfold baseP
  rw [alt_error (arrayP_ne _ (by decide)), alt_error hp,
    alt_error (structP_ne _ (by decide)), alt_error (tyAliasP_ne _ (by decide)),
    alt_error (doubleP_ne _ (by decide)), alt_error (floatP_ne _ (by decide)),
    alt_error (opaquePointerP_ne _ (by decide)), alt_error (integerP_ne _ (by decide)),
    alt_error (varargsP_ne _ (by decide))]
  exact h

end base

/-! ### Reading the text of a type -/

/-- The first character of the text of a type. -/
theorem TyText.start {u : CharClass} : ∀ {t : Ty} {s : Str}, TyText u t s →
    ∃ c s', s = c :: s' ∧ TypeStart c
  | _, _, .alias _ => ⟨_, _, rfl, by decide⟩
  | _, _, .array _ _ _ _ _ => ⟨_, _, rfl, by decide⟩
  | _, _, .mvtVector _ _ _ _ _ => ⟨_, _, rfl, by decide⟩
  | _, _, .double => ⟨_, _, rfl, by decide⟩
  | _, _, .float => ⟨_, _, rfl, by decide⟩
  | _, _, .opaquePointer => ⟨_, _, rfl, by decide⟩
  | _, _, .integer _ _ => ⟨_, _, rfl, by decide⟩
  | _, _, .varargs => ⟨_, _, rfl, by decide⟩
  | _, _, .struct _ _ _ => ⟨_, _, rfl, by decide⟩
  | _, _, .packedStruct _ _ _ => ⟨_, _, rfl, by decide⟩
  | _, _, .voidFn _ _ _ => ⟨_, _, rfl, by decide⟩
  | _, _, .fn h _ _ _ _ => by
    obtain ⟨c, s', rfl, hc⟩ := TyText.start h
    exact ⟨c, _, rfl, hc⟩
  | _, _, .pointer h => by
    obtain ⟨c, s', rfl, hc⟩ := TyText.start h
    exact ⟨c, _, rfl, hc⟩

theorem TypeStart.noBlank {c : Char} (h : TypeStart c) : isSpace c = false := by
  simp only [TypeStart, List.mem_cons, List.not_mem_nil, or_false] at h
  rcases h with rfl | rfl | rfl | rfl | rfl | rfl | rfl | rfl | rfl | rfl <;> decide

theorem TyText.noBlank {u : CharClass} {t : Ty} {s : Str} (h : TyText u t s) (k : Str) : NoBlank (s ++ k) := by
  obtain ⟨c, s', rfl, hc⟩ := h.start
  exact noBlank_cons _ hc.noBlank

/-- The text after a list of types. -/
def EndsTypes (u : CharClass) (k : Str) : Prop :=
  EndsType u k ∧ typeP u k = .error ∧ commaP k = .error

/-- A list of types is read. -/
def ReadsTypes (u : CharClass) (ts : List Ty) (s : Str) : Prop :=
  ∀ k, EndsTypes u k → (ts = [] ∧ s = []) ∨
    ∃ t ts' r, ts = t :: ts' ∧ typeP u (s ++ k) = .ok r t ∧ sepLoop commaP (typeP u) r = .ok k ts' ∧
      NoBlank (s ++ k)

theorem ReadsTypes.sepList {u : CharClass} {ts : List Ty} {s : Str} (h : ReadsTypes u ts s) {k : Str}
    (hk : EndsTypes u k) : sepList0 commaP (typeP u) (s ++ k) = .ok k ts := by
  rcases h k hk with ⟨rfl, rfl⟩ | ⟨t, ts', r, rfl, h1, h2, _⟩
  · exact sepList0_error hk.2.1
  · exact sepList0_eq h1 h2

theorem ReadsTypes.noBlank {u : CharClass} {ts : List Ty} {s : Str} (h : ReadsTypes u ts s) {k : Str}
    (hk : EndsTypes u k) (hb : NoBlank k) : NoBlank (s ++ k) := by
  rcases h k hk with ⟨rfl, rfl⟩ | ⟨_, _, _, _, _, _, h3⟩
  · exact hb
  · exact h3

/-- A type is read. -/
def ReadsType (u : CharClass) (t : Ty) (s : Str) : Prop :=
  ∀ k, Stop u k → (t.VoidFn → typeP u (s ++ k) = starsP t k) ∧ (¬ t.VoidFn → typeP u (s ++ k) = postP u t k)

theorem ReadsType.ends {u : CharClass} {t : Ty} {s : Str} (h : ReadsType u t s) {k : Str}
    (hk : EndsType u k) : typeP u (s ++ k) = .ok k t := by
  by_cases hv : t.VoidFn
  · rw [(h k hk.stop).1 hv]
    exact starsP_stop fun hc => (hk.1 _ hc).2 rfl
  · rw [(h k hk.stop).2 hv]
    exact postP_ends hk

theorem endsTypes_close {u : CharClass} {c : Char} (k : Str) (h : c = ')' ∨ c = '}') :
    EndsTypes u (c :: k) := by
  rcases h with rfl | rfl
  · exact ⟨endsType_cons _ (identChar_false u (by decide) (by decide)) (by decide) (by decide),
      typeP_error _ (by decide), commaP_ne _ (by decide)⟩
  · exact ⟨endsType_cons _ (identChar_false u (by decide) (by decide)) (by decide) (by decide),
      typeP_error _ (by decide), commaP_ne _ (by decide)⟩

theorem endsTypes_blanks {u : CharClass} {b : Str} (hb : OptBlanks b) (k : Str) :
    EndsTypes u (b ++ '}' :: k) := by
  cases b with
  | nil => exact endsTypes_close k (.inr rfl)
  | cons c b =>
    have hc := isSpace_blank (hb c (by simp))
    refine ⟨endsType_blanks ⟨by simp, hb⟩ (noBlank_cons _ (by decide)) (by simp), ?_, ?_⟩
    · refine typeP_error _ fun h => ?_
      rw [h.noBlank] at hc
      exact absurd hc (by simp)
    · refine commaP_ne _ ?_
      rintro rfl
      exact absurd hc (by decide)

theorem fieldsP_eq {u : CharClass} {ts : List Ty} {s b b' : Str} (h : ReadsTypes u ts s) (hb : OptBlanks b)
    (hb' : OptBlanks b') (k : Str) :
    fieldsP (typeP u) ('{' :: (b ++ (s ++ (b' ++ '}' :: k)))) = .ok k ts := by
  unfold fieldsP
  rw [P.bind_ok (charP_cons _ _)]
  rcases h (b' ++ '}' :: k) (endsTypes_blanks hb' k) with ⟨rfl, rfl⟩ | ⟨_, _, _, _, _, _, h3⟩
  · have : OptBlanks (b ++ b') := fun c hc => by
      rcases List.mem_append.1 hc with hc | hc
      · exact hb c hc
      · exact hb' c hc
    rw [List.nil_append, ← List.append_assoc, P.bind_ok (space0_eq this (noBlank_cons _ (by decide))),
      P.bind_ok (sepList0_error (typeP_error _ (by decide))),
      P.bind_ok (space0_none (noBlank_cons _ (by decide))), P.bind_ok (charP_cons _ _)]
    rfl
  · rw [P.bind_ok (space0_eq hb h3), P.bind_ok (h.sepList (endsTypes_blanks hb' k)),
      P.bind_ok (space0_eq hb' (noBlank_cons _ (by decide))), P.bind_ok (charP_cons _ _)]
    rfl

theorem fnInputsP_eq {u : CharClass} {ts : List Ty} {s b : Str} (h : ReadsTypes u ts s) (hb : OptBlanks b)
    (k : Str) : fnInputsP (typeP u) ('(' :: (b ++ (s ++ ')' :: k))) = .ok k ts := by
  have hk := endsTypes_close (u := u) (c := ')') k (.inl rfl)
  unfold fnInputsP
  rw [P.bind_ok (charP_cons _ _), P.bind_ok (space0_eq hb (h.noBlank hk (noBlank_cons _ (by decide)))),
    P.bind_ok (h.sepList hk), P.bind_ok (charP_cons _ _)]
  rfl

theorem postP_fn {u : CharClass} {t : Ty} {ts : List Ty} {s b b' : Str} (h : ReadsTypes u ts s)
    (hb : Blanks b) (hb' : OptBlanks b') (k : Str) :
    postP u t (b ++ '(' :: (b' ++ (s ++ ')' :: k))) = postP u (.fn ts (some t)) k := by
  have h1 : (b ++ '(' :: (b' ++ (s ++ ')' :: k))).head? ≠ some '*' := by
    obtain ⟨c, b2, rfl, hc⟩ := hb.head
    simp only [List.cons_append, List.head?_cons, ne_eq, Option.some.injEq]
    rintro rfl
    exact absurd hc (by decide)
  conv => lhs; unfold postP
  rw [P.bind_ok (starsP_stop h1)]
  refine fnLoopP_ok ?_
  unfold fnTailP
  rw [P.bind_ok (space1_eq hb (noBlank_cons _ (by decide)))]
  exact fnInputsP_eq h hb' k

theorem notVoid_of {t : Ty} (h : ∀ ts, t ≠ .fn ts none) (h' : ∀ t', t ≠ .pointer t') : ¬ t.VoidFn := by
  rintro (⟨ts⟩ | ⟨_⟩)
  · exact h _ rfl
  · exact h' _ rfl

theorem readsType_base {u : CharClass} {t : Ty} {s : Str} (hv : ¬ t.VoidFn)
    (h : ∀ k, Stop u k → typeP u (s ++ k) = postP u t k) : ReadsType u t s :=
  fun k hk => ⟨fun hv' => absurd hv' hv, fun _ => h k hk⟩

theorem countedP_eq {u : CharClass} {n : Nat} {t : Ty} {ds b b' s : Str} (hn : n < 2 ^ 64)
    (hd : IsDecimal ds n) (hb : Blanks b) (hb' : Blanks b') (hs : ReadsType u t s) (hs' : TyText u t s)
    (mk : Nat → Ty → Ty) {k : Str} (hk : EndsType u k) :
    countedP (typeP u) mk (ds ++ (b ++ ('x' :: (b' ++ (s ++ k))))) = .ok k (mk n t) := by
  unfold countedP
  rw [P.bind_ok (usizeP_eq hn hd (stop_blanks u hb _).digit),
    P.bind_ok (space1_eq hb (noBlank_cons _ (by decide))), P.bind_ok (charP_cons _ _),
    P.bind_ok (space1_eq hb' (hs'.noBlank _)), P.bind_ok (hs.ends hk)]
  rfl

mutual
theorem TyText.reads {u : CharClass} : ∀ {t : Ty} {s : Str}, TyText u t s → ReadsType u t s
  | _, _, .alias (name := name) (s := s) h => readsType_base (by rintro ⟨⟩) fun k hk =>
      typeP_base (by decide) (base_alias (P.bind_ok (aliasP_eq h hk)))
  | _, _, .array (n := n) (t := t) hn hd hb hb' hs => readsType_base (by rintro ⟨⟩) fun k hk => by
      simp only [List.append_assoc, List.cons_append, List.nil_append]
      refine typeP_base (by decide) (base_array ?_)
      unfold arrayP delimited
      rw [P.bind_ok (charP_cons _ _), P.bind_ok (countedP_eq hn hd hb hb' (TyText.reads hs) hs _
        (endsType_cons _ (identChar_false u (by decide) (by decide)) (by decide) (by decide))),
        P.bind_ok (charP_cons _ _)]
      rfl
  | _, _, .mvtVector (n := n) (t := t) (ds := ds) hn hd hb hb' hs => readsType_base (by rintro ⟨⟩) fun k hk => by
      simp only [List.append_assoc, List.cons_append, List.nil_append]
      refine typeP_base (by decide) (base_mvtVector ?_ ?_)
      · obtain ⟨d, ds', rfl⟩ := List.exists_cons_of_ne_nil hd.1
        simp only [List.cons_append, List.head?_cons, ne_eq, Option.some.injEq]
        rintro rfl
        exact absurd (hd.2.1 '{' (by simp)) (by decide)
      unfold mvtVectorP delimited
      rw [P.bind_ok (charP_cons _ _), P.bind_ok (countedP_eq hn hd hb hb' (TyText.reads hs) hs _
        (endsType_cons _ (identChar_false u (by decide) (by decide)) (by decide) (by decide))),
        P.bind_ok (charP_cons _ _)]
      rfl
  | _, _, .double => readsType_base (by rintro ⟨⟩) fun k hk =>
      typeP_base (by decide) (base_double (P.bind_ok (tag_append c!"double" k)))
  | _, _, .float => readsType_base (by rintro ⟨⟩) fun k hk =>
      typeP_base (by decide) (base_float (P.bind_ok (tag_append c!"float" k)))
  | _, _, .opaquePointer => readsType_base (by rintro ⟨⟩) fun k hk =>
      typeP_base (by decide) (base_opaquePointer (P.bind_ok (tag_append c!"ptr" k)))
  | _, _, .integer hn hd => readsType_base (by rintro ⟨⟩) fun k hk =>
      typeP_base (by decide) (base_integer (by
        unfold integerP
        rw [P.bind_ok (charP_cons _ _)]
        exact P.bind_ok (usizeP_eq hn hd hk.digit)))
  | _, _, .varargs => readsType_base (by rintro ⟨⟩) fun k hk =>
      typeP_base (by decide) (base_varargs (P.bind_ok (tag_append c!"..." k)))
  | _, _, .struct hb hb' hs => readsType_base (by rintro ⟨⟩) fun k hk => by
      simp only [List.append_assoc, List.cons_append, List.nil_append]
      exact typeP_base (by decide) (base_struct (P.bind_ok (fieldsP_eq (TysText.reads hs) hb hb' k)))
  | _, _, .packedStruct hb hb' hs => readsType_base (by rintro ⟨⟩) fun k hk => by
      simp only [List.append_assoc, List.cons_append, List.nil_append]
      refine typeP_base (by decide) (base_packedStruct ?_)
      unfold packedStructP
      rw [P.bind_ok (charP_cons _ _), P.bind_ok (fieldsP_eq (TysText.reads hs) hb hb' _),
        P.bind_ok (charP_cons _ _)]
      rfl
  | _, _, .voidFn hb hb' hs => fun k hk => by
      refine ⟨fun _ => ?_, fun h => absurd (.fn _) h⟩
      rw [typeP_unfold]
      simp only [List.append_assoc, List.cons_append, List.nil_append]
      exact typeBody_void hb (noBlank_cons _ (by decide)) (fnInputsP_eq (TysText.reads hs) hb' k)
  | _, _, .fn ht hv hb hb' hs => readsType_base (by rintro ⟨⟩) fun k hk => by
      simp only [List.append_assoc, List.cons_append, List.nil_append]
      rw [((TyText.reads ht) _ (stop_blanks u hb _)).2 hv]
      exact postP_fn (TysText.reads hs) hb hb' k
  | _, _, .pointer (t := t) hs => fun k hk => by
      have := (TyText.reads hs) ('*' :: k) (stop_cons u _ (identChar_false u (by decide) (by decide)))
      simp only [List.append_assoc, List.cons_append, List.nil_append]
      refine ⟨fun h => ?_, fun h => ?_⟩
      · cases h with
        | pointer h => rw [this.1 h, starsP_star]
      · rw [this.2 (fun h' => h (.pointer h')), postP_star]

theorem TysText.reads {u : CharClass} : ∀ {ts : List Ty} {s : Str}, TysText u ts s → ReadsTypes u ts s
  | _, _, .nil => fun k hk => .inl ⟨rfl, rfl⟩
  | _, _, .one h => fun k hk =>
      .inr ⟨_, [], k, rfl, (TyText.reads h).ends hk.1, sepLoop_error hk.2.2, h.noBlank k⟩
  | _, _, .cons (b := b) (s' := s') h hb hs => fun k hk => by
      rcases (TysText.reads hs) k hk with ⟨h0, _⟩ | ⟨t, ts', r, h1, h2, h3, h4⟩
      · exact absurd h0 (by simp)
      · injection h1 with h1 h1'
        subst h1 h1'
        refine .inr ⟨_, _, ',' :: (b ++ (s' ++ k)), rfl, ?_, ?_, ?_⟩
        · simp only [List.append_assoc, List.cons_append, List.nil_append]
          exact (TyText.reads h).ends
            (endsType_cons _ (identChar_false u (by decide) (by decide)) (by decide) (by decide))
        · exact sepLoop_cons (fun n => (eats_typeP u).good) (commaP_eq hb h4) (by simp; omega) h2 h3
        · rw [List.append_assoc]
          exact h.noBlank _
end

end CallStack
