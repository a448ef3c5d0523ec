import Verif.Proof.IrTypes
import Verif.Spec.IrModule

/-!
Parsers leave a line only within quotes.
-/

namespace CallStack

variable {α β : Type}

/-- Complete quotes, which contain all line breaks. -/
def Bal (x : Str) : Prop := InLine x ∧ x.count '"' % 2 = 0

theorem inLine_nil : InLine [] := by
  intro a c b h
  simp at h

theorem bal_nil : Bal [] := ⟨inLine_nil, rfl⟩

theorem inLine_append {x y : Str} (hx : Bal x) (hy : InLine y) : InLine (x ++ y) := by
  intro a c b h hc
  rcases List.append_eq_append_iff.1 h with ⟨z, h1, h2⟩ | ⟨z, h1, h2⟩
  · have := hy z c b h2 hc
    have := hx.2
    rw [h1, List.count_append]
    omega
  · cases z with
    | nil =>
      have h3 := hy [] c b (by simpa using h2.symm) hc
      simp at h3
    | cons d z =>
      injection h2 with h2 h3
      subst h2
      exact hx.1 a c z h1 hc

theorem bal_append {x y : Str} (hx : Bal x) (hy : Bal y) : Bal (x ++ y) :=
  ⟨inLine_append hx hy.1, by have := hx.2; have := hy.2; rw [List.count_append]; omega⟩

/-- Neither quote nor line break. -/
def plainChar (c : Char) : Bool := c != '"' && c != '\n' && c != '\r'

theorem bal_plain {x : Str} (h : ∀ c ∈ x, plainChar c = true) : Bal x := by
  refine ⟨?_, ?_⟩
  · intro a c b hx hc
    have := h c (by rw [hx]; simp)
    rcases hc with rfl | rfl <;> exact absurd this (by decide)
  · have : x.count '"' = 0 := List.count_eq_zero.2 fun hq => absurd (h _ hq) (by decide)
    rw [this]

theorem bal_quoted {s : Str} (h : '"' ∉ s) : Bal ('"' :: (s ++ ['"'])) := by
  have h0 : s.count '"' = 0 := List.count_eq_zero.2 h
  refine ⟨?_, by simp [h0]⟩
  intro a c b hx hc
  cases a with
  | nil =>
    injection hx with hx _
    subst hx
    rcases hc with hc | hc <;> exact absurd hc (by decide)
  | cons d a =>
    injection hx with hd hx
    subst hd
    have ha : '"' ∉ a := by
      rcases List.append_eq_append_iff.1 hx with ⟨z, h1, h2⟩ | ⟨z, h1, h2⟩
      · cases z with
        | nil =>
          rw [List.nil_append] at h2
          injection h2 with h2 _
          subst h2
          rcases hc with hc | hc <;> exact absurd hc (by decide)
        | cons e z => simp at h2
      · rw [h1] at h
        exact fun h' => h (by simp [h'])
    rw [List.count_cons_self, List.count_eq_zero.2 ha]

theorem inLine_oneLine {x : Str} (h : OneLine x) : InLine x := by
  intro a c b hx hc
  have := h c (by rw [hx]; simp)
  rcases hc with rfl | rfl
  · exact absurd rfl this.1
  · exact absurd rfl this.2

/-- The consumed text. -/
def Takes (p : P α) (Q : Str → Prop) : Prop := ∀ i r a, p i = .ok r a → ∃ x, i = x ++ r ∧ Q x

theorem Takes.line {p : P α} (h : Takes p Bal) : Takes p InLine := fun i r a ha => by
  obtain ⟨x, h1, h2⟩ := h i r a ha
  exact ⟨x, h1, h2.1⟩

theorem takes_pure (a : α) : Takes (Pure.pure a : P α) Bal := fun i r b h => by
  rw [P.pure_eq] at h
  injection h with h _
  exact ⟨[], h, bal_nil⟩

theorem takes_fail : Takes (P.fail : P α) Bal := fun i r b h => by simp [P.fail] at h

theorem takes_bind {p : P α} {f : α → P β} (hp : Takes p Bal) (hf : ∀ a, Takes (f a) Bal) :
    Takes (p >>= f) Bal := fun i r b h => by
  obtain ⟨r', a, h1, h2⟩ := P.bind_eq_ok h
  obtain ⟨x, rfl, hx⟩ := hp i r' a h1
  obtain ⟨y, rfl, hy⟩ := hf a r' r b h2
  exact ⟨x ++ y, by simp, bal_append hx hy⟩

theorem takes_bind_line {p : P α} {f : α → P β} (hp : Takes p Bal) (hf : ∀ a, Takes (f a) InLine) :
    Takes (p >>= f) InLine := fun i r b h => by
  obtain ⟨r', a, h1, h2⟩ := P.bind_eq_ok h
  obtain ⟨x, rfl, hx⟩ := hp i r' a h1
  obtain ⟨y, rfl, hy⟩ := hf a r' r b h2
  exact ⟨x ++ y, by simp, inLine_append hx hy⟩

theorem takes_then_pure {p : P α} {b : β} {Q : Str → Prop} (hp : Takes p Q) :
    Takes (p >>= fun _ => (Pure.pure b : P β)) Q := fun i r b h => by
  obtain ⟨r', a, h1, h2⟩ := P.bind_eq_ok h
  rw [P.pure_eq] at h2
  injection h2 with h2 _
  subst h2
  exact hp i r' a h1

theorem takes_map {p : P α} {f : α → β} {Q : Str → Prop} (hp : Takes p Q) :
    Takes (p >>= fun a => (Pure.pure (f a) : P β)) Q := fun i r b h => by
  obtain ⟨r', a, h1, h2⟩ := P.bind_eq_ok h
  rw [P.pure_eq] at h2
  injection h2 with h2 _
  subst h2
  exact hp i r' a h1

theorem takes_alt_one {p : P α} {Q : Str → Prop} (h : Takes p Q) : Takes (alt [p]) Q := h

theorem takes_alt_cons {p q : P α} {ps : List (P α)} {Q : Str → Prop} (h : Takes p Q)
    (h' : Takes (alt (q :: ps)) Q) : Takes (alt (p :: q :: ps)) Q := fun i r a ha => by
  cases hp : p i with
  | ok r' a' =>
    rw [alt_ok hp] at ha
    injection ha with h1 h2
    subst h1 h2
    exact h i _ _ hp
  | error => rw [alt_error hp] at ha; exact h' i r a ha
  | stuck =>
    have : alt (p :: q :: ps) i = .stuck := by
      show orElse _ _ _ = _
      unfold orElse
      rw [hp]
    rw [this] at ha
    exact absurd ha (by simp)

theorem takes_tag {t : Str} (h : t.all plainChar = true) : Takes (tag t) Bal := fun i r a ha =>
  ⟨t, tag_ok ha, bal_plain (List.all_eq_true.1 h)⟩

theorem takes_charP {c : Char} (h : plainChar c = true) : Takes (charP c) Bal := fun i r a ha =>
  ⟨[c], by rw [charP_ok ha]; rfl, bal_plain (by simpa using h)⟩

theorem takes_takeWhile1 {f : Char → Bool} (h : ∀ c, f c = true → plainChar c = true) :
    Takes (takeWhile1 f) Bal := fun i r s hs => by
  obtain ⟨h1, _, h2, _⟩ := takeWhile1_ok hs
  exact ⟨s, h1, bal_plain fun c hc => h c (h2 c hc)⟩

theorem plainChar_space {c : Char} (h : isSpace c = true) : plainChar c = true := by
  rcases (isSpace_iff c).1 h with rfl | rfl <;> decide

theorem plainChar_ident (u : CharClass) {c : Char} (h : identChar u c = true) : plainChar c = true := by
  cases hp : plainChar c with
  | true => rfl
  | false =>
    have : c = '"' ∨ c = '\n' ∨ c = '\r' := by
      simp only [plainChar, Bool.and_eq_false_iff, bne_eq_false_iff_eq] at hp
      exact or_assoc.1 hp
    rcases this with rfl | rfl | rfl <;>
      (rw [identChar_false u (by decide) (by decide)] at h; exact absurd h (by simp))

theorem plainChar_digit {c : Char} (h : isDigit c = true) : plainChar c = true := by
  have := (isDigit_iff c).1 h
  simp only [List.mem_cons, List.not_mem_nil, or_false] at this
  rcases this with rfl | rfl | rfl | rfl | rfl | rfl | rfl | rfl | rfl | rfl <;> decide

theorem takes_space0 : Takes space0 Bal := fun i r a h => by
  unfold space0 at h
  injection h with h _
  exact ⟨(spanP isSpace i).1, by rw [← h, spanP_append],
    bal_plain fun c hc => plainChar_space (spanP_fst _ i c hc)⟩

theorem takes_space1 : Takes space1 Bal :=
  takes_then_pure (takes_takeWhile1 fun _ => plainChar_space)

theorem takes_digit1 : Takes digit1 Bal := takes_takeWhile1 fun _ => plainChar_digit

theorem notLineEnding_ok {i r : Str} {a : Unit} (h : notLineEnding i = .ok r a) :
    i = (spanP notEol i).1 ++ r := by
  have h1 := spanP_append notEol i
  unfold notLineEnding at h
  split at h
  · rename_i heq
    injection h with h _
    rw [← h, ← heq, h1]
  · exact absurd h (by simp)
  · injection h with h _
    rw [← h, h1]

theorem takes_notLineEnding : Takes notLineEnding InLine := fun i r a h =>
  ⟨_, notLineEnding_ok h, inLine_oneLine fun c hc => by
    have := spanP_fst notEol i c hc
    simp only [notEol, Bool.and_eq_true, bne_iff_ne] at this
    exact ⟨this.2, this.1⟩⟩

theorem takes_mapRes {p : P α} {f : α → Option β} {Q : Str → Prop} (h : Takes p Q) : Takes (mapRes p f) Q :=
  fun i r b hb => by
    unfold mapRes at hb
    obtain ⟨r', a, h1, h2⟩ := P.bind_eq_ok hb
    cases hf : f a with
    | none => simp only [hf] at h2; exact absurd h2 (by simp [P.fail])
    | some b' =>
      simp only [hf] at h2
      rw [P.pure_eq] at h2
      injection h2 with h2 _
      subst h2
      exact h i r' a h1

theorem takes_stringP : Takes stringP Bal := fun i r s h => by
  unfold stringP at h
  obtain ⟨r1, a1, h1, h⟩ := P.bind_eq_ok h
  obtain ⟨r2, a2, h2, h⟩ := P.bind_eq_ok h
  obtain ⟨r3, a3, h3, h⟩ := P.bind_eq_ok h
  rw [P.pure_eq] at h
  injection h with h _
  subst h
  have h1 := charP_ok h1
  have h3 := charP_ok h3
  have hs := spanP_append (fun c => c != '"') r1
  have hf := spanP_fst (fun c => c != '"') r1
  unfold takeUntilQuote at h2
  split at h2
  · exact absurd h2 (by simp)
  · rename_i s' c r' heq
    injection h2 with h2 _
    rw [heq] at hs hf
    refine ⟨'"' :: (s' ++ ['"']), ?_, bal_quoted fun hq => ?_⟩
    · rw [h1, ← hs]
      simp only at h2 ⊢
      rw [h2, h3]
      simp
    · exact absurd (hf _ hq) (by decide)

theorem takes_opt {p : P α} (h : Takes p Bal) : Takes (opt p) Bal := fun i r a ha => by
  unfold opt at ha
  cases hp : p i with
  | ok r' a' =>
    rw [hp] at ha
    injection ha with h1 _
    subst h1
    exact h i _ _ hp
  | error =>
    rw [hp] at ha
    injection ha with h1 _
    exact ⟨[], by simpa using h1, bal_nil⟩
  | stuck => rw [hp] at ha; exact absurd ha (by simp)

theorem takes_many0F {p : P α} (h : Takes p Bal) (n : Nat) : Takes (many0F p n) Bal := by
  induction n with
  | zero => intro i r a ha; simp [many0F] at ha
  | succ n ih =>
    intro i r a ha
    unfold many0F at ha
    cases hp : p i with
    | stuck => rw [hp] at ha; simp at ha
    | error =>
      rw [hp] at ha
      injection ha with h1 _
      exact ⟨[], by simpa using h1, bal_nil⟩
    | ok r' a' =>
      rw [hp] at ha
      simp only at ha
      split at ha
      · cases hm : many0F p n r' with
        | stuck => rw [hm] at ha; simp at ha
        | error => rw [hm] at ha; simp at ha
        | ok r2 as =>
          rw [hm] at ha
          injection ha with h1 _
          subst h1
          obtain ⟨x, rfl, hx⟩ := h i r' a' hp
          obtain ⟨y, rfl, hy⟩ := ih r' _ _ hm
          exact ⟨x ++ y, by simp, bal_append hx hy⟩
      · simp at ha

theorem takes_many0 {p : P α} (h : Takes p Bal) : Takes (many0 p) Bal := fun i r a ha =>
  takes_many0F h _ i r a ha

theorem takes_many1 {p : P α} (h : Takes p Bal) : Takes (many1 p) Bal := fun i r a ha => by
  unfold many1 at ha
  cases hp : p i with
  | stuck => rw [hp] at ha; simp at ha
  | error => rw [hp] at ha; simp at ha
  | ok r' a' =>
    rw [hp] at ha
    simp only at ha
    cases hm : many0 p r' with
    | stuck => rw [hm] at ha; simp at ha
    | error => rw [hm] at ha; simp at ha
    | ok r2 as =>
      rw [hm] at ha
      injection ha with h1 _
      subst h1
      obtain ⟨x, rfl, hx⟩ := h i r' a' hp
      obtain ⟨y, rfl, hy⟩ := takes_many0 h r' _ _ hm
      exact ⟨x ++ y, by simp, bal_append hx hy⟩

theorem takes_sepLoopF {sep : P β} {p : P α} (hs : Takes sep Bal) (h : Takes p Bal) (n : Nat) :
    Takes (sepLoopF sep p n) Bal := by
  induction n with
  | zero => intro i r a ha; simp [sepLoopF] at ha
  | succ n ih =>
    intro i r a ha
    unfold sepLoopF at ha
    cases hp : sep i with
    | stuck => rw [hp] at ha; simp at ha
    | error =>
      rw [hp] at ha
      injection ha with h1 _
      exact ⟨[], by simpa using h1, bal_nil⟩
    | ok r0 b =>
      rw [hp] at ha
      simp only at ha
      split at ha
      · cases hq : p r0 with
        | stuck => rw [hq] at ha; simp at ha
        | error =>
          rw [hq] at ha
          injection ha with h1 _
          exact ⟨[], by simpa using h1, bal_nil⟩
        | ok r' a' =>
          rw [hq] at ha
          simp only at ha
          cases hm : sepLoopF sep p n r' with
          | stuck => rw [hm] at ha; simp at ha
          | error => rw [hm] at ha; simp at ha
          | ok r2 as =>
            rw [hm] at ha
            injection ha with h1 _
            subst h1
            obtain ⟨x, rfl, hx⟩ := hs i _ _ hp
            obtain ⟨y, rfl, hy⟩ := h _ _ _ hq
            obtain ⟨z, rfl, hz⟩ := ih r' _ _ hm
            exact ⟨x ++ (y ++ z), by simp, bal_append hx (bal_append hy hz)⟩
      · simp at ha

theorem takes_sepList1 {sep : P β} {p : P α} (hs : Takes sep Bal) (h : Takes p Bal) :
    Takes (sepList1 sep p) Bal := fun i r a ha => by
  obtain ⟨r', a', as', h1, h2, _⟩ := sepList1_eq_ok ha
  obtain ⟨x, rfl, hx⟩ := h i r' a' h1
  obtain ⟨y, rfl, hy⟩ := takes_sepLoopF hs h _ r' _ _ h2
  exact ⟨x ++ y, by simp, bal_append hx hy⟩

theorem takes_sepList0 {sep : P β} {p : P α} (hs : Takes sep Bal) (h : Takes p Bal) :
    Takes (sepList0 sep p) Bal := fun i r a ha => by
  unfold sepList0 at ha
  split at ha
  · injection ha with h1 _
    exact ⟨[], by simpa using h1, bal_nil⟩
  · exact takes_sepList1 hs h i r a ha

theorem takes_delimited {o c : P Unit} {p : P α} (ho : Takes o Bal) (hp : Takes p Bal) (hc : Takes c Bal) :
    Takes (delimited o p c) Bal :=
  takes_bind ho fun _ => takes_bind hp fun _ => takes_bind hc fun _ => takes_pure _

theorem takes_identP (u : CharClass) : Takes (identP u) Bal :=
  takes_mapRes (takes_takeWhile1 fun _ => plainChar_ident u)

/-- Proves `Takes p Bal` and `Takes p InLine` by following the structure of the parser. -/
syntax "takes" : tactic

macro_rules
  | `(tactic| takes) => `(tactic| first
    | with_reducible assumption
    | (with_reducible refine takes_charP ?_; decide)
    | (with_reducible refine takes_tag ?_; decide)
    | with_reducible exact takes_fail
    | with_reducible exact takes_space0
    | with_reducible exact takes_space1
    | with_reducible exact takes_digit1
    | with_reducible exact takes_stringP
    | with_reducible exact takes_identP _
    | with_reducible exact takes_notLineEnding
    | with_reducible exact takes_pure _
    | (with_reducible refine takes_then_pure ?_; takes)
    | (with_reducible refine takes_alt_one ?_; takes)
    | (with_reducible refine takes_alt_cons ?_ ?_ <;> takes)
    | (with_reducible refine takes_mapRes ?_; takes)
    | (with_reducible refine takes_opt ?_; takes)
    | (with_reducible refine takes_many0 ?_; takes)
    | (with_reducible refine takes_many1 ?_; takes)
    | (with_reducible refine takes_sepList1 ?_ ?_ <;> takes)
    | (with_reducible refine takes_sepList0 ?_ ?_ <;> takes)
    | (with_reducible refine takes_delimited ?_ ?_ ?_ <;> takes)
    | (with_reducible refine takes_bind ?_ fun _ => ?_ <;> takes)
    | (with_reducible refine takes_bind_line ?_ fun _ => ?_ <;> takes)
    | (with_reducible refine Takes.line ?_; takes))

theorem takes_globalP (u : CharClass) : Takes (globalP u) Bal := by unfold globalP; takes
theorem takes_localP (u : CharClass) : Takes (localP u) Bal := by unfold localP; takes
theorem takes_nameP (u : CharClass) : Takes (nameP u) Bal := by unfold nameP; takes

macro_rules | `(tactic| takes) => `(tactic| with_reducible first | exact takes_globalP _ | exact takes_localP _ | exact takes_nameP _)

theorem takes_functionP (u : CharClass) : Takes (functionP u) Bal := by unfold functionP; takes
theorem takes_aliasP (u : CharClass) : Takes (aliasP u) Bal := by unfold aliasP; takes
theorem takes_usizeP : Takes usizeP Bal := by unfold usizeP; takes
theorem takes_commaP : Takes commaP Bal := by unfold commaP; takes
theorem takes_commentP : Takes commentP InLine := by unfold commentP; takes

macro_rules | `(tactic| takes) => `(tactic| with_reducible first | exact takes_functionP _ | exact takes_aliasP _ | exact takes_usizeP | exact takes_commaP | exact takes_commentP)

/-! ### Types -/

theorem takes_starsP : ∀ t, Takes (starsP t) Bal := fun t i r a h => by
  induction i generalizing t with
  | nil =>
    simp only [starsP] at h
    injection h with h _
    exact ⟨[], by simpa using h, bal_nil⟩
  | cons c i ih =>
    by_cases hc : c = '*'
    · subst hc
      rw [starsP_star] at h
      obtain ⟨x, rfl, hx⟩ := ih _ h
      exact ⟨'*' :: x, rfl, bal_append (x := ['*']) (bal_plain (by decide)) hx⟩
    · rw [starsP_stop (by simpa using hc)] at h
      injection h with h _
      exact ⟨[], by simpa using h, bal_nil⟩

theorem takes_fieldsP {ty : P Ty} (h : Takes ty Bal) : Takes (fieldsP ty) Bal := by unfold fieldsP; takes
theorem takes_fnInputsP {ty : P Ty} (h : Takes ty Bal) : Takes (fnInputsP ty) Bal := by unfold fnInputsP; takes
theorem takes_fnTailP {ty : P Ty} (h : Takes ty Bal) : Takes (fnTailP ty) Bal :=
  takes_bind takes_space1 fun _ => takes_fnInputsP h

theorem takes_fnLoopF {ty : P Ty} (h : Takes ty Bal) (n : Nat) : ∀ t, Takes (fnLoopF ty n t) Bal := by
  induction n with
  | zero => intro t i r a ha; simp [fnLoopF] at ha
  | succ n ih =>
    intro t i r a ha
    unfold fnLoopF at ha
    cases ho : opt (fnTailP ty) i with
    | stuck => rw [ho] at ha; simp at ha
    | error => rw [ho] at ha; simp at ha
    | ok r' o =>
      rw [ho] at ha
      cases o with
      | none =>
        injection ha with h1 _
        exact ⟨[], by simpa using h1, bal_nil⟩
      | some ins =>
        simp only at ha
        obtain ⟨x, rfl, hx⟩ := takes_opt (takes_fnTailP h) i _ _ ho
        cases hs : starsP (.fn ins (some t)) r' with
        | stuck => rw [hs] at ha; simp at ha
        | error => rw [hs] at ha; simp at ha
        | ok r2 t' =>
          rw [hs] at ha
          obtain ⟨y, rfl, hy⟩ := takes_starsP _ _ _ _ hs
          obtain ⟨z, rfl, hz⟩ := ih t' _ _ _ ha
          exact ⟨x ++ (y ++ z), by simp, bal_append hx (bal_append hy hz)⟩

theorem takes_typeF (u : CharClass) (n : Nat) : Takes (typeF u n) Bal := by
  induction n with
  | zero => intro i r a ha; simp [typeF] at ha
  | succ n ih =>
    have hb : Takes (baseP u (typeF u n)) Bal := by
      have hf := takes_fieldsP ih
      unfold baseP arrayP packedStructP structP tyAliasP doubleP floatP opaquePointerP integerP varargsP
        mvtVectorP countedP
      takes
    unfold typeF typeBody
    refine takes_bind (by takes) fun o => ?_
    cases o with
    | some x => exact takes_bind takes_space1 fun _ => takes_bind (takes_fnInputsP ih) fun _ => takes_starsP _
    | none =>
      exact takes_bind hb fun _ => takes_bind (takes_starsP _) fun t i r a h => takes_fnLoopF ih _ t i r a h

theorem takes_typeP (u : CharClass) : Takes (typeP u) Bal := fun i r a h => takes_typeF u _ i r a h

macro_rules | `(tactic| takes) => `(tactic| with_reducible exact takes_typeP _)

/-! ### The other parsers -/

theorem plainChar_word (u : CharClass) {c : Char} (h : (u.alphabetic c || c == '_') = true) :
    plainChar c = true := by
  refine plainChar_ident u ?_
  simp only [Bool.or_eq_true, beq_iff_eq] at h
  rcases h with h | h <;> simp [identChar, CharClass.alphanumeric, h]

theorem takes_attributeP (u : CharClass) : Takes (attributeP u) Bal := by
  refine takes_bind (takes_takeWhile1 fun _ => plainChar_word u) fun attr => ?_
  cases attrKind attr <;> simp only <;> takes

macro_rules | `(tactic| takes) => `(tactic| with_reducible exact takes_attributeP _)

theorem takes_attrsP (u : CharClass) : Takes (attrsP u) Bal := by unfold attrsP; takes
theorem takes_attrsAfterP (u : CharClass) : Takes (attrsAfterP u) Bal := by unfold attrsAfterP; takes
theorem takes_gepIndexP (u : CharClass) : Takes (gepIndexP u) Bal := by unfold gepIndexP; takes

macro_rules | `(tactic| takes) => `(tactic| with_reducible first | exact takes_attrsP _ | exact takes_attrsAfterP _ | exact takes_gepIndexP _)

theorem takes_getelementptrP (u : CharClass) : Takes (getelementptrP u) Bal := by
  unfold getelementptrP gepInnerP; takes

macro_rules | `(tactic| takes) => `(tactic| with_reducible exact takes_getelementptrP _)

theorem takes_bitcastP (u : CharClass) : Takes (bitcastP u) Bal := by
  unfold bitcastP bitcastInnerP; takes

theorem takes_outputP (u : CharClass) : Takes (outputP u) Bal := by unfold outputP; takes
theorem takes_tailP : Takes tailP Bal := by unfold tailP; takes

macro_rules | `(tactic| takes) => `(tactic| with_reducible first | exact takes_bitcastP _ | exact takes_outputP _ | exact takes_tailP)

theorem takes_parameterP (u : CharClass) : Takes (parameterP u) Bal := by unfold parameterP; takes

theorem takes_opt_line {p : P α} (h : Takes p InLine) : Takes (opt p) InLine := fun i r a ha => by
  unfold opt at ha
  cases hp : p i with
  | ok r' a' =>
    rw [hp] at ha
    injection ha with h1 _
    subst h1
    exact h i _ _ hp
  | error =>
    rw [hp] at ha
    injection ha with h1 _
    exact ⟨[], by simpa using h1, inLine_nil⟩
  | stuck => rw [hp] at ha; exact absurd ha (by simp)

theorem takes_labelP (u : CharClass) : Takes (labelP u) InLine := by
  unfold labelP
  refine takes_bind_line (by takes) fun _ => takes_bind_line (by takes) fun _ => takes_then_pure ?_
  exact takes_opt_line (by takes)

theorem takes_stmtCommentP : Takes stmtCommentP InLine := by unfold stmtCommentP; takes
theorem takes_asmP (u : CharClass) : Takes (asmP u) InLine := by unfold asmP; takes
theorem takes_valueP (u : CharClass) : Takes (valueP u) Bal := by unfold valueP nullP undefP; takes

macro_rules | `(tactic| takes) => `(tactic| with_reducible first | exact takes_parameterP _ | exact takes_labelP _ | exact takes_stmtCommentP | exact takes_asmP _ | exact takes_valueP _)

theorem takes_argumentP (u : CharClass) : Takes (argumentP u) Bal := by unfold argumentP; takes

macro_rules | `(tactic| takes) => `(tactic| with_reducible exact takes_argumentP _)

theorem takes_bitcastCallP (u : CharClass) : Takes (bitcastCallP u) InLine := by unfold bitcastCallP; takes
theorem takes_directCallP (u : CharClass) : Takes (directCallP u) InLine := by unfold directCallP; takes
theorem takes_indirectCallP (u : CharClass) : Takes (indirectCallP u) InLine := by unfold indirectCallP; takes

end CallStack
