import Verif.Proof.IrTypes

/-!
Printed types belong to the grammar of types, and parsers only produce well-formed types.
-/

namespace CallStack

variable {α β : Type}

theorem blanks_one : Blanks c!" " := ⟨by simp, by simp⟩
theorem optBlanks_nil : OptBlanks [] := by intro c hc; simp at hc
theorem optBlanks_one : OptBlanks c!" " := by intro c hc; simp at hc; simp [hc]

mutual
theorem Ty.WF.text (u : CharClass) : ∀ {t : Ty}, t.WF → TyText u t t.show
  | .alias name, h => by
    rw [Ty.show]
    simpa using TyText.alias (u := u) (.quoted (by simpa [Ty.WF] using h))
  | .array n t, h => by
    rw [Ty.WF] at h
    rw [Ty.show]
    simpa using TyText.array h.1 (showNat_isDecimal n) blanks_one blanks_one (Ty.WF.text u h.2)
  | .mvtVector n t, h => by
    rw [Ty.WF] at h
    rw [Ty.show]
    simpa using TyText.mvtVector h.1 (showNat_isDecimal n) blanks_one blanks_one (Ty.WF.text u h.2)
  | .double, _ => by rw [Ty.show]; exact .double
  | .float, _ => by rw [Ty.show]; exact .float
  | .opaquePointer, _ => by rw [Ty.show]; exact .opaquePointer
  | .varargs, _ => by rw [Ty.show]; exact .varargs
  | .integer n, h => by
    rw [Ty.WF] at h
    rw [Ty.show]
    exact .integer h (showNat_isDecimal n)
  | .packedStruct [], h => by
    rw [Ty.show, showStruct]
    exact .packedStruct optBlanks_nil optBlanks_nil .nil
  | .packedStruct (t :: ts), h => by
    rw [Ty.WF, Ty.WFs] at h
    rw [Ty.show, showStruct]
    simpa using TyText.packedStruct optBlanks_nil optBlanks_one (Ty.WFs.text u h.1 h.2)
  | .struct [], h => by
    rw [Ty.show, showStruct]
    exact .struct optBlanks_nil optBlanks_nil .nil
  | .struct (t :: ts), h => by
    rw [Ty.WF, Ty.WFs] at h
    rw [Ty.show, showStruct]
    simpa using TyText.struct optBlanks_nil optBlanks_one (Ty.WFs.text u h.1 h.2)
  | .fn [] none, h => by
    rw [Ty.show, showOutput, showInputs]
    simpa using TyText.voidFn (u := u) blanks_one optBlanks_nil .nil
  | .fn (t :: ts) none, h => by
    rw [Ty.WF, Ty.WFs] at h
    rw [Ty.show, showOutput, showInputs]
    simpa using TyText.voidFn blanks_one optBlanks_nil (Ty.WFs.text u h.1 h.2)
  | .fn [] (some o), h => by
    rw [Ty.WF] at h
    rw [Ty.show, showOutput, showInputs]
    simpa using TyText.fn (Ty.WF.text u h.2.1) h.2.2 blanks_one optBlanks_nil .nil
  | .fn (t :: ts) (some o), h => by
    rw [Ty.WF, Ty.WFs] at h
    rw [Ty.show, showOutput, showInputs]
    simpa using TyText.fn (Ty.WF.text u h.2.1) h.2.2 blanks_one optBlanks_nil (Ty.WFs.text u h.1.1 h.1.2)
  | .pointer t, h => by
    rw [Ty.WF] at h
    rw [Ty.show]
    exact .pointer (Ty.WF.text u h)
termination_by t => sizeOf t

theorem Ty.WFs.text (u : CharClass) : ∀ {t : Ty} {ts : List Ty}, t.WF → Ty.WFs ts →
    TysText u (t :: ts) (t.show ++ showMore ts)
  | t, [], h, _ => by
    rw [showMore]
    simpa using TysText.one (Ty.WF.text u h)
  | t, t' :: ts, h, h' => by
    rw [Ty.WFs] at h'
    rw [showMore]
    simpa using TysText.cons (Ty.WF.text u h) blanks_one (Ty.WFs.text u h'.1 h'.2)
termination_by t ts => sizeOf (t :: ts)
end

theorem wfs_iff : ∀ {ts : List Ty}, Ty.WFs ts ↔ ∀ t ∈ ts, t.WF
  | [] => by simp [Ty.WFs]
  | t :: ts => by simp [Ty.WFs, wfs_iff (ts := ts)]

theorem inputs_text (u : CharClass) : ∀ {ts : List Ty}, Ty.WFs ts → TysText u ts (showInputs ts)
  | [], _ => by rw [showInputs]; exact .nil
  | t :: ts, h => by
    rw [Ty.WFs] at h
    rw [showInputs]
    exact Ty.WFs.text u h.1 h.2

/-! ### Values produced by parsers -/

/-- Every value that the parser produces has the property. -/
def Yields (p : P α) (Q : α → Prop) : Prop := ∀ i r a, p i = .ok r a → Q a

theorem yields_bind {p : P α} {f : α → P β} {R : α → Prop} {Q : β → Prop} (hp : Yields p R)
    (hf : ∀ a, R a → Yields (f a) Q) : Yields (p >>= f) Q := by
  intro i r b h
  obtain ⟨r', a, h1, h2⟩ := P.bind_eq_ok h
  exact hf a (hp i r' a h1) r' r b h2

theorem yields_true (p : P α) : Yields p (fun _ => True) := fun _ _ _ _ => trivial

theorem yields_pure {a : α} {Q : α → Prop} (h : Q a) : Yields (pure a : P α) Q := by
  intro i r b hb
  rw [P.pure_eq] at hb
  injection hb with _ hb
  exact hb ▸ h

theorem yields_then {p : P α} {f : α → P β} {Q : β → Prop} (hf : ∀ a, Yields (f a) Q) :
    Yields (p >>= f) Q := yields_bind (yields_true p) fun a _ => hf a

theorem yields_alt_one {p : P α} {Q : α → Prop} (h : Yields p Q) : Yields (alt [p]) Q := h

theorem yields_alt {p q : P α} {ps : List (P α)} {Q : α → Prop} (h : Yields p Q)
    (h' : Yields (alt (q :: ps)) Q) : Yields (alt (p :: q :: ps)) Q := by
  intro i r a ha
  cases hp : p i with
  | ok r' b => rw [alt_ok hp] at ha; injection ha with h1 h2; exact h2 ▸ h i r' b hp
  | error => rw [alt_error hp] at ha; exact h' i r a ha
  | stuck =>
    have : alt (p :: q :: ps) i = .stuck := by show orElse _ _ _ = _; unfold orElse; rw [hp]
    rw [this] at ha
    exact absurd ha (by simp)

theorem yields_opt {p : P α} {Q : α → Prop} (h : Yields p Q) :
    Yields (opt p) (fun o => ∀ a, o = some a → Q a) := by
  intro i r o ho a ha
  unfold opt at ho
  cases hp : p i with
  | ok r' b =>
    rw [hp] at ho
    injection ho with _ ho
    rw [ha] at ho
    injection ho with ho
    exact ho ▸ h i r' b hp
  | error => rw [hp] at ho; injection ho with _ ho; rw [ha] at ho; exact absurd ho (by simp)
  | stuck => rw [hp] at ho; exact absurd ho (by simp)

theorem yields_sepLoopF {sep : P β} {p : P α} {Q : α → Prop} (h : Yields p Q) (n : Nat) :
    Yields (sepLoopF sep p n) (fun as => ∀ a ∈ as, Q a) := by
  induction n with
  | zero => intro i r as ha; exact absurd ha (by simp [sepLoopF])
  | succ n ih =>
    intro i r as ha
    unfold sepLoopF at ha
    cases hs : sep i with
    | error => rw [hs] at ha; injection ha with _ ha; subst ha; simp
    | stuck => rw [hs] at ha; exact absurd ha (by simp)
    | ok r1 b =>
      rw [hs] at ha
      by_cases hl : r1.length < i.length
      · simp only [if_pos hl] at ha
        cases hp : p r1 with
        | error => rw [hp] at ha; injection ha with _ ha; subst ha; simp
        | stuck => rw [hp] at ha; exact absurd ha (by simp)
        | ok r2 a =>
          rw [hp] at ha
          simp only at ha
          cases hm : sepLoopF sep p n r2 with
          | error => rw [hm] at ha; exact absurd ha (by simp)
          | stuck => rw [hm] at ha; exact absurd ha (by simp)
          | ok r3 as' =>
            rw [hm] at ha
            injection ha with _ ha
            subst ha
            intro x hx
            rcases List.mem_cons.1 hx with rfl | hx
            · exact h r1 r2 x hp
            · exact ih r2 r3 as' hm x hx
      · simp only [if_neg hl] at ha
        exact absurd ha (by simp)

theorem yields_sepList1 {sep : P β} {p : P α} {Q : α → Prop} (h : Yields p Q) :
    Yields (sepList1 sep p) (fun as => ∀ a ∈ as, Q a) := by
  intro i r as ha
  obtain ⟨r1, a, as', h1, h2, rfl⟩ := sepList1_eq_ok ha
  intro x hx
  rcases List.mem_cons.1 hx with rfl | hx
  · exact h i r1 x h1
  · exact yields_sepLoopF h _ r1 r as' h2 x hx

theorem yields_sepList0 {sep : P β} {p : P α} {Q : α → Prop} (h : Yields p Q) :
    Yields (sepList0 sep p) (fun as => ∀ a ∈ as, Q a) := by
  intro i r as ha
  unfold sepList0 at ha
  cases hs : sepList1 sep p i with
  | error => rw [hs] at ha; injection ha with _ ha; subst ha; simp
  | stuck => rw [hs] at ha; exact absurd ha (by simp)
  | ok r1 as' =>
    rw [hs] at ha
    injection ha with _ ha
    subst ha
    exact yields_sepList1 h i r1 as' hs

theorem yields_delimited {o c : P Unit} {p : P α} {Q : α → Prop} (h : Yields p Q) :
    Yields (delimited o p c) Q :=
  yields_then fun _ => yields_bind h fun _ ha => yields_then fun _ => yields_pure ha

theorem yields_mapRes {p : P α} {f : α → Option β} {R : α → Prop} {Q : β → Prop} (h : Yields p R)
    (hf : ∀ a b, R a → f a = some b → Q b) : Yields (mapRes p f) Q := by
  unfold mapRes
  refine yields_bind h fun a ha => ?_
  cases hb : f a with
  | none => intro i r b hb; simp [P.fail] at hb
  | some b => exact yields_pure (hf a b ha hb)

theorem yields_takeWhile1 (f : Char → Bool) :
    Yields (takeWhile1 f) (fun s => s ≠ [] ∧ ∀ c ∈ s, f c = true) := fun i r s h => by
  obtain ⟨_, h2, h3, _⟩ := takeWhile1_ok h
  exact ⟨h2, h3⟩

/-! ### Types -/

theorem yields_usizeP : Yields usizeP (· < 2 ^ 64) :=
  yields_mapRes (yields_true _) fun s n _ h => ((parseU64_iff s n).1 h).1

theorem yields_stringP : Yields stringP (fun s => '"' ∉ s) := by
  unfold stringP
  refine yields_then fun _ => ?_
  refine yields_bind (R := fun s => '"' ∉ s) ?_ fun s hs => yields_then fun _ => yields_pure hs
  intro i r s h
  unfold takeUntilQuote at h
  have h1 := spanP_fst (fun c => c != '"') i
  generalize spanP (fun c => c != '"') i = q at h h1
  obtain ⟨s', t⟩ := q
  cases t with
  | nil => simp at h
  | cons c t =>
    injection h with _ h
    subst h
    intro hq
    exact absurd (h1 '"' hq) (by decide)

theorem yields_identP (u : CharClass) : Yields (identP u) (fun s => '"' ∉ s) := by
  refine yields_mapRes (yields_takeWhile1 _) fun a b ha hb hq => ?_
  have : a = b := by
    by_cases h : a.head?.any isDigit = true
    · rw [if_pos h] at hb; exact absurd hb (by simp)
    · rw [if_neg h] at hb; injection hb
  subst this
  have := ha.2 '"' hq
  rw [identChar_quote] at this
  exact absurd this (by simp)

theorem yields_digit1 : Yields digit1 (fun s => '"' ∉ s) := fun i r s h hq =>
  absurd ((yields_takeWhile1 _ i r s h).2 '"' hq) (by decide)

theorem yields_nameP (u : CharClass) : Yields (nameP u) (fun s => '"' ∉ s) :=
  yields_alt yields_stringP (yields_alt (yields_identP u) (yields_alt_one yields_digit1))

/-- A type of a function's output. -/
def Ty.Plain (t : Ty) : Prop := t.WF ∧ ¬ t.VoidFn

theorem yields_starsP_wf : ∀ {t : Ty}, t.WF → Yields (starsP t) Ty.WF := by
  intro t ht i
  induction i generalizing t with
  | nil => intro r a h; simp only [starsP] at h; injection h with _ h; exact h ▸ ht
  | cons c i ih =>
    intro r a h
    by_cases hc : c = '*'
    · subst hc
      rw [starsP_star] at h
      exact ih (by rw [Ty.WF]; exact ht) r a h
    · rw [starsP_stop (by simpa using hc)] at h
      injection h with _ h
      exact h ▸ ht

theorem yields_starsP_plain : ∀ {t : Ty}, t.Plain → Yields (starsP t) Ty.Plain := by
  intro t ht i
  induction i generalizing t with
  | nil => intro r a h; simp only [starsP] at h; injection h with _ h; exact h ▸ ht
  | cons c i ih =>
    intro r a h
    by_cases hc : c = '*'
    · subst hc
      rw [starsP_star] at h
      refine ih ⟨by rw [Ty.WF]; exact ht.1, ?_⟩ r a h
      rintro (⟨⟩ | ⟨hv⟩)
      exact ht.2 hv
    · rw [starsP_stop (by simpa using hc)] at h
      injection h with _ h
      exact h ▸ ht

theorem yields_list {p : P (List Ty)} (h : Yields p (fun ts => ∀ t ∈ ts, t.WF)) : Yields p Ty.WFs :=
  fun i r ts hts => wfs_iff.2 (h i r ts hts)

theorem yields_fieldsP {ty : P Ty} (h : Yields ty Ty.WF) : Yields (fieldsP ty) Ty.WFs :=
  yields_then fun _ => yields_then fun _ => yields_bind (yields_list (yields_sepList0 h)) fun _ hts =>
    yields_then fun _ => yields_then fun _ => yields_pure hts

theorem yields_fnInputsP {ty : P Ty} (h : Yields ty Ty.WF) : Yields (fnInputsP ty) Ty.WFs :=
  yields_then fun _ => yields_then fun _ => yields_bind (yields_list (yields_sepList0 h)) fun _ hts =>
    yields_then fun _ => yields_pure hts

theorem yields_fnTailP {ty : P Ty} (h : Yields ty Ty.WF) : Yields (fnTailP ty) Ty.WFs :=
  yields_then fun _ => yields_fnInputsP h

theorem yields_fnLoopF {ty : P Ty} (h : Yields ty Ty.WF) (n : Nat) : ∀ {t : Ty}, t.Plain →
    Yields (fnLoopF ty n t) Ty.Plain := by
  induction n with
  | zero => intro t _ i r a ha; exact absurd ha (by simp [fnLoopF])
  | succ n ih =>
    intro t ht i r a ha
    unfold fnLoopF at ha
    cases ho : opt (fnTailP ty) i with
    | error => rw [ho] at ha; exact absurd ha (by simp)
    | stuck => rw [ho] at ha; exact absurd ha (by simp)
    | ok r1 o =>
      rw [ho] at ha
      cases o with
      | none => injection ha with _ ha; exact ha ▸ ht
      | some ts =>
        simp only at ha
        have hts := yields_opt (yields_fnTailP h) i r1 _ ho ts rfl
        have hfn : (Ty.fn ts (some t)).Plain := ⟨by rw [Ty.WF]; exact ⟨hts, ht.1, ht.2⟩, by rintro ⟨⟩⟩
        cases hs : starsP (.fn ts (some t)) r1 with
        | error => rw [hs] at ha; exact absurd ha (by simp)
        | stuck => rw [hs] at ha; exact absurd ha (by simp)
        | ok r2 t' =>
          rw [hs] at ha
          exact ih (yields_starsP_plain hfn r1 r2 t' hs) r2 r a ha

theorem yields_baseP (u : CharClass) {ty : P Ty} (h : Yields ty Ty.WF) : Yields (baseP u ty) Ty.Plain := by
  have hc : ∀ mk : Nat → Ty → Ty, (∀ n t, n < 2 ^ 64 → t.WF → (mk n t).Plain) →
      Yields (countedP ty mk) Ty.Plain := fun mk hmk =>
    yields_bind yields_usizeP fun n hn => yields_then fun _ => yields_then fun _ => yields_then fun _ =>
      yields_bind h fun t ht => yields_pure (hmk n t hn ht)
  refine yields_alt (yields_delimited (hc _ fun n t hn ht => ⟨by rw [Ty.WF]; exact ⟨hn, ht⟩, by rintro ⟨⟩⟩)) <|
    yields_alt (yields_then fun _ => yields_bind (yields_fieldsP h) fun ts hts => yields_then fun _ =>
      yields_pure ⟨by rw [Ty.WF]; exact hts, by rintro ⟨⟩⟩) <|
    yields_alt (yields_bind (yields_fieldsP h) fun ts hts =>
      yields_pure ⟨by rw [Ty.WF]; exact hts, by rintro ⟨⟩⟩) <|
    yields_alt (yields_bind (yields_then fun _ => yields_nameP u) fun s hs =>
      yields_pure ⟨by rw [Ty.WF]; exact hs, by rintro ⟨⟩⟩) <|
    yields_alt (yields_then fun _ => yields_pure ⟨by rw [Ty.WF]; trivial, by rintro ⟨⟩⟩) <|
    yields_alt (yields_then fun _ => yields_pure ⟨by rw [Ty.WF]; trivial, by rintro ⟨⟩⟩) <|
    yields_alt (yields_then fun _ => yields_pure ⟨by rw [Ty.WF]; trivial, by rintro ⟨⟩⟩) <|
    yields_alt (yields_then fun _ => yields_bind yields_usizeP fun n hn =>
      yields_pure ⟨by rw [Ty.WF]; exact hn, by rintro ⟨⟩⟩) <|
    yields_alt (yields_then fun _ => yields_pure ⟨by rw [Ty.WF]; trivial, by rintro ⟨⟩⟩) <|
    yields_alt_one (yields_delimited (hc _ fun n t hn ht => ⟨by rw [Ty.WF]; exact ⟨hn, ht⟩, by rintro ⟨⟩⟩))

theorem yields_typeF (u : CharClass) (n : Nat) : Yields (typeF u n) Ty.WF := by
  induction n with
  | zero => intro i r a h; simp [typeF] at h
  | succ n ih =>
    refine yields_then fun o => ?_
    cases o with
    | some x =>
      exact yields_then fun _ => yields_bind (yields_fnInputsP ih) fun ts hts =>
        yields_starsP_wf (by rw [Ty.WF]; exact hts)
    | none =>
      exact yields_bind (yields_baseP u ih) fun t ht => yields_bind (yields_starsP_plain ht) fun t' ht' =>
        fun i r a ha => (yields_fnLoopF ih _ ht' i r a ha).1

theorem yields_typeP (u : CharClass) : Yields (typeP u) Ty.WF := fun i r a h =>
  yields_typeF u (i.length + 1) i r a h

/-! ### Signatures in a module -/

theorem yields_outputP (u : CharClass) : Yields (outputP u) (fun o => ∀ t, o = some t → t.WF) :=
  yields_alt (yields_bind (yields_typeP u) fun t ht => yields_pure (by
    intro t' ht'; injection ht' with ht'; exact ht' ▸ ht)) <|
  yields_alt_one (yields_then fun _ => yields_pure (by simp))

theorem yields_argumentP (u : CharClass) : Yields (argumentP u) Ty.WF :=
  yields_bind (yields_typeP u) fun _ ht => yields_then fun _ => yields_then fun _ => yields_then fun _ =>
    yields_pure ht

theorem yields_parameterP (u : CharClass) : Yields (parameterP u) Ty.WF :=
  yields_bind (yields_typeP u) fun _ ht => yields_then fun _ => yields_then fun _ => yields_then fun _ =>
    yields_pure ht

theorem yields_indirectCallP (u : CharClass) : Yields (indirectCallP u) Stmt.SigWF :=
  yields_then fun _ => yields_then fun _ => yields_bind (yields_outputP u) fun o ho => yields_then fun _ =>
    yields_then fun _ => yields_bind (yields_delimited (yields_list (yields_sepList0 (yields_argumentP u))))
      fun ts hts => yields_then fun _ => yields_pure (show FnSig.WF _ from ⟨hts, ho⟩)

theorem yields_asmP (u : CharClass) : Yields (asmP u) Stmt.SigWF :=
  yields_then fun _ => yields_then fun _ => yields_then fun _ => yields_then fun _ => yields_then fun _ =>
    yields_then fun _ => yields_then fun _ => yields_then fun _ => yields_then fun _ => yields_then fun _ =>
      yields_pure trivial

theorem yields_bitcastCallP (u : CharClass) : Yields (bitcastCallP u) Stmt.SigWF :=
  yields_then fun _ => yields_then fun _ => yields_then fun _ => yields_then fun _ => yields_then fun _ =>
    yields_then fun _ => yields_then fun _ => yields_then fun _ => yields_pure trivial

theorem yields_directCallP (u : CharClass) : Yields (directCallP u) Stmt.SigWF :=
  yields_then fun _ => yields_then fun _ => yields_then fun _ => yields_then fun _ => yields_then fun _ =>
    yields_then fun _ => yields_then fun _ => yields_then fun _ => yields_then fun _ => yields_pure trivial

theorem yields_otherP : Yields otherP Stmt.SigWF := yields_then fun _ => yields_pure trivial

theorem yields_assignP (u : CharClass) : Yields (assignP u) Stmt.SigWF :=
  yields_then fun _ => yields_then fun _ => yields_then fun _ => yields_then fun _ =>
    yields_alt (yields_asmP u) <| yields_alt (yields_bitcastCallP u) <| yields_alt (yields_directCallP u) <|
      yields_alt (yields_indirectCallP u) <| yields_alt_one yields_otherP

theorem yields_stmtP (u : CharClass) : Yields (stmtP u) Stmt.SigWF :=
  yields_alt (yields_then fun _ => yields_then fun _ => yields_then fun _ => yields_pure trivial) <|
  yields_alt (yields_then fun _ => yields_pure trivial) <|
  yields_alt_one <| yields_then fun _ => yields_alt (yields_assignP u) <| yields_alt (yields_asmP u) <|
    yields_alt (yields_bitcastCallP u) <| yields_alt (yields_directCallP u) <|
      yields_alt (yields_indirectCallP u) <| yields_alt_one yields_otherP

theorem yields_defineP (u : CharClass) : Yields (defineP u) Define.SigsWF :=
  yields_then fun _ => yields_then fun _ => yields_then fun _ => yields_bind (yields_outputP u) fun o ho =>
    yields_then fun _ => yields_then fun _ => yields_then fun _ =>
      yields_bind (yields_list (yields_sepList0 (yields_parameterP u))) fun ts hts =>
        yields_then fun _ => yields_then fun _ => yields_then fun _ =>
          yields_bind (yields_sepList1 (yields_stmtP u)) fun ss hss => yields_then fun _ =>
            yields_then fun _ => yields_pure ⟨⟨hts, ho⟩, hss⟩

theorem yields_declareRestP (u : CharClass) {o : Option Ty} (ho : ∀ t, o = some t → t.WF) (name : Str) :
    Yields (declareRestP u o name) Item.SigsWF := by
  unfold declareRestP
  split
  · exact yields_then fun _ => yields_pure (by intro sig h; simp at h)
  · exact yields_bind (yields_list (yields_sepList0 (yields_bind (yields_typeP u) fun t ht =>
      yields_then fun _ => yields_pure ht))) fun ts hts => yields_then fun _ => yields_then fun _ =>
        yields_pure (by intro sig h; injection h with h; exact h ▸ ⟨hts, ho⟩)

theorem yields_itemP (u : CharClass) : Yields (itemP u) Item.SigsWF :=
  yields_alt (yields_then fun _ => yields_pure trivial) <|
  yields_alt (yields_then fun _ => yields_then fun _ => yields_then fun _ => yields_then fun _ =>
    yields_pure trivial) <|
  yields_alt (yields_then fun _ => yields_then fun _ => yields_then fun _ => yields_then fun _ =>
    yields_then fun _ => yields_then fun _ => yields_pure trivial) <|
  yields_alt (yields_then fun _ => yields_then fun _ => yields_then fun _ => yields_then fun _ =>
    yields_pure trivial) <|
  yields_alt (yields_then fun _ => yields_then fun _ => yields_then fun _ => yields_then fun _ =>
    yields_then fun _ => yields_then fun _ => yields_then fun _ => yields_then fun _ =>
    yields_pure trivial) <|
  yields_alt (yields_then fun _ => yields_then fun _ => yields_then fun _ => yields_then fun _ =>
    yields_then fun _ => yields_then fun _ => yields_then fun _ => yields_then fun _ => yields_then fun _ =>
    yields_then fun _ => yields_then fun _ => yields_then fun _ => yields_then fun _ => yields_then fun _ =>
    yields_pure trivial) <|
  yields_alt (yields_bind (yields_defineP u) fun d hd => yields_pure hd) <|
  yields_alt (yields_then fun _ => yields_then fun _ => yields_then fun _ =>
    yields_bind (yields_outputP u) fun o ho => yields_then fun _ => yields_then fun name =>
      yields_then fun _ => yields_declareRestP u ho name) <|
  yields_alt (yields_then fun _ => yields_then fun _ => yields_then fun _ => yields_then fun _ =>
    yields_pure trivial) <|
  yields_alt (yields_then fun _ => yields_then fun _ => yields_pure trivial) <|
  yields_alt_one (yields_then fun _ => yields_then fun _ => yields_then fun _ => yields_then fun _ =>
    yields_then fun _ => yields_pure trivial)

theorem parseIr_sigs (u : CharClass) {ll : Str} {items : List Item} (h : parseIr u ll = .ok items) :
    ∀ item ∈ items, item.SigsWF := by
  unfold parseIr itemsP at h
  cases hs : sepList0 (many1 lineEnding) (itemP u) ll with
  | error => rw [hs] at h; exact absurd h (by simp)
  | stuck => rw [hs] at h; exact absurd h (by simp)
  | ok r items' =>
    rw [hs] at h
    simp only at h
    cases hm : many0 lineEnding r with
    | error => rw [hm] at h; exact absurd h (by simp)
    | stuck => rw [hm] at h; exact absurd h (by simp)
    | ok r' _ =>
      rw [hm] at h
      cases r' with
      | nil =>
        simp only [ParseRes.ok.injEq] at h
        subst h
        exact yields_sepList0 (yields_itemP u) ll r items' hs
      | cons c r' =>
        simp only at h
        split at h <;> exact absurd h (by simp)

end CallStack
