import Verif.Proof.IrSound
import Verif.Spec.IrRead

/-!
What the parsers of LLVM-IR accept is written in the grammar: attributes, constants, statements and items.
-/

namespace CallStack

variable {α β : Type}

/-! ### Attributes -/

theorem gives_fail {Q : α → Str → Prop} : Gives (P.fail : P α) Q := fun i r a h => absurd h (by simp [P.fail])

theorem gives_attributeP (u : CharClass) : Gives (attributeP u) (fun _ x => AttrText u x) := fun i r a h => by
  rw [attributeP_def] at h
  obtain ⟨r1, w, h1, h'⟩ := P.bind_eq_ok h
  clear h
  have h := h'
  clear h'
  obtain ⟨rfl, hne, hw, _⟩ := takeWhile1_ok h1
  have hw' : ∀ c ∈ w, u.alphabetic c = true ∨ c = '_' := fun c hc => (wordChar_iff u c).1 (hw c hc)
  clear h1
  by_cases hn : w ∈ numberAttrs
  · rw [numberAttrs_kind hn] at h
    obtain ⟨x, rfl, _, y, _, rfl, rfl, ds, _, _, rfl, ⟨rfl, hd⟩, rfl⟩ :=
      (gives_bind (gives_charP '(') fun _ => gives_bind gives_digit1 fun _ => gives_charP ')') r1 r a h
    exact ⟨_, by simp, .number hn hd⟩
  by_cases ht : w ∈ typeAttrs
  · rw [typeAttrs_kind ht] at h
    obtain ⟨x, rfl, _, y, _, rfl, rfl, t, s, _, rfl, hs, rfl⟩ :=
      (gives_bind (gives_charP '(') fun _ => gives_bind (gives_typeP u) fun _ => gives_charP ')') r1 r a h
    exact ⟨_, by simp, .type ht hs⟩
  by_cases ha : w = c!"align"
  · subst ha
    have : attrKind c!"align" = .align := by decide
    rw [this] at h
    obtain ⟨x, rfl, _, b, _, rfl, hb, ds, _, _, rfl, ⟨rfl, hd⟩, _, rfl⟩ :=
      (gives_bind gives_space1 fun _ => gives_bind gives_digit1 fun _ => gives_pure ()) r1 r a h
    exact ⟨_, by simp, .align hb hd⟩
  by_cases hk : w ∈ keywords
  · rw [keywords_kind hk] at h
    exact absurd h (by simp [attrRestP, P.fail])
  rw [attrKind_plain hn ht ha hk] at h
  simp only [attrRestP] at h
  rw [P.pure_eq] at h
  injection h with h _
  subst h
  exact ⟨w, rfl, .word hne hw' hn ht ha hk⟩

theorem gives_attrsP (u : CharClass) : Gives (attrsP u) (fun _ x => AttrsText u x) := by
  have h1 : Gives (do attributeP u; space1 : P Unit) (fun _ x => ∃ a b, x = a ++ b ∧ AttrText u a ∧ Blanks b) := by
    refine (gives_bind (gives_attributeP u) fun _ => gives_space1).imp ?_
    rintro a x ⟨_, y, z, rfl, hy, hz⟩
    exact ⟨y, z, rfl, hy, hz⟩
  have h2 := gives_many0 (T := AttrsText u) h1 .nil (by
    rintro x y ⟨a, b, rfl, ha, hb⟩ hy
    rw [List.append_assoc]
    exact .cons ha hb hy)
  unfold attrsP
  refine (gives_bind h2 fun _ => gives_pure ()).imp ?_
  rintro a x ⟨_, y, z, rfl, hy, _, rfl⟩
  simpa using hy

theorem gives_attrsAfterP (u : CharClass) : Gives (attrsAfterP u) (fun _ x => AttrsAfterText u x) := by
  have h1 : Gives (do space1; attributeP u : P Unit) (fun _ x => ∃ b a, x = b ++ a ∧ Blanks b ∧ AttrText u a) := by
    refine (gives_bind gives_space1 fun _ => gives_attributeP u).imp ?_
    rintro a x ⟨_, y, z, rfl, hy, hz⟩
    exact ⟨y, z, rfl, hy, hz⟩
  have h2 := gives_many0 (T := AttrsAfterText u) h1 .nil (by
    rintro x y ⟨b, a, rfl, hb, ha⟩ hy
    rw [List.append_assoc]
    exact .cons hb ha hy)
  unfold attrsAfterP
  refine (gives_bind h2 fun _ => gives_pure ()).imp ?_
  rintro a x ⟨_, y, z, rfl, hy, _, rfl⟩
  simpa using hy

/-! ### Constants -/

theorem gives_globalP (u : CharClass) : Gives (globalP u) (GlobalText u) := by
  unfold globalP
  refine (gives_bind (gives_charP '@') (Q' := fun _ o x => GlobalText u o ('@' :: x)) fun _ => ?_).imp ?_
  · refine gives_alt_cons ?_ (gives_alt_cons ?_ (gives_alt_one ?_))
    · refine (gives_bind gives_stringP fun s => gives_pure (some s)).imp ?_
      rintro a x ⟨s, _, _, rfl, ⟨rfl, hs⟩, rfl, rfl⟩
      simpa using GlobalText.quoted hs
    · refine (gives_bind gives_digit1 fun s => gives_pure none).imp ?_
      rintro a x ⟨s, _, _, rfl, ⟨rfl, hs⟩, rfl, rfl⟩
      simpa using GlobalText.number hs
    · refine (gives_bind (gives_identP u) fun s => gives_pure (some s)).imp ?_
      rintro a x ⟨s, _, _, rfl, ⟨rfl, hs⟩, rfl, rfl⟩
      simpa using GlobalText.plain hs
  · rintro a x ⟨_, _, z, rfl, rfl, hz⟩
    exact hz

theorem gives_gepIndexP (u : CharClass) : Gives (gepIndexP u) (fun _ x => ∃ b s b' ds t,
    x = c!"," ++ (b ++ (s ++ (b' ++ ds))) ∧ Blanks b ∧ TyText u t s ∧ Blanks b' ∧ Digits ds) := by
  unfold gepIndexP
  refine (gives_bind (gives_charP ',') fun _ => gives_bind gives_space1 fun _ => gives_bind (gives_typeP u) fun _ =>
    gives_bind gives_space1 fun _ => gives_bind gives_digit1 fun _ => gives_pure ()).imp ?_
  rintro a x ⟨_, _, _, rfl, rfl, _, b, _, rfl, hb, t, s, _, rfl, hs, _, b', _, rfl, hb', ds, _, _, rfl, ⟨rfl, hd⟩,
    _, rfl⟩
  exact ⟨b, s, b', _, t, by simp, hb, hs, hb', hd⟩

theorem gives_indices (u : CharClass) : Gives (many1 (gepIndexP u)) (fun _ x => IndicesText u x) := by
  intro i r a ha
  unfold many1 at ha
  cases hp : gepIndexP u i with
  | stuck => rw [hp] at ha; simp at ha
  | error => rw [hp] at ha; simp at ha
  | ok r' a' =>
    rw [hp] at ha
    simp only at ha
    cases hm : many0 (gepIndexP u) r' with
    | stuck => rw [hm] at ha; simp at ha
    | error => rw [hm] at ha; simp at ha
    | ok r2 as =>
      rw [hm] at ha
      injection ha with h1 _
      subst h1
      obtain ⟨_, rfl, b, s, b', ds, t, rfl, hb, hs, hb', hd⟩ := gives_gepIndexP u i r' a' hp
      obtain ⟨y, rfl, hy⟩ := gives_many0 (T := fun y => y = [] ∨ IndicesText u y) (gives_gepIndexP u) (.inl rfl) (by
        rintro x y ⟨b, s, b', ds, t, rfl, hb, hs, hb', hd⟩ (rfl | hy)
        · rw [List.append_nil]; exact .inr (.one hb hs hb' hd)
        · refine .inr ?_
          simpa only [List.append_assoc] using IndicesText.cons hb hs hb' hd hy) r' _ _ hm
      rcases hy with rfl | hy
      · exact ⟨_, by simp, .one hb hs hb' hd⟩
      · exact ⟨_, by simp, .cons hb hs hb' hd hy⟩

theorem gives_getelementptrP (u : CharClass) : Gives (getelementptrP u) (GepText u) := by
  have h1 : Gives (opt (do tag c!"inbounds"; space1 : P Unit)) (fun _ x => InboundsText x) := by
    refine (gives_opt (gives_bind (gives_tag _) fun _ => gives_space1)).imp ?_
    rintro a x (⟨_, rfl⟩ | ⟨_, _, _, _, _, rfl, rfl, hb⟩)
    · exact .nil
    · exact .inbounds hb
  unfold getelementptrP gepInnerP
  refine (gives_bind (gives_tag _) fun _ => gives_bind gives_space1 fun _ => gives_bind h1 fun _ =>
    gives_delimited (gives_bind (gives_typeP u) fun _ => gives_bind (gives_charP ',') fun _ =>
      gives_bind gives_space1 fun _ => gives_bind (gives_typeP u) fun _ => gives_bind gives_space1 fun _ =>
      gives_bind (gives_globalP u) fun name => gives_bind (gives_indices u) fun _ => gives_pure name)).imp ?_
  rintro a x ⟨_, _, _, rfl, rfl, _, b, _, rfl, hb, _, n, _, rfl, hn, _, rfl, ty1, t1, _, rfl, ht1, _, _, _, rfl, rfl,
    _, b1, _, rfl, hb1, ty2, t2, _, rfl, ht2, _, b2, _, rfl, hb2, name, g, _, rfl, hg, _, is, _, rfl, hi, rfl, rfl⟩
  simpa only [List.append_assoc, List.append_nil] using GepText.mk hb hn ht1 hb1 ht2 hb2 hg hi

theorem gives_bitcastP (u : CharClass) : Gives (bitcastP u) (BitcastText u) := by
  have h1 : Gives (alt [globalP u, getelementptrP u]) (OperandText u) :=
    gives_alt_cons ((gives_globalP u).imp fun _ _ => .global)
      (gives_alt_one ((gives_getelementptrP u).imp fun _ _ => .gep))
  unfold bitcastP bitcastInnerP
  refine (gives_bind (gives_tag _) fun _ => gives_bind gives_space1 fun _ =>
    gives_delimited (gives_bind (gives_typeP u) fun _ => gives_bind gives_space1 fun _ =>
      gives_bind h1 fun name => gives_bind gives_space1 fun _ => gives_bind (gives_tag _) fun _ =>
      gives_bind gives_space1 fun _ => gives_bind (gives_typeP u) fun _ => gives_pure name)).imp ?_
  rintro a x ⟨_, _, _, rfl, rfl, _, b, _, rfl, hb, _, rfl, ty1, t1, _, rfl, ht1, _, b1, _, rfl, hb1,
    name, g, _, rfl, hg, _, b2, _, rfl, hb2, _, _, _, rfl, rfl, _, b3, _, rfl, hb3, ty2, t2, _, rfl, ht2, rfl, rfl⟩
  simpa only [List.append_assoc, List.append_nil] using BitcastText.mk hb ht1 hb1 hg hb2 hb3 ht2

theorem gives_valueP (u : CharClass) : Gives (valueP u) (fun _ x => ValueText u x) := by
  unfold valueP
  refine gives_alt_cons ?_ <| gives_alt_cons ?_ <| gives_alt_cons ?_ <| gives_alt_cons ?_ <|
    gives_alt_cons ?_ <| gives_alt_cons ?_ <| gives_alt_cons ?_ <| gives_alt_cons ?_ <| gives_alt_one ?_
  · refine (gives_bind (gives_bitcastP u) fun _ => gives_pure ()).imp ?_
    rintro a x ⟨_, y, _, rfl, hy, _, rfl⟩
    rw [List.append_nil]; exact .bitcast hy
  · refine (gives_bind (gives_getelementptrP u) fun _ => gives_pure ()).imp ?_
    rintro a x ⟨_, y, _, rfl, hy, _, rfl⟩
    rw [List.append_nil]; exact .gep hy
  · exact (gives_localP u).imp fun _ _ => .var
  · refine (gives_bind (gives_functionP u) fun _ => gives_pure ()).imp ?_
    rintro a x ⟨_, y, _, rfl, ⟨n, rfl, hn⟩, _, rfl⟩
    rw [List.append_nil]; exact .global hn
  · exact (gives_tag _).imp fun _ _ h => h ▸ .null
  · exact (gives_tag _).imp fun _ _ h => h ▸ .undef
  · refine (gives_bind (gives_opt (gives_charP '-')) fun _ => gives_bind gives_digit1 fun _ =>
      gives_pure ()).imp ?_
    rintro a x ⟨_, y, _, rfl, hy, _, _, _, rfl, ⟨rfl, hd⟩, _, rfl⟩
    rw [List.append_nil]
    rcases hy with ⟨_, rfl⟩ | ⟨_, _, rfl⟩
    · exact .number hd
    · exact .negative hd
  · exact (gives_tag _).imp fun _ _ h => h ▸ .true
  · exact (gives_tag _).imp fun _ _ h => h ▸ .false

theorem gives_argumentP (u : CharClass) : Gives (argumentP u) (ArgText u) := by
  unfold argumentP
  refine (gives_bind (gives_typeP u) fun t => gives_bind gives_space1 fun _ => gives_bind (gives_attrsP u) fun _ =>
    gives_bind (gives_valueP u) fun _ => gives_pure t).imp ?_
  rintro a x ⟨t, s, _, rfl, hs, _, b, _, rfl, hb, _, at', _, rfl, ha, _, v, _, rfl, hv, rfl, rfl⟩
  rw [List.append_nil]
  exact .mk hs hb ha hv

theorem gives_optName {p : P α} {Q : Str → Prop} (h : Gives p (fun _ x => Q x)) :
    Gives (opt (do space1; p)) (fun _ x => OptName Q x) := by
  refine (gives_opt (gives_bind gives_space1 fun _ => h)).imp ?_
  rintro a x (⟨_, rfl⟩ | ⟨_, _, _, b, s, rfl, hb, hs⟩)
  · exact .nil
  · exact .name hb hs

theorem gives_parameterP (u : CharClass) : Gives (parameterP u) (ParamRead u) := by
  have h1 : Gives (aliasP u) (fun _ x => ∃ name n, x = c!"%" ++ n ∧ NameText u name n) := by
    unfold aliasP
    refine (gives_bind (gives_charP '%') fun _ => gives_nameP u).imp ?_
    rintro a x ⟨_, _, n, rfl, rfl, hn⟩
    exact ⟨a, n, rfl, hn⟩
  unfold parameterP
  refine (gives_bind (gives_typeP u) fun t => gives_bind (gives_attrsAfterP u) fun _ =>
    gives_bind (gives_optName h1) fun _ => gives_bind (gives_optName (gives_localP u)) fun _ => gives_pure t).imp ?_
  rintro a x ⟨t, s, _, rfl, hs, _, at', _, rfl, ha, _, v, _, rfl, hv, _, w, _, rfl, hw, rfl, rfl⟩
  rw [List.append_nil]
  exact .mk hs ha hv hw

theorem gives_declParamP (u : CharClass) : Gives (declParamP u) (DeclParamText u) := by
  unfold declParamP
  refine (gives_bind (gives_typeP u) fun t => gives_bind (gives_attrsAfterP u) fun _ => gives_pure t).imp ?_
  rintro a x ⟨t, s, _, rfl, hs, _, at', _, rfl, ha, rfl, rfl⟩
  rw [List.append_nil]
  exact .mk hs ha

/-! ### Statements -/

theorem gives_asmFlags (u : CharClass) :
    Gives (many0 (do let _ ← identP u; space1 : P Unit)) (fun _ x => AsmFlagsText u x) := by
  refine gives_many0 (Q := fun x => ∃ w b, x = w ++ b ∧ Ident u w ∧ Blanks b) ?_ .nil ?_
  · refine (gives_bind (gives_identP u) fun _ => gives_space1).imp ?_
    rintro a x ⟨_, w, b, rfl, ⟨rfl, hw⟩, hb⟩
    exact ⟨_, b, rfl, hw, hb⟩
  · rintro x y ⟨w, b, rfl, hw, hb⟩ hy
    rw [List.append_assoc]
    exact .cons hw hb hy

theorem reads_asmP (u : CharClass) : Gives (asmP u) (InstrRead u) := by
  unfold asmP
  refine (gives_bind gives_tailP fun _ => gives_bind (gives_tag _) fun _ => gives_bind gives_space1 fun _ =>
    gives_bind (gives_outputP u) fun _ => gives_bind gives_space1 fun _ => gives_bind (gives_tag _) fun _ =>
    gives_bind gives_space1 fun _ => gives_bind (gives_asmFlags u) fun _ => gives_bind gives_stringP fun s =>
    gives_bind gives_notLineEnding fun _ => gives_pure (Stmt.asm s)).imp ?_
  rintro a x ⟨_, t, _, rfl, ht, _, _, _, rfl, rfl, _, b1, _, rfl, hb1, out, o, _, rfl, ho, _, b2, _, rfl, hb2,
    _, _, _, rfl, rfl, _, b3, _, rfl, hb3, _, f, _, rfl, hf, s, _, _, rfl, ⟨rfl, hs⟩, _, e, _, rfl, he, rfl, rfl⟩
  refine .call (by simp) (by simp) ?_
  simpa using InstrText.asm ht hb1 ho hb2 hb3 hf hs he

theorem reads_bitcastCallP (u : CharClass) : Gives (bitcastCallP u) (InstrRead u) := by
  unfold bitcastCallP
  refine (gives_bind gives_tailP fun _ => gives_bind (gives_tag _) fun _ => gives_bind gives_space1 fun _ =>
    gives_bind (gives_attrsP u) fun _ => gives_bind (gives_outputP u) fun _ => gives_bind gives_space1 fun _ =>
    gives_bind (gives_bitcastP u) fun n => gives_bind gives_notLineEnding fun _ =>
    gives_pure (Stmt.bitcastCall n)).imp ?_
  rintro a x ⟨_, t, _, rfl, ht, _, _, _, rfl, rfl, _, b1, _, rfl, hb1, _, at', _, rfl, ha, out, o, _, rfl, ho,
    _, b2, _, rfl, hb2, n, c, _, rfl, hc, _, e, _, rfl, he, rfl, rfl⟩
  refine .call (by simp) (by simp) ?_
  simpa only [List.append_nil] using InstrText.bitcast ht hb1 ha ho hb2 hc he

theorem reads_directCallP (u : CharClass) : Gives (directCallP u) (InstrRead u) := by
  unfold directCallP
  refine (gives_bind gives_tailP fun _ => gives_bind gives_callInvoke fun _ => gives_bind gives_space1 fun _ =>
    gives_bind (gives_attrsP u) fun _ => gives_bind (gives_outputP u) fun _ => gives_bind gives_space1 fun _ =>
    gives_bind (gives_functionP u) fun n => gives_bind (gives_charP '(') fun _ =>
    gives_bind gives_notLineEnding fun _ => gives_pure (Stmt.directCall n)).imp ?_
  rintro a x ⟨_, t, _, rfl, ht, _, c, _, rfl, hc, _, b1, _, rfl, hb1, _, at', _, rfl, ha, out, o, _, rfl, ho,
    _, b2, _, rfl, hb2, name, _, _, rfl, ⟨n, rfl, hn⟩, _, _, _, rfl, rfl, _, e, _, rfl, he, rfl, rfl⟩
  refine .call (by simp) (by simp) ?_
  simpa only [List.append_nil, List.append_assoc] using InstrText.direct ht hc hb1 ha ho hb2 hn he

theorem reads_indirectCallP (u : CharClass) : Gives (indirectCallP u) (InstrRead u) := by
  unfold indirectCallP
  refine (gives_bind gives_tailP fun _ =>
    gives_bind (gives_attrsP u) fun _ => gives_bind (gives_outputP u) fun o => gives_bind gives_space1 fun _ =>
    gives_bind (gives_localP u) fun _ => gives_bind (gives_delimited (gives_list (gives_argumentP u))) fun is =>
    gives_bind gives_notLineEnding fun _ => gives_pure (Stmt.indirectCall ⟨is, o⟩)).imp ?_
  rintro a x ⟨_, t, _, rfl, ht, _, at', _, rfl, ha, out, o, _, rfl, ho,
    _, b2, _, rfl, hb2, _, l, _, rfl, hl, ins, _, _, rfl, ⟨s, rfl, hs⟩, _, e, _, rfl, he, rfl, rfl⟩
  simpa only [List.append_nil, List.append_assoc] using InstrRead.indirect ht ha ho hb2 hl hs he

theorem reads_otherP (u : CharClass) : Gives otherP (InstrRead u) := by
  intro i r st h
  obtain ⟨x, rfl, rfl, h1, h2⟩ := gives_otherP i r st h
  refine ⟨x, rfl, .other ?_ h1 h2⟩
  rintro rfl
  unfold otherP at h
  obtain ⟨r1, as, h3, h⟩ := P.bind_eq_ok h
  obtain ⟨r', a, as', h4, h5, rfl⟩ := sepList1_eq_ok h3
  rw [P.pure_eq] at h
  injection h with h _
  subst h
  obtain ⟨y, hy, ht⟩ := gives_tokenP _ _ _ h4
  obtain ⟨z, hz, _⟩ := sepLoopF_calm _ _ _ _ h5
  subst hz
  have : (([] : Str) ++ r1).length = (y ++ (z ++ r1)).length := by rw [hy]
  simp at this
  exact ht.1 (List.length_eq_zero_iff.1 (by omega))

theorem reads_instr (u : CharClass) :
    Gives (alt [asmP u, bitcastCallP u, directCallP u, indirectCallP u, otherP]) (InstrRead u) :=
  gives_alt_cons (reads_asmP u) <| gives_alt_cons (reads_bitcastCallP u) <| gives_alt_cons (reads_directCallP u) <|
  gives_alt_cons (reads_indirectCallP u) <| gives_alt_one (reads_otherP u)

theorem reads_stmtP (u : CharClass) : Gives (stmtP u) (StmtRead u) := by
  refine gives_alt_cons ?_ <| gives_alt_cons ?_ <| gives_alt_one ?_
  · have hl : Gives (alt [(do let _ ← identP u), (do let _ ← stringP), (do let _ ← digit1)])
        (fun _ x => LabelText u x) := by
      refine gives_alt_cons ?_ (gives_alt_cons ?_ (gives_alt_one ?_))
      · refine (gives_bind (gives_identP u) fun _ => gives_pure ()).imp ?_
        rintro a x ⟨_, _, _, rfl, ⟨rfl, h⟩, _, rfl⟩
        rw [List.append_nil]; exact .plain h
      · refine (gives_bind gives_stringP fun _ => gives_pure ()).imp ?_
        rintro a x ⟨_, _, _, rfl, ⟨rfl, h⟩, _, rfl⟩
        rw [List.append_nil]; exact .quoted h
      · refine (gives_bind gives_digit1 fun _ => gives_pure ()).imp ?_
        rintro a x ⟨_, _, _, rfl, ⟨rfl, h⟩, _, rfl⟩
        rw [List.append_nil]; exact .number h
    unfold labelP
    refine (gives_bind hl fun _ => gives_bind (gives_charP ':') fun _ =>
      gives_bind (gives_opt (gives_bind gives_space1 fun _ => gives_commentP)) fun _ => gives_pure Stmt.label).imp ?_
    rintro a x ⟨_, l, _, rfl, hl, _, _, _, rfl, rfl, _, c, _, rfl, hc, rfl, rfl⟩
    rcases hc with ⟨_, rfl⟩ | ⟨_, _, _, b, _, rfl, hb, e, rfl, he⟩
    · exact .label hl
    · simpa only [List.append_nil] using StmtRead.labelComment hl hb he
  · refine (gives_bind gives_commentP fun _ => gives_pure Stmt.comment).imp ?_
    rintro a x ⟨_, _, _, rfl, ⟨e, rfl, he⟩, rfl, rfl⟩
    rw [List.append_nil]; exact .comment he
  · unfold indentedP
    have ha : Gives (assignP u) (fun st x => ∃ l b1 b2 s, x = l ++ (b1 ++ (c!"=" ++ (b2 ++ s))) ∧
        LocalText u l ∧ Blanks b1 ∧ Blanks b2 ∧ InstrRead u st s) := by
      unfold assignP
      refine (gives_bind (gives_localP u) fun _ => gives_bind gives_space1 fun _ =>
        gives_bind (gives_charP '=') fun _ => gives_bind gives_space1 fun _ => reads_instr u).imp ?_
      rintro a x ⟨_, l, _, rfl, hl, _, b1, _, rfl, hb1, _, _, _, rfl, rfl, _, b2, s, rfl, hb2, hs⟩
      exact ⟨l, b1, b2, s, rfl, hl, hb1, hb2, hs⟩
    refine (gives_bind gives_space1 fun _ => gives_alt_cons (ha.imp fun st x h => Or.inl h)
      ((reads_instr u).imp fun st x h => Or.inr h)).imp ?_
    rintro st x ⟨_, b, y, rfl, hb, ⟨l, b1, b2, s, rfl, hl, hb1, hb2, hs⟩ | hs⟩
    · exact .assign hb hl hb1 hb2 hs
    · exact .instr hb hs

/-! ### Items -/

theorem reads_defineP (u : CharClass) : Gives (defineP u) (DefineRead u) := by
  unfold defineP
  refine (gives_bind (gives_tag c!"define") fun _ => gives_bind gives_space1 fun _ =>
    gives_bind (gives_attrsP u) fun _ => gives_bind (gives_outputP u) fun o => gives_bind gives_space1 fun _ =>
    gives_bind (gives_functionP u) fun name => gives_bind (gives_charP '(') fun _ =>
    gives_bind (gives_list (gives_parameterP u)) fun is => gives_bind (gives_charP ')') fun _ =>
    gives_bind gives_notLineEnding fun _ => gives_bind gives_lineEnding fun _ =>
    gives_bind (gives_pieces (reads_stmtP u)) fun sts => gives_bind (gives_opt gives_lineEnding) fun _ =>
    gives_bind (gives_tag c!"}") fun _ => gives_pure (Define.mk name ⟨is, o⟩ sts)).imp ?_
  rintro d x ⟨_, _, _, rfl, rfl, _, b1, _, rfl, hb1, _, at', _, rfl, ha, out, o, _, rfl, ho, _, b2, _, rfl, hb2,
    name, _, _, rfl, ⟨n, rfl, hn⟩, _, _, _, rfl, rfl, ins, ps, _, rfl, hp, _, _, _, rfl, rfl, _, e, _, rfl, he,
    _, l, _, rfl, hl, sts, s, _, rfl, hs, _, l', _, rfl, hl', _, _, _, rfl, rfl, rfl, rfl⟩
  have hl2 : l' = [] ∨ Eol l' := by
    rcases hl' with ⟨_, h⟩ | ⟨_, _, h⟩
    · exact .inl h
    · exact .inr h
  simpa only [List.append_nil, List.append_assoc] using DefineRead.mk hb1 ha ho hb2 hn hp he hl hs hl2

theorem reads_declareP (u : CharClass) : Gives (declareP u) (ItemRead u) := by
  have h1 : ∀ o name, Gives (declareRestP u o name) (fun it x =>
      (c!"llvm." <+: name ∧ it = .declare ⟨name, none⟩ ∧ OneLine x) ∨
      (¬ c!"llvm." <+: name ∧ ∃ ins ps e, it = .declare ⟨name, some ⟨ins, o⟩⟩ ∧ x = ps ++ (c!")" ++ e) ∧
        ListText (DeclParamText u) ins ps ∧ OneLine e)) := by
    intro o name
    unfold declareRestP
    split
    · rename_i hn
      refine (gives_bind gives_notLineEnding fun _ => gives_pure _).imp ?_
      rintro a x ⟨_, e, _, rfl, he, rfl, rfl⟩
      rw [List.append_nil]
      exact .inl ⟨(startsWith_iff _ _).1 hn, rfl, he⟩
    · rename_i hn
      refine (gives_bind (gives_list (gives_declParamP u)) fun is => gives_bind (gives_charP ')') fun _ =>
        gives_bind gives_notLineEnding fun _ => gives_pure _).imp ?_
      rintro a x ⟨is, ps, _, rfl, hp, _, _, _, rfl, rfl, _, e, _, rfl, he, rfl, rfl⟩
      rw [List.append_nil]
      exact .inr ⟨fun h => hn ((startsWith_iff _ _).2 h), is, ps, e, rfl, rfl, hp, he⟩
  unfold declareP
  refine (gives_bind (gives_tag c!"declare") fun _ => gives_bind gives_space1 fun _ =>
    gives_bind (gives_attrsP u) fun _ => gives_bind (gives_outputP u) fun o => gives_bind gives_space1 fun _ =>
    gives_bind (gives_functionP u) fun name => gives_bind (gives_charP '(') fun _ => h1 o name).imp ?_
  rintro d x ⟨_, _, _, rfl, rfl, _, b1, _, rfl, hb1, _, at', _, rfl, ha, out, o, _, rfl, ho, _, b2, _, rfl, hb2,
    name, _, _, rfl, ⟨n, rfl, hn⟩, _, _, z, rfl, rfl, ⟨hl, rfl, hz⟩ | ⟨hl, ins, ps, e, rfl, rfl, hp, he⟩⟩
  · refine .item (by simp) (.declare ?_)
    simpa only [List.append_assoc] using DeclareText.intrinsic hb1 ha ho hb2 hn hl hz
  · refine .item (by simp) (.declare ?_)
    simpa only [List.append_assoc] using DeclareText.function hb1 ha ho hb2 hn hl hp he

theorem gives_restOfLine : Gives (do space1; notLineEnding : P Unit) (fun _ x => ∃ b e, x = b ++ e ∧ Blanks b ∧
    OneLine e ∧ ∀ c, e.head? = some c → c ≠ ' ' ∧ c ≠ '\t') := fun i r a h => by
  obtain ⟨r1, _, h1, h2⟩ := P.bind_eq_ok h
  obtain ⟨b, rfl, hb, hn⟩ := space1_ok h1
  obtain ⟨e, rfl, he⟩ := gives_notLineEnding _ _ _ h2
  refine ⟨b ++ e, by simp, b, e, rfl, hb, he, fun c hc => ?_⟩
  have := hn c (by
    obtain ⟨d, e, rfl⟩ : ∃ d e', e = d :: e' := by
      cases e with
      | nil => simp at hc
      | cons d e => exact ⟨d, e, rfl⟩
    simpa using hc)
  constructor <;> (rintro rfl; exact absurd this (by decide))

theorem reads_itemP (u : CharClass) : Gives (itemP u) (ItemRead u) := by
  have hal : Gives (aliasP u) (fun _ x => ∃ name n, x = c!"%" ++ n ∧ NameText u name n) := by
    unfold aliasP
    refine (gives_bind (gives_charP '%') fun _ => gives_nameP u).imp ?_
    rintro a x ⟨_, _, n, rfl, rfl, hn⟩
    exact ⟨a, n, rfl, hn⟩
  unfold itemP
  refine gives_alt_cons ?_ <| gives_alt_cons ?_ <| gives_alt_cons ?_ <| gives_alt_cons ?_ <|
    gives_alt_cons ?_ <| gives_alt_cons ?_ <| gives_alt_cons ?_ <| gives_alt_cons ?_ <|
    gives_alt_cons ?_ <| gives_alt_cons ?_ <| gives_alt_one ?_
  · refine (gives_bind gives_commentP fun _ => gives_pure Item.comment).imp ?_
    rintro a x ⟨_, _, _, rfl, ⟨e, rfl, he⟩, rfl, rfl⟩
    rw [List.append_nil]; exact .item (by simp) (.comment he)
  · unfold sourceFilenameP
    refine (gives_bind (gives_tag _) fun _ => gives_bind gives_space1 fun _ => gives_bind (gives_charP '=') fun _ =>
      gives_bind gives_notLineEnding fun _ => gives_pure Item.sourceFilename).imp ?_
    rintro a x ⟨_, _, _, rfl, rfl, _, b, _, rfl, hb, _, _, _, rfl, rfl, _, e, _, rfl, he, rfl, rfl⟩
    rw [List.append_nil]; exact .item (by simp) (.sourceFilename hb he)
  · have hk : Gives (alt [tag c!"datalayout", tag c!"triple"]) (fun _ x => TargetKind x) :=
      gives_alt_cons ((gives_tag _).imp fun _ _ h => h ▸ .datalayout)
        (gives_alt_one ((gives_tag _).imp fun _ _ h => h ▸ .triple))
    unfold targetP
    refine (gives_bind (gives_tag _) fun _ => gives_bind gives_space1 fun _ => gives_bind hk fun _ =>
      gives_bind gives_space1 fun _ => gives_bind (gives_charP '=') fun _ =>
      gives_bind gives_notLineEnding fun _ => gives_pure Item.target).imp ?_
    rintro a x ⟨_, _, _, rfl, rfl, _, b, _, rfl, hb, _, k, _, rfl, hk, _, b', _, rfl, hb', _, _, _, rfl, rfl,
      _, e, _, rfl, he, rfl, rfl⟩
    rw [List.append_nil]; exact .item (by simp) (.target hb hk hb' he)
  · unfold itemTypeP
    refine (gives_bind hal fun _ => gives_bind gives_space1 fun _ => gives_bind (gives_charP '=') fun _ =>
      gives_bind gives_notLineEnding fun _ => gives_pure Item.type).imp ?_
    rintro a x ⟨_, _, _, rfl, ⟨name, n, rfl, hn⟩, _, b, _, rfl, hb, _, _, _, rfl, rfl, _, e, _, rfl, he, rfl, rfl⟩
    rw [List.append_nil, List.append_assoc]; exact .item (by simp) (.type hn hb he)
  · have hk : Gives (alt [tag c!"global", tag c!"constant"]) (fun _ x => GlobalKind x) :=
      gives_alt_cons ((gives_tag _).imp fun _ _ h => h ▸ .global)
        (gives_alt_one ((gives_tag _).imp fun _ _ h => h ▸ .constant))
    have he : Gives (do space1; notLineEnding; pure Item.global : P Item) (fun it x => it = .global ∧
        ∃ b e, x = b ++ e ∧ Blanks b ∧ OneLine e ∧ ∀ c, e.head? = some c → c ≠ ' ' ∧ c ≠ '\t') := by
      intro i r a h
      obtain ⟨r1, _, h1, h⟩ := P.bind_eq_ok h
      obtain ⟨r2, _, h2, h⟩ := P.bind_eq_ok h
      rw [P.pure_eq] at h
      injection h with h h'
      subst h h'
      obtain ⟨x, hx, hx'⟩ := gives_restOfLine i r2 () (by
        show (space1 >>= fun _ => notLineEnding) i = _
        rw [P.bind_ok h1]; exact h2)
      exact ⟨x, hx, rfl, hx'⟩
    unfold itemGlobalP
    refine (gives_bind (gives_globalP u) fun _ => gives_bind gives_space1 fun _ => gives_bind (gives_charP '=') fun _ =>
      gives_bind gives_space1 fun _ => gives_bind (gives_attrsP u) fun _ => gives_bind hk fun _ => he).imp ?_
    rintro a x ⟨name, g, _, rfl, hg, _, b, _, rfl, hb, _, _, _, rfl, rfl, _, b', _, rfl, hb', _, at', _, rfl, ha,
      _, k, _, rfl, hk, rfl, b2, e, rfl, hb2, he, he'⟩
    exact .item (by simp) (.global hg hb hb' ha hk hb2 he he')
  · unfold itemAliasP
    refine (gives_bind (gives_functionP u) fun name => gives_bind gives_space1 fun _ =>
      gives_bind (gives_charP '=') fun _ => gives_bind gives_space1 fun _ => gives_bind (gives_attrsP u) fun _ =>
      gives_bind (gives_tag _) fun _ => gives_bind gives_space1 fun _ => gives_bind (gives_typeP u) fun _ =>
      gives_bind gives_space0 fun _ => gives_bind (gives_charP ',') fun _ => gives_bind gives_space1 fun _ =>
      gives_bind (gives_typeP u) fun _ => gives_bind gives_space1 fun _ => gives_bind (gives_functionP u) fun t =>
      gives_pure (Item.alias name t)).imp ?_
    rintro a x ⟨name, _, _, rfl, ⟨n, rfl, hn⟩, _, b, _, rfl, hb, _, _, _, rfl, rfl, _, b', _, rfl, hb',
      _, at', _, rfl, ha, _, _, _, rfl, rfl, _, b1, _, rfl, hb1, ty1, t1, _, rfl, ht1, _, b2, _, rfl, hb2,
      _, _, _, rfl, rfl, _, b3, _, rfl, hb3, ty2, t2, _, rfl, ht2, _, b4, _, rfl, hb4,
      target, _, _, rfl, ⟨n', rfl, hn'⟩, rfl, rfl⟩
    refine .item (by simp) ?_
    simpa only [List.append_nil, List.append_assoc] using
      ItemText.alias hn hb hb' ha hb1 ht1 hb2 hb3 ht2 hb4 hn'
  · refine (gives_bind (reads_defineP u) fun d => gives_pure (Item.define d)).imp ?_
    rintro it x ⟨d, y, z, rfl, hd, rfl, rfl⟩
    rw [List.append_nil]
    exact .define hd
  · exact reads_declareP u
  · unfold attributesP
    refine (gives_bind (gives_tag _) fun _ => gives_bind gives_space1 fun _ => gives_bind (gives_charP '#') fun _ =>
      gives_bind gives_notLineEnding fun _ => gives_pure Item.attributes).imp ?_
    rintro a x ⟨_, _, _, rfl, rfl, _, b, _, rfl, hb, _, _, _, rfl, rfl, _, e, _, rfl, he, rfl, rfl⟩
    rw [List.append_nil]; exact .item (by simp) (.attributes hb he)
  · unfold metadataP
    refine (gives_bind (gives_tag _) fun _ =>
      gives_bind gives_notLineEnding fun _ => gives_pure Item.metadata).imp ?_
    rintro a x ⟨_, _, _, rfl, rfl, _, e, _, rfl, he, rfl, rfl⟩
    rw [List.append_nil]; exact .item (by simp) (.metadata he)
  · unfold moduleAsmP
    refine (gives_bind (gives_tag _) fun _ => gives_bind gives_space1 fun _ => gives_bind (gives_tag _) fun _ =>
      gives_bind gives_space1 fun _ => gives_bind gives_stringP fun _ => gives_pure Item.moduleAsm).imp ?_
    rintro a x ⟨_, _, _, rfl, rfl, _, b, _, rfl, hb, _, _, _, rfl, rfl, _, b', _, rfl, hb',
      s, _, _, rfl, ⟨rfl, hs⟩, rfl, rfl⟩
    rw [List.append_nil]; exact .item (by simp) (.moduleAsm hb hb' hs)

theorem parseIr_reads {u : CharClass} {ll : Str} {items : List Item} (h : parseIr u ll = .ok items) :
    FileRead u items ll := by
  unfold parseIr at h
  cases hi : itemsP u ll with
  | ok items' =>
    rw [hi] at h
    injection h with h
    subst h
    unfold itemsP at hi
    cases hs : sepList0 (many1 lineEnding) (itemP u) ll with
    | error => rw [hs] at hi; simp at hi
    | stuck => rw [hs] at hi; simp at hi
    | ok r as =>
      rw [hs] at hi
      simp only at hi
      have hm : ∃ a, many0 lineEnding r = .ok [] a ∧ as = items' := by
        cases hm : many0 lineEnding r with
        | error => rw [hm] at hi; simp at hi
        | stuck => rw [hm] at hi; simp at hi
        | ok r' a =>
          rw [hm] at hi
          cases r' with
          | nil => exact ⟨a, rfl, by simpa using hi⟩
          | cons c r' => simp at hi
      obtain ⟨a, hm, rfl⟩ := hm
      obtain ⟨e, he, he'⟩ := many0F_eols _ _ _ _ hm
      rw [List.append_nil] at he
      subst he
      unfold sepList0 at hs
      split at hs
      · injection hs with h1 h2
        subst h1 h2
        exact .empty he'
      · obtain ⟨x, rfl, hx⟩ := gives_pieces (reads_itemP u) ll r as hs
        exact .items hx he'
  | failure rest =>
    rw [hi] at h
    simp only at h
    split at h <;> simp at h
  | stuck => rw [hi] at h; simp at h

end CallStack
