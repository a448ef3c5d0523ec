import Verif.Proof.IrStmt

/-!
Reading definitions, the other items and whole files.
-/

namespace CallStack

variable {α β : Type}

theorem sepList1_of {sep : P β} {p : P α} {i r r' : Str} {a : α} {as as' : List α} (h : p i = .ok r a)
    (h' : sepLoop sep p r = .ok r' as') (ha : as = a :: as') : sepList1 sep p i = .ok r' as :=
  ha ▸ sepList1_eq h h'

theorem stop_paren (u : CharClass) (k : Str) : Stop u ('(' :: k) :=
  stop_cons u _ (identChar_false u (by decide) (by decide))

theorem DefineText.reads {u : CharClass} {d : Define} {s : Str} (h : DefineText u d s) (k : Str) :
    defineP u (s ++ k) = .ok k d := by
  cases h with
  | mk hb1 ha ho hb2 hn hp he hl hs hl' =>
    rename_i b1 a o b2 name n ps e l s l' out ins sts
    obtain ⟨r, st, sts', h1, h2, h3⟩ := hs.reads hl' k
    simp only [List.append_assoc]
    simp only [List.singleton_append]
    unfold defineP
    rw [P.bind_ok (tag_append _ _), P.bind_ok (space1_eq hb1 (ha.noBlank (ho.noBlank _))),
      P.bind_ok (ha.reads (ho.noBlank _) (ho.attrStop (stop_blanks u hb2 _))),
      P.bind_ok (ho.reads (endsType_blanks hb2 (noBlank_cons _ (by decide)) (by simp))),
      P.bind_ok (space1_eq hb2 (noBlank_cons _ (by decide))), P.bind_ok (functionP_eq hn (stop_paren u _)),
      P.bind_ok (charP_cons _ _), P.bind_ok (params_reads hp _), P.bind_ok (charP_cons _ _),
      P.bind_ok (notLineEnding_eq he (hl.atEol _)), P.bind_ok (lineEnding_eq hl _),
      P.bind_ok (sepList1_of h2 h3 h1), P.bind_ok (opt_ok (lineEnding_eq hl' _))]
    exact P.bind_ok (tag_append c!"}" k)

theorem DeclareText.reads {u : CharClass} {d : Declare} {s : Str} (h : DeclareText u d s) {k : Str}
    (hk : AtEol k) : declareP u (s ++ k) = .ok k (.declare d) := by
  cases h with
  | intrinsic hb1 ha ho hb2 hn hi he =>
    simp only [List.append_assoc]
    simp only [List.singleton_append]
    unfold declareP
    rw [P.bind_ok (tag_append _ _), P.bind_ok (space1_eq hb1 (ha.noBlank (ho.noBlank _))),
      P.bind_ok (ha.reads (ho.noBlank _) (ho.attrStop (stop_blanks u hb2 _))),
      P.bind_ok (ho.reads (endsType_blanks hb2 (noBlank_cons _ (by decide)) (by simp))),
      P.bind_ok (space1_eq hb2 (noBlank_cons _ (by decide))), P.bind_ok (functionP_eq hn (stop_paren u _)),
      P.bind_ok (charP_cons _ _)]
    unfold declareRestP
    rw [if_pos ((startsWith_iff _ _).2 hi), P.bind_ok (notLineEnding_eq he hk)]
    rfl
  | function hb1 ha ho hb2 hn hi hp he =>
    simp only [List.append_assoc]
    simp only [List.singleton_append]
    unfold declareP
    rw [P.bind_ok (tag_append _ _), P.bind_ok (space1_eq hb1 (ha.noBlank (ho.noBlank _))),
      P.bind_ok (ha.reads (ho.noBlank _) (ho.attrStop (stop_blanks u hb2 _))),
      P.bind_ok (ho.reads (endsType_blanks hb2 (noBlank_cons _ (by decide)) (by simp))),
      P.bind_ok (space1_eq hb2 (noBlank_cons _ (by decide))), P.bind_ok (functionP_eq hn (stop_paren u _)),
      P.bind_ok (charP_cons _ _)]
    unfold declareRestP
    rw [if_neg (fun h => hi ((startsWith_iff _ _).1 h)), P.bind_ok (declParams_reads hp _),
      P.bind_ok (charP_cons _ _), P.bind_ok (notLineEnding_eq he hk)]
    rfl

/-! ### The alternatives of `itemP` -/

theorem itemCommentP_ne {c : Char} (k : Str) (h : c ≠ ';') : itemCommentP (c :: k) = .error :=
  P.bind_error (P.bind_error (charP_ne _ h))
theorem sourceFilenameP_ne {c : Char} (k : Str) (h : c ≠ 's') : sourceFilenameP (c :: k) = .error :=
  P.bind_error (tag_ne h)
theorem targetP_ne {c : Char} (k : Str) (h : c ≠ 't') : targetP (c :: k) = .error := P.bind_error (tag_ne h)
theorem itemTypeP_ne {u : CharClass} {c : Char} (k : Str) (h : c ≠ '%') : itemTypeP u (c :: k) = .error :=
  P.bind_error (P.bind_error (charP_ne _ h))
theorem itemGlobalP_ne {u : CharClass} {c : Char} (k : Str) (h : c ≠ '@') : itemGlobalP u (c :: k) = .error :=
  P.bind_error (P.bind_error (charP_ne _ h))
theorem itemAliasP_ne {u : CharClass} {c : Char} (k : Str) (h : c ≠ '@') : itemAliasP u (c :: k) = .error :=
  P.bind_error (functionP_ne _ h)
theorem defineP_ne {u : CharClass} {c : Char} (k : Str) (h : c ≠ 'd') : defineP u (c :: k) = .error :=
  P.bind_error (tag_ne h)
theorem declareP_ne {u : CharClass} {c : Char} (k : Str) (h : c ≠ 'd') : declareP u (c :: k) = .error :=
  P.bind_error (tag_ne h)
theorem attributesP_ne {c : Char} (k : Str) (h : c ≠ 'a') : attributesP (c :: k) = .error :=
  P.bind_error (tag_ne h)
theorem metadataP_ne {c : Char} (k : Str) (h : c ≠ '!') : metadataP (c :: k) = .error :=
  P.bind_error (tag_ne h)

theorem TargetKind.reads {w : Str} (h : TargetKind w) (k : Str) :
    alt [tag c!"datalayout", tag c!"triple"] (w ++ k) = .ok k () := by
  cases h with
  | datalayout => exact alt_ok (tag_append _ _)
  | triple =>
    have h1 : tag c!"datalayout" (c!"triple" ++ k) = .error := tag_ne (by decide)
    rw [alt_error h1]
    exact tag_append _ _

theorem TargetKind.noBlank {w : Str} (h : TargetKind w) (k : Str) : NoBlank (w ++ k) := by
  cases h <;> exact noBlank_cons _ (by decide)

theorem GlobalKind.reads {w : Str} (h : GlobalKind w) (k : Str) :
    alt [tag c!"global", tag c!"constant"] (w ++ k) = .ok k () := by
  cases h with
  | global => exact alt_ok (tag_append _ _)
  | constant =>
    have h1 : tag c!"global" (c!"constant" ++ k) = .error := tag_ne (by decide)
    rw [alt_error h1]
    exact tag_append _ _

theorem GlobalKind.noBlank {w : Str} (h : GlobalKind w) (k : Str) : NoBlank (w ++ k) := by
  cases h <;> exact noBlank_cons _ (by decide)

theorem GlobalKind.attrStop {u : CharClass} {w : Str} (h : GlobalKind w) {k : Str} (hk : NoWord u k) :
    attrStep u (w ++ k) = .error := by
  cases h <;> exact attrStep_keyword (by decide) hk

theorem endsType_optBlanks_comma {u : CharClass} {b : Str} (h : OptBlanks b) (k : Str) :
    EndsType u (b ++ ',' :: k) := by
  by_cases hb : b = []
  · subst hb
    exact (closes_comma k).endsType
  · exact endsType_blanks ⟨hb, h⟩ (noBlank_cons _ (by decide)) (by simp)

theorem globalP_name {u : CharClass} {name n k : Str} (h : NameText u name n) (hk : Stop u k) :
    ∃ o, globalP u ('@' :: (n ++ k)) = .ok k o := by
  cases h with
  | quoted h => exact ⟨_, (GlobalText.quoted h).reads hk⟩
  | plain h => exact ⟨_, (GlobalText.plain h).reads hk⟩
  | number h => exact ⟨_, (GlobalText.number h).reads hk⟩

theorem ItemText.reads {u : CharClass} {x : Item} {s : Str} (h : ItemText u x s) {k : Str} (hk : AtEol k) :
    itemP u (s ++ k) = .ok k x := by
  unfold itemP
  cases h with
  | comment he =>
    refine alt_ok ?_
    exact P.bind_ok (commentP_eq he hk)
  | sourceFilename hb he =>
    rename_i b e
    have h1 : sourceFilenameP (c!"source_filename" ++ (b ++ '=' :: (e ++ k))) = .ok k .sourceFilename := by
      unfold sourceFilenameP
      rw [P.bind_ok (tag_append _ _), P.bind_ok (space1_eq hb (noBlank_cons _ (by decide))),
        P.bind_ok (charP_cons _ _), P.bind_ok (notLineEnding_eq he hk)]
      rfl
    simp only [List.append_assoc, List.cons_append, List.nil_append] at h1 ⊢
    rw [alt_error (itemCommentP_ne _ (by decide))]
    exact alt_ok h1
  | target hb hkind hb' he =>
    rename_i b w b' e
    have h1 : targetP (c!"target" ++ (b ++ (w ++ (b' ++ '=' :: (e ++ k))))) = .ok k .target := by
      unfold targetP
      rw [P.bind_ok (tag_append _ _), P.bind_ok (space1_eq hb (hkind.noBlank _)), P.bind_ok (hkind.reads _),
        P.bind_ok (space1_eq hb' (noBlank_cons _ (by decide))),
        P.bind_ok (charP_cons _ _), P.bind_ok (notLineEnding_eq he hk)]
      rfl
    simp only [List.append_assoc, List.cons_append, List.nil_append] at h1 ⊢
    rw [alt_error (itemCommentP_ne _ (by decide)), alt_error (sourceFilenameP_ne _ (by decide))]
    exact alt_ok h1
  | type hn hb he =>
    rename_i name n b e
    have h1 : itemTypeP u ('%' :: (n ++ (b ++ '=' :: (e ++ k)))) = .ok k .type := by
      unfold itemTypeP
      rw [P.bind_ok (aliasP_eq hn (stop_blanks u hb _)), P.bind_ok (space1_eq hb (noBlank_cons _ (by decide))),
        P.bind_ok (charP_cons _ _), P.bind_ok (notLineEnding_eq he hk)]
      rfl
    simp only [List.append_assoc]
    simp only [List.singleton_append]
    rw [alt_error (itemCommentP_ne _ (by decide)), alt_error (sourceFilenameP_ne _ (by decide)),
      alt_error (targetP_ne _ (by decide))]
    exact alt_ok h1
  | global hg hb hb' ha hkind hb2 he hh =>
    rename_i name g b b' a w b2 e
    have hnb : NoBlank (e ++ k) := by
      cases e with
      | nil => exact hk.noBlank
      | cons c e =>
        refine noBlank_cons _ ?_
        have := hh c rfl
        simp [isSpace, this]
    have h1 : itemGlobalP u (g ++ (b ++ '=' :: (b' ++ (a ++ (w ++ (b2 ++ (e ++ k))))))) = .ok k .global := by
      unfold itemGlobalP
      rw [P.bind_ok (hg.reads (stop_blanks u hb _)), P.bind_ok (space1_eq hb (noBlank_cons _ (by decide))),
        P.bind_ok (charP_cons _ _), P.bind_ok (space1_eq hb' (ha.noBlank (hkind.noBlank _))),
        P.bind_ok (ha.reads (hkind.noBlank _) (hkind.attrStop (noWord_blanks hb2 _))),
        P.bind_ok (hkind.reads _), P.bind_ok (space1_eq hb2 hnb), P.bind_ok (notLineEnding_eq he hk)]
      rfl
    simp only [List.append_assoc]
    simp only [List.singleton_append]
    obtain ⟨y, rfl⟩ := hg.start
    rw [List.cons_append] at h1 ⊢
    rw [alt_error (itemCommentP_ne _ (by decide)), alt_error (sourceFilenameP_ne _ (by decide)),
      alt_error (targetP_ne _ (by decide)), alt_error (itemTypeP_ne _ (by decide))]
    exact alt_ok h1
  | alias hn hb hb' ha hb1 ht1 hb2 hb3 ht2 hb4 hn' =>
    rename_i name n b b' a b1 t1 b2 b3 t2 b4 target n' ty1 ty2
    simp only [List.append_assoc]
    simp only [List.singleton_append]
    have hw : ∀ y : Str, NoBlank (c!"alias" ++ y) := fun y => noBlank_word _ (by decide)
    have h0 : itemGlobalP u ('@' :: (n ++ (b ++ '=' :: (b' ++ (a ++ (c!"alias" ++ (b1 ++ (t1 ++ (b2 ++ ',' ::
        (b3 ++ (t2 ++ (b4 ++ '@' :: (n' ++ k))))))))))))) = .error := by
      obtain ⟨o, ho⟩ := globalP_name hn (stop_blanks u hb ('=' :: (b' ++ (a ++ (c!"alias" ++ (b1 ++ (t1 ++
        (b2 ++ ',' :: (b3 ++ (t2 ++ (b4 ++ '@' :: (n' ++ k))))))))))))
      have hno : ∀ y, alt [tag c!"global", tag c!"constant"] (c!"alias" ++ y) = .error := fun y => by
        have h1 : tag c!"global" (c!"alias" ++ y) = .error := tag_ne (by decide)
        rw [alt_error h1]
        exact tag_ne (by decide)
      unfold itemGlobalP
      rw [P.bind_ok ho, P.bind_ok (space1_eq hb (noBlank_cons _ (by decide))),
        P.bind_ok (charP_cons _ _), P.bind_ok (space1_eq hb' (ha.noBlank (hw _))),
        P.bind_ok (ha.reads (hw _) (attrStep_keyword (by decide) (noWord_blanks hb1 _)))]
      exact P.bind_error (hno _)
    have h1 : itemAliasP u ('@' :: (n ++ (b ++ '=' :: (b' ++ (a ++ (c!"alias" ++ (b1 ++ (t1 ++ (b2 ++ ',' ::
        (b3 ++ (t2 ++ (b4 ++ '@' :: (n' ++ k))))))))))))) = .ok k (.alias name target) := by
      unfold itemAliasP
      rw [P.bind_ok (functionP_eq hn (stop_blanks u hb _)), P.bind_ok (space1_eq hb (noBlank_cons _ (by decide))),
        P.bind_ok (charP_cons _ _), P.bind_ok (space1_eq hb' (ha.noBlank (hw _))),
        P.bind_ok (ha.reads (hw _) (attrStep_keyword (by decide) (noWord_blanks hb1 _))),
        P.bind_ok (tag_append _ _), P.bind_ok (space1_eq hb1 (ht1.noBlank _)),
        P.bind_ok (ht1.reads.ends (endsType_optBlanks_comma hb2 _)),
        P.bind_ok (space0_eq hb2 (noBlank_cons _ (by decide))), P.bind_ok (charP_cons _ _),
        P.bind_ok (space1_eq hb3 (ht2.noBlank _)),
        P.bind_ok (ht2.reads.ends (endsType_blanks hb4 (noBlank_cons _ (by decide)) (by simp))),
        P.bind_ok (space1_eq hb4 (noBlank_cons _ (by decide))), P.bind_ok (functionP_eq hn' hk.stop)]
      rfl
    rw [alt_error (itemCommentP_ne _ (by decide)), alt_error (sourceFilenameP_ne _ (by decide)),
      alt_error (targetP_ne _ (by decide)), alt_error (itemTypeP_ne _ (by decide)), alt_error h0]
    exact alt_ok h1
  | define h =>
    have hr := h.reads k
    obtain ⟨y, rfl⟩ : ∃ y, s = 'd' :: y := by cases h; exact ⟨_, rfl⟩
    rw [List.cons_append] at hr ⊢
    rw [alt_error (itemCommentP_ne _ (by decide)), alt_error (sourceFilenameP_ne _ (by decide)),
      alt_error (targetP_ne _ (by decide)), alt_error (itemTypeP_ne _ (by decide)),
      alt_error (itemGlobalP_ne _ (by decide)), alt_error (itemAliasP_ne _ (by decide))]
    exact alt_ok (P.bind_ok hr)
  | declare h =>
    have hr := h.reads hk
    obtain ⟨y, rfl⟩ : ∃ y, s = 'd' :: 'e' :: 'c' :: y := by cases h <;> exact ⟨_, rfl⟩
    have hd : defineP u ('d' :: 'e' :: 'c' :: y ++ k) = .error :=
      P.bind_error (by simp [tag, stripPrefix])
    simp only [List.cons_append] at hr hd ⊢
    rw [alt_error (itemCommentP_ne _ (by decide)), alt_error (sourceFilenameP_ne _ (by decide)),
      alt_error (targetP_ne _ (by decide)), alt_error (itemTypeP_ne _ (by decide)),
      alt_error (itemGlobalP_ne _ (by decide)), alt_error (itemAliasP_ne _ (by decide)),
      alt_error (P.bind_error hd)]
    exact alt_ok hr
  | attributes hb he =>
    rename_i b e
    have h1 : attributesP (c!"attributes" ++ (b ++ '#' :: (e ++ k))) = .ok k .attributes := by
      unfold attributesP
      rw [P.bind_ok (tag_append _ _), P.bind_ok (space1_eq hb (noBlank_cons _ (by decide))),
        P.bind_ok (charP_cons _ _), P.bind_ok (notLineEnding_eq he hk)]
      rfl
    simp only [List.append_assoc, List.cons_append, List.nil_append] at h1 ⊢
    rw [alt_error (itemCommentP_ne _ (by decide)), alt_error (sourceFilenameP_ne _ (by decide)),
      alt_error (targetP_ne _ (by decide)), alt_error (itemTypeP_ne _ (by decide)),
      alt_error (itemGlobalP_ne _ (by decide)), alt_error (itemAliasP_ne _ (by decide)),
      alt_error (P.bind_error (defineP_ne _ (by decide))), alt_error (declareP_ne _ (by decide))]
    exact alt_ok h1
  | metadata he =>
    rename_i e
    have h1 : metadataP (c!"!" ++ (e ++ k)) = .ok k .metadata := by
      unfold metadataP
      rw [P.bind_ok (tag_append _ _), P.bind_ok (notLineEnding_eq he hk)]
      rfl
    simp only [List.append_assoc, List.cons_append, List.nil_append] at h1 ⊢
    rw [alt_error (itemCommentP_ne _ (by decide)), alt_error (sourceFilenameP_ne _ (by decide)),
      alt_error (targetP_ne _ (by decide)), alt_error (itemTypeP_ne _ (by decide)),
      alt_error (itemGlobalP_ne _ (by decide)), alt_error (itemAliasP_ne _ (by decide)),
      alt_error (P.bind_error (defineP_ne _ (by decide))), alt_error (declareP_ne _ (by decide)),
      alt_error (attributesP_ne _ (by decide))]
    exact alt_ok h1
  | moduleAsm hb hb' hs =>
    rename_i b b' s
    have h1 : moduleAsmP (c!"module" ++ (b ++ (c!"asm" ++ (b' ++ '"' :: (s ++ '"' :: k))))) =
        .ok k .moduleAsm := by
      unfold moduleAsmP
      rw [P.bind_ok (tag_append _ _), P.bind_ok (space1_eq hb (noBlank_word _ (by decide))),
        P.bind_ok (tag_append _ _), P.bind_ok (space1_eq hb' (noBlank_cons _ (by decide))),
        P.bind_ok (stringP_eq hs _)]
      rfl
    simp only [List.append_assoc, List.cons_append, List.nil_append] at h1 ⊢
    rw [alt_error (itemCommentP_ne _ (by decide)), alt_error (sourceFilenameP_ne _ (by decide)),
      alt_error (targetP_ne _ (by decide)), alt_error (itemTypeP_ne _ (by decide)),
      alt_error (itemGlobalP_ne _ (by decide)), alt_error (itemAliasP_ne _ (by decide)),
      alt_error (P.bind_error (defineP_ne _ (by decide))), alt_error (declareP_ne _ (by decide)),
      alt_error (attributesP_ne _ (by decide)), alt_error (metadataP_ne _ (by decide))]
    exact h1

theorem itemP_nil (u : CharClass) : itemP u [] = .error := rfl

theorem itemP_eol {u : CharClass} {e : Str} (h : Eols e) : itemP u e = .error := by
  have key : ∀ (c : Char) (k : Str), c = '\n' ∨ c = '\r' → itemP u (c :: k) = .error := by
    intro c k hc
    have hne : ∀ {d : Char}, d ≠ '\n' → d ≠ '\r' → c ≠ d := by
      intro d h1 h2 h
      subst h
      rcases hc with h | h
      · exact h1 h
      · exact h2 h
    unfold itemP
    rw [alt_error (itemCommentP_ne _ (hne (by decide) (by decide))),
      alt_error (sourceFilenameP_ne _ (hne (by decide) (by decide))),
      alt_error (targetP_ne _ (hne (by decide) (by decide))), alt_error (itemTypeP_ne _ (hne (by decide) (by decide))),
      alt_error (itemGlobalP_ne _ (hne (by decide) (by decide))),
      alt_error (itemAliasP_ne _ (hne (by decide) (by decide))),
      alt_error (P.bind_error (defineP_ne _ (hne (by decide) (by decide)))),
      alt_error (declareP_ne _ (hne (by decide) (by decide))),
      alt_error (attributesP_ne _ (hne (by decide) (by decide))),
      alt_error (metadataP_ne _ (hne (by decide) (by decide)))]
    exact P.bind_error (tag_ne (hne (by decide) (by decide)))
  cases h with
  | one h => rcases h with rfl | rfl <;> exact key _ _ (by simp)
  | cons h _ => rcases h with rfl | rfl <;> exact key _ _ (by simp)

theorem ItemText.noEol {u : CharClass} {x : Item} {s : Str} (h : ItemText u x s) (k : Str) : NoEol (s ++ k) := by
  cases h with
  | global hg => obtain ⟨y, rfl⟩ := hg.start; exact noEol_cons _ (by decide)
  | define h => cases h; exact noEol_cons _ (by decide)
  | declare h => cases h <;> exact noEol_cons _ (by decide)
  | _ => exact noEol_cons _ (by decide)

theorem ItemsText.noEol {u : CharClass} {xs : List Item} {s : Str} (h : ItemsText u xs s) (k : Str) :
    NoEol (s ++ k) := by
  cases h with
  | one h => exact h.noEol k
  | cons h => rw [List.append_assoc]; exact h.noEol _

theorem ItemsText.reads {u : CharClass} {xs : List Item} {s : Str} (h : ItemsText u xs s) {k : Str}
    (hk : k = [] ∨ Eols k) : ∃ r x xs', xs = x :: xs' ∧ itemP u (s ++ k) = .ok r x ∧
      sepLoop (many1 lineEnding) (itemP u) r = .ok k xs' := by
  have hk' : AtEol k := by
    rcases hk with rfl | hk
    · exact .inl rfl
    · have := hk.atEol []
      rwa [List.append_nil] at this
  induction h with
  | one h =>
    refine ⟨k, _, [], rfl, h.reads hk', ?_⟩
    rcases hk with rfl | hk
    · exact sepLoop_error rfl
    · obtain ⟨as, h1⟩ := hk.many1 (k := []) (by intro c hc; simp at hc)
      rw [List.append_nil] at h1
      exact sepLoop_stop h1 hk.length (itemP_nil u)
  | cons h he hb ih =>
    rename_i x xs s e s'
    obtain ⟨r, x', xs', rfl, h1, h2⟩ := ih
    refine ⟨e ++ (s' ++ k), x, _, rfl, ?_, ?_⟩
    · simp only [List.append_assoc]
      exact h.reads (he.atEol _)
    · obtain ⟨as, h3⟩ := he.many1 (hb.noEol k)
      exact sepLoop_cons (fun n => (eats_itemP u).good) h3 (by have := he.length; simp; omega) h1 h2

theorem itemsP_of {u : CharClass} {s k : Str} {xs : List Item} (hk : k = [] ∨ Eols k)
    (h : sepList0 (many1 lineEnding) (itemP u) s = .ok k xs) : itemsP u s = .ok xs := by
  have h1 : ∃ as, many0 lineEnding k = .ok [] as := by
    rcases hk with rfl | hk
    · exact ⟨[], many0_error rfl⟩
    · have := hk.many0 (k := []) (by intro c hc; simp at hc)
      rwa [List.append_nil] at this
  obtain ⟨as, h1⟩ := h1
  unfold itemsP
  rw [h]
  simp only [h1]

theorem ModuleText.reads {u : CharClass} {xs : List Item} {s : Str} (h : ModuleText u xs s) :
    parseIr u s = .ok xs := by
  have key : itemsP u s = .ok xs := by
    cases h with
    | empty => exact itemsP_of (.inl rfl) (sepList0_error (itemP_nil u))
    | eols he => exact itemsP_of (.inr he) (sepList0_error (itemP_eol he))
    | items h =>
      obtain ⟨r, x, xs', rfl, h1, h2⟩ := h.reads (k := []) (.inl rfl)
      rw [List.append_nil] at h1
      exact itemsP_of (.inl rfl) (sepList0_eq h1 h2)
    | itemsEol h he =>
      obtain ⟨r, x, xs', rfl, h1, h2⟩ := h.reads (.inr he)
      exact itemsP_of (.inr he) (sepList0_eq h1 h2)
  unfold parseIr
  rw [key]

end CallStack
