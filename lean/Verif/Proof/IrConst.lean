import Verif.Proof.IrAttr

/-!
Reading constants, arguments and parameters.
-/

namespace CallStack

variable {α β : Type}

/-- Text that begins with one of a few punctuation characters. -/
def Closes (k : Str) : Prop := ∃ c k', k = c :: k' ∧ (c = ',' ∨ c = ')')

theorem Closes.stop {u : CharClass} {k : Str} (h : Closes k) : Stop u k := by
  obtain ⟨c, k', rfl, rfl | rfl⟩ := h <;> exact stop_cons u _ (identChar_false u (by decide) (by decide))

theorem Closes.noBlank {k : Str} (h : Closes k) : NoBlank k := by
  obtain ⟨c, k', rfl, rfl | rfl⟩ := h <;> exact noBlank_cons _ (by decide)

theorem Closes.endsType {u : CharClass} {k : Str} (h : Closes k) : EndsType u k := by
  obtain ⟨c, k', rfl, rfl | rfl⟩ := h <;>
    exact endsType_cons _ (identChar_false u (by decide) (by decide)) (by decide) (by decide)

theorem closes_comma (k : Str) : Closes (',' :: k) := ⟨_, _, rfl, .inl rfl⟩
theorem closes_paren (k : Str) : Closes (')' :: k) := ⟨_, _, rfl, .inr rfl⟩

theorem noBlank_word {c : Char} {w : Str} (k : Str) (h : isSpace c = false) : NoBlank ((c :: w) ++ k) :=
  noBlank_cons _ h

theorem Digits.head_ne {ds : Str} (h : Digits ds) (k : Str) : (ds ++ k).head? ≠ some '(' := by
  obtain ⟨d, ds, rfl⟩ := List.exists_cons_of_ne_nil h.1
  simp only [List.cons_append, List.head?_cons, ne_eq, Option.some.injEq]
  rintro rfl
  exact absurd (h.2 '(' (by simp)) (by decide)

theorem many1_eq {p : P α} {i r r' : Str} {a : α} {as : List α} (h : p i = .ok r a)
    (h' : many0 p r = .ok r' as) : many1 p i = .ok r' (a :: as) := by
  unfold many1
  rw [h]
  simp only [h']

theorem stringP_eq' {s : Str} (hs : '"' ∉ s) (k : Str) :
    stringP ('"' :: (s ++ c!"\"") ++ k) = .ok k s := by
  have : ('"' :: (s ++ c!"\"") ++ k : Str) = '"' :: (s ++ '"' :: k) := by simp
  rw [this]
  exact stringP_eq hs k

theorem Ident.head {u : CharClass} {s : Str} (h : Ident u s) :
    ∃ c s', s = c :: s' ∧ identChar u c = true ∧ isDigit c = false := by
  obtain ⟨c, s', rfl⟩ := List.exists_cons_of_ne_nil h.1
  refine ⟨c, s', rfl, (identChar_iff u c).2 (h.2.1 c (by simp)), ?_⟩
  have := h.2.2 c rfl
  rw [← isDigit_iff] at this
  simpa using this

theorem Ident.string_error {u : CharClass} {s : Str} (h : Ident u s) (k : Str) : stringP (s ++ k) = .error := by
  obtain ⟨c, s', rfl, hc, _⟩ := h.head
  refine stringP_ne _ ?_
  rintro rfl
  rw [identChar_quote] at hc
  exact absurd hc (by simp)

theorem Ident.digit_error {u : CharClass} {s : Str} (h : Ident u s) (k : Str) : digit1 (s ++ k) = .error := by
  obtain ⟨c, s', rfl, _, hc⟩ := h.head
  refine takeWhile1_error ?_
  intro d hd
  simp only [List.cons_append, List.head?_cons, Option.some.injEq] at hd
  exact hd ▸ hc

theorem Digits.head {s : Str} (h : Digits s) : ∃ c s', s = c :: s' ∧ isDigit c = true := by
  obtain ⟨c, s', rfl⟩ := List.exists_cons_of_ne_nil h.1
  exact ⟨c, s', rfl, (isDigit_iff c).2 (h.2 c (by simp))⟩

theorem Digits.string_error {s : Str} (h : Digits s) (k : Str) : stringP (s ++ k) = .error := by
  obtain ⟨c, s', rfl, hc⟩ := h.head
  refine stringP_ne _ ?_
  rintro rfl
  exact absurd hc (by decide)

theorem Digits.ident_error {u : CharClass} {s : Str} (h : Digits s) {k : Str} (hk : Stop u k) :
    identP u (s ++ k) = .error := by
  have hd : ∀ c ∈ s, isDigit c = true := fun c hc => (isDigit_iff c).2 (h.2 c hc)
  refine mapRes_none (takeWhile1_eq h.1 (fun c hc => identChar_digit u (hd c hc)) hk) ?_
  obtain ⟨c, s', rfl⟩ := List.exists_cons_of_ne_nil h.1
  simp [hd c (by simp)]

theorem GlobalText.reads {u : CharClass} {name : Option Str} {g : Str} (h : GlobalText u name g) {k : Str}
    (hk : Stop u k) : globalP u (g ++ k) = .ok k name := by
  unfold globalP
  cases h with
  | quoted h =>
    rw [List.cons_append, P.bind_ok (charP_cons _ _)]
    exact alt_ok (P.bind_ok (stringP_eq' h k))
  | plain h =>
    rw [List.cons_append, P.bind_ok (charP_cons _ _), alt_error (P.bind_error (h.string_error k)),
      alt_error (P.bind_error (h.digit_error k))]
    exact P.bind_ok (identP_eq h hk)
  | number h =>
    rw [List.cons_append, P.bind_ok (charP_cons _ _), alt_error (P.bind_error (h.string_error k))]
    exact alt_ok (P.bind_ok (digit1_eq h hk.digit))

theorem GlobalText.start {u : CharClass} {name : Option Str} {g : Str} (h : GlobalText u name g) :
    ∃ s, g = '@' :: s := by
  cases h <;> exact ⟨_, rfl⟩

theorem LocalText.reads {u : CharClass} {l : Str} (h : LocalText u l) {k : Str} (hk : Stop u k) :
    localP u (l ++ k) = .ok k () := by
  unfold localP
  cases h with
  | plain h =>
    rw [List.cons_append, P.bind_ok (charP_cons _ _), alt_error (P.bind_error (h.digit_error k))]
    exact P.bind_ok (identP_eq h hk)
  | number h =>
    rw [List.cons_append, P.bind_ok (charP_cons _ _)]
    exact alt_ok (P.bind_ok (digit1_eq h hk.digit))

theorem LocalText.start {u : CharClass} {l : Str} (h : LocalText u l) : ∃ s, l = '%' :: s := by
  cases h <;> exact ⟨_, rfl⟩

/-! ### Constant expressions -/

theorem gepIndexP_eq {u : CharClass} {b s b' ds : Str} {t : Ty} (hb : Blanks b) (hs : TyText u t s)
    (hb' : Blanks b') (hd : Digits ds) {k : Str} (hk : Stop u k) :
    gepIndexP u (',' :: (b ++ (s ++ (b' ++ (ds ++ k))))) = .ok k () := by
  unfold gepIndexP
  rw [P.bind_ok (charP_cons _ _), P.bind_ok (space1_eq hb (hs.noBlank _)),
    P.bind_ok (hs.reads.ends (endsType_blanks hb' (hd.noBlank _) (hd.head_ne _))),
    P.bind_ok (space1_eq hb' (hd.noBlank _)), P.bind_ok (digit1_eq hd hk.digit)]
  rfl

theorem IndicesText.start {u : CharClass} {is : Str} (h : IndicesText u is) : ∃ s, is = ',' :: s := by
  cases h <;> exact ⟨_, rfl⟩

theorem IndicesText.reads {u : CharClass} {is : Str} (h : IndicesText u is) (k : Str) :
    ∃ r as, gepIndexP u (is ++ ')' :: k) = .ok r () ∧ r.length < (is ++ ')' :: k).length ∧
      many0 (gepIndexP u) r = .ok (')' :: k) as := by
  induction h with
  | one hb hs hb' hd =>
    refine ⟨')' :: k, [], ?_, by simp; omega, many0_error (P.bind_error (charP_ne _ (by decide)))⟩
    simp only [List.append_assoc, List.cons_append, List.nil_append]
    exact gepIndexP_eq hb hs hb' hd (closes_paren k).stop
  | cons hb hs hb' hd hr ih =>
    rename_i r _
    obtain ⟨r', as, h1, h2, h3⟩ := ih
    refine ⟨r ++ ')' :: k, () :: as, ?_, by simp; omega, many0_cons h1 h2 h3⟩
    simp only [List.append_assoc, List.cons_append, List.nil_append]
    refine gepIndexP_eq hb hs hb' hd ?_
    obtain ⟨s, rfl⟩ := hr.start
    exact (closes_comma _).stop

theorem GepText.reads {u : CharClass} {name : Option Str} {g : Str} (h : GepText u name g) (k : Str) :
    getelementptrP u (g ++ k) = .ok k name := by
  cases h with
  | mk hb hn ht1 hb1 ht2 hb2 hg hi =>
    rename_i b n t1 b1 t2 b2 g is ty1 ty2
    have hin : gepInnerP u (t1 ++ (',' :: (b1 ++ (t2 ++ (b2 ++ (g ++ (is ++ ')' :: k))))))) =
        .ok (')' :: k) name := by
      obtain ⟨r, as, h1, _, h2⟩ := hi.reads k
      obtain ⟨s, hs⟩ := hg.start
      have hst : Stop u (is ++ ')' :: k) := by
        obtain ⟨s, rfl⟩ := hi.start
        exact (closes_comma _).stop
      unfold gepInnerP
      rw [P.bind_ok (ht1.reads.ends (closes_comma _).endsType), P.bind_ok (charP_cons _ _),
        P.bind_ok (space1_eq hb1 (ht2.noBlank _)),
        P.bind_ok (ht2.reads.ends (endsType_blanks hb2 (by rw [hs]; exact noBlank_cons _ (by decide))
          (by rw [hs]; simp))),
        P.bind_ok (space1_eq hb2 (by rw [hs]; exact noBlank_cons _ (by decide))),
        P.bind_ok (hg.reads hst), P.bind_ok (many1_eq h1 h2)]
      rfl
    have hdel : delimited (charP '(') (gepInnerP u) (charP ')')
        ('(' :: (t1 ++ (',' :: (b1 ++ (t2 ++ (b2 ++ (g ++ (is ++ ')' :: k)))))))) = .ok k name := by
      unfold delimited
      rw [P.bind_ok (charP_cons _ _), P.bind_ok hin, P.bind_ok (charP_cons _ _)]
      rfl
    unfold getelementptrP
    simp only [List.append_assoc]
    simp only [List.singleton_append]
    rw [P.bind_ok (tag_append _ _)]
    cases hn with
    | nil =>
      rw [List.nil_append, P.bind_ok (space1_eq hb (noBlank_cons _ (by decide))),
        P.bind_ok (opt_error (P.bind_error (tag_ne (by decide))))]
      exact hdel
    | inbounds hb' =>
      rename_i b'
      have h1 : (do tag c!"inbounds"; space1 : P Unit) (c!"inbounds" ++ (b' ++
          ('(' :: (t1 ++ (',' :: (b1 ++ (t2 ++ (b2 ++ (g ++ (is ++ ')' :: k)))))))))) =
          .ok ('(' :: (t1 ++ (',' :: (b1 ++ (t2 ++ (b2 ++ (g ++ (is ++ ')' :: k)))))))) () := by
        rw [P.bind_ok (tag_append _ _)]
        exact space1_eq hb' (noBlank_cons _ (by decide))
      rw [List.append_assoc, P.bind_ok (space1_eq hb (by exact noBlank_cons _ (by decide)))]
      rw [P.bind_ok (opt_ok h1)]
      exact hdel

theorem OperandText.start {u : CharClass} {name : Option Str} {g : Str} (h : OperandText u name g) :
    ∃ c s, g = c :: s ∧ (c = '@' ∨ c = 'g') := by
  cases h with
  | global h => obtain ⟨s, rfl⟩ := h.start; exact ⟨_, _, rfl, .inl rfl⟩
  | gep h => cases h; exact ⟨_, _, rfl, .inr rfl⟩

theorem OperandText.reads {u : CharClass} {name : Option Str} {g : Str} (h : OperandText u name g) {k : Str}
    (hk : Stop u k) : alt [globalP u, getelementptrP u] (g ++ k) = .ok k name := by
  cases h with
  | global h => exact alt_ok (h.reads hk)
  | gep h =>
    have h1 : globalP u (g ++ k) = .error := by
      cases h
      exact P.bind_error (charP_ne _ (by decide))
    rw [alt_error h1]
    exact h.reads k

theorem BitcastText.reads {u : CharClass} {name : Option Str} {g : Str} (h : BitcastText u name g) (k : Str) :
    bitcastP u (g ++ k) = .ok k name := by
  cases h with
  | mk hb ht1 hb1 hg hb2 hb3 ht2 =>
    rename_i b t1 b1 g b2 b3 t2 ty1 ty2
    obtain ⟨c, s, rfl, hc⟩ := hg.start
    have hnb : ∀ k, NoBlank (c :: s ++ k) := fun k => noBlank_cons _ (by rcases hc with rfl | rfl <;> decide)
    have hnp : ∀ k, (c :: s ++ k).head? ≠ some '(' := fun k => by
      rcases hc with rfl | rfl <;> simp
    unfold bitcastP delimited bitcastInnerP
    simp only [List.append_assoc]
    simp only [List.singleton_append]
    rw [P.bind_ok (tag_append _ _), P.bind_ok (space1_eq hb (noBlank_cons _ (by decide))),
      P.bind_ok (charP_cons _ _)]
    refine (P.bind_ok (r := ')' :: k) (a := name) ?_).trans ?_
    · rw [P.bind_ok (ht1.reads.ends (endsType_blanks hb1 (hnb _) (hnp _))),
        P.bind_ok (space1_eq hb1 (hnb _)), P.bind_ok (hg.reads (stop_blanks u hb2 _)),
        P.bind_ok (space1_eq hb2 (noBlank_word _ (by decide))), P.bind_ok (tag_append _ _),
        P.bind_ok (space1_eq hb3 (ht2.noBlank _)), P.bind_ok (ht2.reads.ends (closes_paren _).endsType)]
      rfl
    · rw [P.bind_ok (charP_cons _ _)]
      rfl

/-! ### Values and arguments -/

theorem bitcastP_ne {u : CharClass} {c : Char} (k : Str) (h : c ≠ 'b') : bitcastP u (c :: k) = .error :=
  P.bind_error (tag_ne h)
theorem getelementptrP_ne {u : CharClass} {c : Char} (k : Str) (h : c ≠ 'g') :
    getelementptrP u (c :: k) = .error := P.bind_error (tag_ne h)
theorem localP_ne {u : CharClass} {c : Char} (k : Str) (h : c ≠ '%') : localP u (c :: k) = .error :=
  P.bind_error (charP_ne _ h)
theorem functionP_ne {u : CharClass} {c : Char} (k : Str) (h : c ≠ '@') : functionP u (c :: k) = .error :=
  P.bind_error (charP_ne _ h)

theorem ValueText.noBlank {u : CharClass} {v : Str} (h : ValueText u v) (k : Str) : NoBlank (v ++ k) := by
  cases h with
  | bitcast h => cases h; exact noBlank_cons _ (by decide)
  | gep h => cases h; exact noBlank_cons _ (by decide)
  | var h => obtain ⟨s, rfl⟩ := h.start; exact noBlank_cons _ (by decide)
  | global h => exact noBlank_cons _ (by decide)
  | null => exact noBlank_cons _ (by decide)
  | undef => exact noBlank_cons _ (by decide)
  | number h => exact h.noBlank k
  | negative h => exact noBlank_cons _ (by decide)
  | true => exact noBlank_cons _ (by decide)
  | false => exact noBlank_cons _ (by decide)

theorem AttrText.head_ne {u : CharClass} {a : Str} (h : AttrText u a) (k : Str) : (a ++ k).head? ≠ some '(' := by
  obtain ⟨c, a', rfl, hc⟩ := h.head
  simp only [List.cons_append, List.head?_cons, ne_eq, Option.some.injEq]
  rintro rfl
  rw [wordChar_paren] at hc
  exact absurd hc (by simp)

theorem AttrsText.head_ne {u : CharClass} {a : Str} (h : AttrsText u a) {k : Str} (hk : k.head? ≠ some '(') :
    (a ++ k).head? ≠ some '(' := by
  cases h with
  | nil => exact hk
  | cons h => rw [List.append_assoc]; exact h.head_ne _

theorem ValueText.head_ne {u : CharClass} {v : Str} (h : ValueText u v) (k : Str) :
    (v ++ k).head? ≠ some '(' := by
  cases h with
  | bitcast h => cases h; simp
  | gep h => cases h; simp
  | var h => obtain ⟨s, rfl⟩ := h.start; simp
  | global h => simp
  | null => simp
  | undef => simp
  | number h => exact h.head_ne k
  | negative h => simp
  | true => simp
  | false => simp

theorem ValueText.attrStop {u : CharClass} {v : Str} (h : ValueText u v) {k : Str} (hk : Closes k) :
    attrStep u (v ++ k) = .error := by
  cases h with
  | bitcast h =>
    cases h with
    | mk hb =>
      rw [List.append_assoc, List.append_assoc]
      exact attrStep_keyword (by decide) (noWord_blanks hb _)
  | gep h =>
    cases h with
    | mk hb =>
      rw [List.append_assoc, List.append_assoc]
      exact attrStep_keyword (by decide) (noWord_blanks hb _)
  | var h =>
    obtain ⟨s, rfl⟩ := h.start
    exact attrStep_ne _ (by rw [wordChar_ascii u (by decide)]; decide)
  | global h => exact attrStep_ne _ (by rw [wordChar_ascii u (by decide)]; decide)
  | null => exact attrStep_noBlank (by simp) (wordChars u (by decide)) (by decide) hk.stop.noWord hk.noBlank
  | undef => exact attrStep_noBlank (by simp) (wordChars u (by decide)) (by decide) hk.stop.noWord hk.noBlank
  | number h =>
    obtain ⟨d, ds, rfl, hd⟩ := h.head
    exact attrStep_ne _ (noWord_digits (u := u) h [] d rfl)
  | negative h => exact attrStep_ne _ (by rw [wordChar_ascii u (by decide)]; decide)
  | true => exact attrStep_noBlank (by simp) (wordChars u (by decide)) (by decide) hk.stop.noWord hk.noBlank
  | false => exact attrStep_noBlank (by simp) (wordChars u (by decide)) (by decide) hk.stop.noWord hk.noBlank

theorem numberP_error {c : Char} (k : Str) (h : c ≠ '-') (h' : isDigit c = false) :
    (do let _ ← opt (charP '-'); let _ ← digit1 : P Unit) (c :: k) = .error := by
  rw [P.bind_ok (opt_error (charP_ne _ h))]
  refine P.bind_error (takeWhile1_error ?_)
  intro d hd
  simp only [List.head?_cons, Option.some.injEq] at hd
  exact hd ▸ h'

theorem ValueText.reads {u : CharClass} {v : Str} (h : ValueText u v) {k : Str} (hk : Closes k) :
    valueP u (v ++ k) = .ok k () := by
  unfold valueP
  cases h with
  | bitcast h => exact alt_ok (P.bind_ok (h.reads k))
  | gep h =>
    have h1 : bitcastP u (v ++ k) = .error := by cases h; exact bitcastP_ne _ (by decide)
    rw [alt_error (P.bind_error h1)]
    exact alt_ok (P.bind_ok (h.reads k))
  | var h =>
    have h3 := h.reads (k := k) hk.stop
    obtain ⟨s, rfl⟩ := h.start
    rw [List.cons_append] at h3 ⊢
    rw [alt_error (P.bind_error (bitcastP_ne _ (by decide))),
      alt_error (P.bind_error (getelementptrP_ne _ (by decide)))]
    exact alt_ok h3
  | global h =>
    rw [List.cons_append, alt_error (P.bind_error (bitcastP_ne _ (by decide))),
      alt_error (P.bind_error (getelementptrP_ne _ (by decide))), alt_error (localP_ne _ (by decide))]
    exact alt_ok (P.bind_ok (functionP_eq h hk.stop))
  | null =>
    have h1 : nullP (c!"null" ++ k) = .ok k () := tag_append _ _
    simp only [List.cons_append] at h1 ⊢
    rw [alt_error (P.bind_error (bitcastP_ne _ (by decide))),
      alt_error (P.bind_error (getelementptrP_ne _ (by decide))), alt_error (localP_ne _ (by decide)),
      alt_error (P.bind_error (functionP_ne _ (by decide)))]
    exact alt_ok h1
  | undef =>
    have h1 : undefP (c!"undef" ++ k) = .ok k () := tag_append _ _
    simp only [List.cons_append] at h1 ⊢
    rw [alt_error (P.bind_error (bitcastP_ne _ (by decide))),
      alt_error (P.bind_error (getelementptrP_ne _ (by decide))), alt_error (localP_ne _ (by decide)),
      alt_error (P.bind_error (functionP_ne _ (by decide))),
      alt_error (show nullP _ = _ from tag_ne (by decide))]
    exact alt_ok h1
  | number h =>
    have h1 : (do let _ ← opt (charP '-'); let _ ← digit1 : P Unit) (v ++ k) = .ok k () := by
      have := digit1_eq h (hk.stop (u := u)).digit
      obtain ⟨d, ds, rfl, hd⟩ := h.head
      rw [List.cons_append, P.bind_ok (opt_error (charP_ne _ (by rintro rfl; exact absurd hd (by decide))))]
      exact P.bind_ok this
    obtain ⟨d, ds, rfl, hd⟩ := h.head
    have hne : ∀ {c : Char}, isDigit c = Bool.false → d ≠ c := by
      rintro c hc rfl
      rw [hd] at hc
      exact absurd hc (by simp)
    rw [List.cons_append] at h1 ⊢
    rw [alt_error (P.bind_error (bitcastP_ne _ (hne (by decide)))),
      alt_error (P.bind_error (getelementptrP_ne _ (hne (by decide)))), alt_error (localP_ne _ (hne (by decide))),
      alt_error (P.bind_error (functionP_ne _ (hne (by decide)))),
      alt_error (show nullP _ = _ from tag_ne (hne (by decide))),
      alt_error (show undefP _ = _ from tag_ne (hne (by decide)))]
    exact alt_ok h1
  | negative h =>
    rename_i ds
    have h1 : (do let _ ← opt (charP '-'); let _ ← digit1 : P Unit) ('-' :: (ds ++ k)) = .ok k () := by
      rw [P.bind_ok (opt_ok (charP_cons _ _))]
      exact P.bind_ok (digit1_eq h (hk.stop (u := u)).digit)
    rw [List.cons_append, alt_error (P.bind_error (bitcastP_ne _ (by decide))),
      alt_error (P.bind_error (getelementptrP_ne _ (by decide))), alt_error (localP_ne _ (by decide)),
      alt_error (P.bind_error (functionP_ne _ (by decide))),
      alt_error (show nullP _ = _ from tag_ne (by decide)),
      alt_error (show undefP _ = _ from tag_ne (by decide))]
    exact alt_ok h1
  | true =>
    have h1 : tag c!"true" (c!"true" ++ k) = .ok k () := tag_append _ _
    simp only [List.cons_append] at h1 ⊢
    rw [alt_error (P.bind_error (bitcastP_ne _ (by decide))),
      alt_error (P.bind_error (getelementptrP_ne _ (by decide))), alt_error (localP_ne _ (by decide)),
      alt_error (P.bind_error (functionP_ne _ (by decide))),
      alt_error (show nullP _ = _ from tag_ne (by decide)),
      alt_error (show undefP _ = _ from tag_ne (by decide)),
      alt_error (numberP_error _ (by decide) (by decide))]
    exact alt_ok h1
  | false =>
    have h1 : tag c!"false" (c!"false" ++ k) = .ok k () := tag_append _ _
    simp only [List.cons_append] at h1 ⊢
    rw [alt_error (P.bind_error (bitcastP_ne _ (by decide))),
      alt_error (P.bind_error (getelementptrP_ne _ (by decide))), alt_error (localP_ne _ (by decide)),
      alt_error (P.bind_error (functionP_ne _ (by decide))),
      alt_error (show nullP _ = _ from tag_ne (by decide)),
      alt_error (show undefP _ = _ from tag_ne (by decide)),
      alt_error (numberP_error _ (by decide) (by decide)), alt_error (tag_ne (by decide))]
    exact alt_ok h1

theorem ArgText.reads {u : CharClass} {t : Ty} {s : Str} (h : ArgText u t s) {k : Str} (hk : Closes k) :
    argumentP u (s ++ k) = .ok k t := by
  cases h with
  | mk ht hb ha hv =>
    unfold argumentP
    simp only [List.append_assoc]
    rw [P.bind_ok (ht.reads.ends (endsType_blanks hb (ha.noBlank (hv.noBlank _)) (ha.head_ne (hv.head_ne _)))),
      P.bind_ok (space1_eq hb (ha.noBlank (hv.noBlank _))), P.bind_ok (ha.reads (hv.noBlank _) (hv.attrStop hk)),
      P.bind_ok (hv.reads hk)]
    rfl

theorem AttrsAfterText.endsType {u : CharClass} {a : Str} (h : AttrsAfterText u a) {k : Str}
    (hk : EndsType u k) : EndsType u (a ++ k) := by
  cases h with
  | nil => exact hk
  | cons hb ha =>
    rw [List.append_assoc, List.append_assoc]
    exact endsType_blanks hb (ha.noBlank _) (ha.head_ne _)

theorem attrAfterStep_closes {u : CharClass} {k : Str} (h : Closes k) : attrAfterStep u k = .error := by
  unfold attrAfterStep
  exact P.bind_error (space1_error h.noBlank)

theorem ParamText.reads {u : CharClass} {t : Ty} {s : Str} (h : ParamText u t s) {k : Str} (hk : Closes k) :
    parameterP u (s ++ k) = .ok k t := by
  unfold parameterP
  cases h with
  | unnamed ht ha =>
    rw [List.append_assoc, P.bind_ok (ht.reads.ends (ha.endsType hk.endsType)),
      P.bind_ok (ha.reads hk.stop (attrAfterStep_closes hk)),
      P.bind_ok (opt_error (P.bind_error (space1_error hk.noBlank))),
      P.bind_ok (opt_error (P.bind_error (space1_error hk.noBlank)))]
    rfl
  | named ht ha hb hn =>
    simp only [List.append_assoc, List.cons_append, List.nil_append]
    have hb1 : ∀ x, attrAfterStep u (_ ++ '%' :: x) = .error := fun x => by
      unfold attrAfterStep
      rw [P.bind_ok (space1_eq hb (noBlank_cons _ (by decide)))]
      exact attributeP_ne _ (by rw [wordChar_ascii u (by decide)]; decide)
    have hal := aliasP_eq hn (hk.stop (u := u))
    rw [P.bind_ok (ht.reads.ends (ha.endsType (endsType_blanks hb (noBlank_cons _ (by decide)) (by simp)))),
      P.bind_ok (ha.reads (stop_blanks u hb _) (hb1 _)),
      P.bind_ok (opt_ok ((P.bind_ok (space1_eq hb (noBlank_cons _ (by decide)))).trans hal)),
      P.bind_ok (opt_error (P.bind_error (space1_error hk.noBlank)))]
    rfl

theorem DeclParamText.reads {u : CharClass} {t : Ty} {s : Str} (h : DeclParamText u t s) {k : Str}
    (hk : Closes k) : declParamP u (s ++ k) = .ok k t := by
  unfold declParamP
  cases h with
  | mk ht ha =>
    rw [List.append_assoc, P.bind_ok (ht.reads.ends (ha.endsType hk.endsType)),
      P.bind_ok (ha.reads hk.stop (attrAfterStep_closes hk))]
    rfl

/-! ### Lists -/

theorem ListText.reads {one : Ty → Str → Prop} {p : P Ty} (hg : ∀ n, GoodTo n p)
    (hp : ∀ {t s k}, one t s → Closes k → p (s ++ k) = .ok k t)
    (hb : ∀ {t s}, one t s → ∀ k, NoBlank (s ++ k)) (he : ∀ k, p (')' :: k) = .error)
    {ts : List Ty} {s : Str} (h : ListText one ts s) (k : Str) :
    sepList0 commaP p (s ++ ')' :: k) = .ok (')' :: k) ts := by
  have key : ∀ {ts s}, ListText one ts s → (ts = [] ∧ s = []) ∨ ∃ t ts' r, ts = t :: ts' ∧
      p (s ++ ')' :: k) = .ok r t ∧ sepLoop commaP p r = .ok (')' :: k) ts' ∧ NoBlank (s ++ ')' :: k) := by
    intro ts s h
    induction h with
    | nil => exact .inl ⟨rfl, rfl⟩
    | one h =>
      exact .inr ⟨_, [], _, rfl, hp h (closes_paren k), sepLoop_error (commaP_ne _ (by decide)), hb h _⟩
    | cons h hbl hl ih =>
      rename_i s b s'
      rcases ih with ⟨h0, _⟩ | ⟨t, ts', r, h1, h2, h3, h4⟩
      · exact absurd h0 (by simp)
      · injection h1 with h1 h1'
        subst h1 h1'
        refine .inr ⟨_, _, ',' :: (b ++ (s' ++ ')' :: k)), rfl, ?_, ?_, ?_⟩
        · simp only [List.append_assoc, List.cons_append, List.nil_append]
          exact hp h (closes_comma _)
        · refine sepLoop_cons hg (commaP_eq hbl h4) ?_ h2 h3
          simp; omega
        · simp only [List.append_assoc]
          exact hb h _
  rcases key h with ⟨rfl, rfl⟩ | ⟨t, ts', r, rfl, h1, h2, _⟩
  · exact sepList0_error (he k)
  · exact sepList0_eq h1 h2

theorem args_reads {u : CharClass} {ts : List Ty} {s : Str} (h : ListText (ArgText u) ts s) (k : Str) :
    sepList0 commaP (argumentP u) (s ++ ')' :: k) = .ok (')' :: k) ts :=
  ListText.reads (fun n => (eats_argumentP u).good) (fun h hk => h.reads hk)
    (fun h k => by cases h with | mk ht => rw [List.append_assoc]; exact ht.noBlank _)
    (fun k => P.bind_error (typeP_error _ (by decide))) h k

theorem params_reads {u : CharClass} {ts : List Ty} {s : Str} (h : ListText (ParamText u) ts s) (k : Str) :
    sepList0 commaP (parameterP u) (s ++ ')' :: k) = .ok (')' :: k) ts :=
  ListText.reads (fun n => (eats_parameterP u).good) (fun h hk => h.reads hk)
    (fun h k => by
      cases h with
      | unnamed ht => rw [List.append_assoc]; exact ht.noBlank _
      | named ht => rw [List.append_assoc]; exact ht.noBlank _)
    (fun k => P.bind_error (typeP_error _ (by decide))) h k

theorem eats_declParamP {n : Nat} (u : CharClass) : EatsTo n (declParamP u) := by unfold declParamP; good

theorem declParams_reads {u : CharClass} {ts : List Ty} {s : Str} (h : ListText (DeclParamText u) ts s)
    (k : Str) : sepList0 commaP (declParamP u) (s ++ ')' :: k) = .ok (')' :: k) ts :=
  ListText.reads (fun n => (eats_declParamP u).good) (fun h hk => h.reads hk)
    (fun h k => by cases h with | mk ht => rw [List.append_assoc]; exact ht.noBlank _)
    (fun k => P.bind_error (typeP_error _ (by decide))) h k

end CallStack
