import Verif.Proof.IrSoundItem

/-!
Which lines of a function body are recorded as calls.
-/

namespace CallStack

theorem attrStep_word {u : CharClass} {w b k : Str} (hw : AttrText u w) (hb : Blanks b) (hk : NoBlank k) :
    attrStep u (w ++ (b ++ k)) = .ok k () := by
  unfold attrStep
  rw [P.bind_ok (hw.reads (stop_blanks u hb _))]
  exact space1_eq hb hk

/-- The first attribute of a text is determined. -/
theorem first_attr {u : CharClass} {w b k a x : Str} (hw : AttrText u w) (hb : Blanks b) (hk : NoBlank k)
    (ha : AttrsText u a) (hx : NoBlank x) (hx' : attrStep u x = .error) (h : w ++ (b ++ k) = a ++ x) :
    ∃ a', a = w ++ (b ++ a') ∧ AttrsText u a' ∧ k = a' ++ x := by
  cases ha with
  | nil =>
    rw [List.nil_append] at h
    rw [← h, attrStep_word hw hb hk] at hx'
    simp at hx'
  | cons h1 h2 h3 =>
    rename_i w' b' a'
    simp only [List.append_assoc] at h
    have e1 := hw.reads (stop_blanks u hb k)
    have e2 := h1.reads (stop_blanks u h2 (a' ++ x))
    rw [h, e2] at e1
    injection e1 with e1 _
    have hww : w = w' := by
      rw [e1] at h
      exact List.append_cancel_right h
    subst hww
    have e3 := space1_eq hb hk
    have e4 := space1_eq h2 (h3.noBlank hx)
    rw [← e1, e4] at e3
    injection e3 with e3 _
    subst e3
    have hbb := List.append_cancel_right e1
    subst hbb
    exact ⟨a', rfl, h3, rfl⟩

theorem tail_attr {u : CharClass} : AttrText u c!"tail" :=
  .word (by decide) (fun c hc => (wordChar_iff u c).1 (wordChars u (by decide) c hc)) (by decide) (by decide)
    (by decide) (by decide)

theorem tailP_attrs {u : CharClass} {a x : Str} (ha : AttrsText u a) (hx : NoBlank x)
    (hx' : attrStep u x = .error) : ∃ a', AttrsText u a' ∧ tailP (a ++ x) = .ok (a' ++ x) () := by
  unfold tailP
  cases h : (do tag c!"tail"; space1 : P Unit) (a ++ x) with
  | stuck =>
    exfalso
    revert h
    show (tag c!"tail" >>= fun _ => space1) (a ++ x) ≠ _
    cases ht : tag c!"tail" (a ++ x) with
    | ok r y =>
      rw [P.bind_ok ht]
      unfold space1 takeWhile1
      intro h
      cases hs : spanP isSpace r with
      | mk s r' =>
        cases s with
        | nil =>
          rw [P.bind_error (by simp [hs])] at h
          simp at h
        | cons c s =>
          rw [P.bind_ok (r := r') (a := c :: s) (by simp [hs])] at h
          rw [P.pure_eq] at h
          simp at h
    | error => rw [P.bind_error ht]; simp
    | stuck => unfold tag at ht; split at ht <;> simp at ht
  | error =>
    rw [P.bind_ok (opt_error h)]
    exact ⟨a, ha, rfl⟩
  | ok r y =>
    rw [P.bind_ok (opt_ok h)]
    obtain ⟨r1, _, h1, h2⟩ := P.bind_eq_ok h
    have h1 := tag_ok h1
    obtain ⟨b, rfl, hb, hn⟩ := space1_ok h2
    obtain ⟨a', _, ha', rfl⟩ := first_attr tail_attr hb hn ha hx hx' h1.symm
    exact ⟨a', ha', rfl⟩

theorem InstrRead.indirect_reads {u : CharClass} {t a o b l s e k : Str} {out : Option Ty} {ins : List Ty}
    (ht : TailText t) (ha : AttrsText u a) (ho : OutText u out o) (hb : Blanks b) (hl : LocalText u l)
    (hs : ListText (ArgText u) ins s) (he : OneLine e) (hk : AtEol k) :
    indirectCallP u (t ++ (a ++ (o ++ (b ++ (l ++ (c!"(" ++ (s ++ (c!")" ++ (e ++ k))))))))) =
      .ok k (.indirectCall ⟨ins, out⟩) := by
  have hr := hl.reads (k := '(' :: (s ++ ')' :: (e ++ k)))
    (stop_cons u _ (identChar_false u (by decide) (by decide)))
  obtain ⟨y, rfl⟩ := hl.start
  have hd : delimited (charP '(') (sepList0 commaP (argumentP u)) (charP ')')
      ('(' :: (s ++ ')' :: (e ++ k))) = .ok (e ++ k) ins := by
    unfold delimited
    rw [P.bind_ok (charP_cons _ _), P.bind_ok (args_reads hs _), P.bind_ok (charP_cons _ _)]
    rfl
  have hnb := ho.noBlank (b ++ '%' :: (y ++ '(' :: (s ++ ')' :: (e ++ k))))
  have hst := ho.attrStop (stop_blanks u hb ('%' :: (y ++ '(' :: (s ++ ')' :: (e ++ k)))))
  have hout := ho.reads (k := b ++ '%' :: (y ++ '(' :: (s ++ ')' :: (e ++ k))))
    (endsType_blanks hb (noBlank_cons _ (by decide)) (by simp))
  simp only [List.cons_append, List.nil_append] at hr ⊢
  have htail : ∃ a', AttrsText u a' ∧ tailP (t ++ (a ++ (o ++ (b ++ '%' :: (y ++ '(' :: (s ++ ')' :: (e ++ k))))))) =
      .ok (a' ++ (o ++ (b ++ '%' :: (y ++ '(' :: (s ++ ')' :: (e ++ k)))))) () := by
    cases ht with
    | nil => exact tailP_attrs ha hnb hst
    | tail hb' =>
      refine ⟨a, ha, ?_⟩
      unfold tailP
      rw [List.append_assoc]
      rw [P.bind_ok (opt_ok ((P.bind_ok (tag_append _ _)).trans (space1_eq hb' (ha.noBlank hnb))))]
      rfl
  obtain ⟨a', ha', htail⟩ := htail
  unfold indirectCallP
  rw [P.bind_ok htail, P.bind_ok (ha'.reads hnb hst), P.bind_ok hout,
    P.bind_ok (space1_eq hb (noBlank_cons _ (by decide))), P.bind_ok hr, P.bind_ok hd,
    P.bind_ok (notLineEnding_eq he hk)]
  rfl

/-- What the alternatives for instructions are recorded as. -/
theorem instr_alt (u : CharClass) (i : Str) :
    (∃ r st, alt [asmP u, bitcastCallP u, directCallP u, indirectCallP u, otherP] i = .ok r st ∧ st ≠ .other ∧
      (asmP u i = .ok r st ∨ bitcastCallP u i = .ok r st ∨ directCallP u i = .ok r st ∨
        indirectCallP u i = .ok r st)) ∨
    (alt [asmP u, bitcastCallP u, directCallP u, indirectCallP u, otherP] i = otherP i ∧
      indirectCallP u i = .error) := by
  have h1 := (eats_asmP u (n := i.length + 1) i (Nat.lt_succ_self _)).1
  have h2 := (eats_bitcastCallP u (n := i.length + 1) i (Nat.lt_succ_self _)).1
  have h3 := (eats_directCallP u (n := i.length + 1) i (Nat.lt_succ_self _)).1
  have h4 := (eats_indirectCallP u (n := i.length + 1) i (Nat.lt_succ_self _)).1
  cases e1 : asmP u i with
  | stuck => exact absurd e1 h1
  | ok r st =>
    obtain ⟨_, _, h⟩ := gives_asmP u i r st e1
    exact .inl ⟨r, st, alt_ok e1, h.2.1, .inl rfl⟩
  | error =>
  cases e2 : bitcastCallP u i with
  | stuck => exact absurd e2 h2
  | ok r st =>
    obtain ⟨_, _, h⟩ := gives_bitcastCallP u i r st e2
    exact .inl ⟨r, st, by rw [alt_error e1]; exact alt_ok e2, h.2.1, .inr (.inl rfl)⟩
  | error =>
  cases e3 : directCallP u i with
  | stuck => exact absurd e3 h3
  | ok r st =>
    obtain ⟨_, _, h⟩ := gives_directCallP u i r st e3
    exact .inl ⟨r, st, by rw [alt_error e1, alt_error e2]; exact alt_ok e3, h.2.1, .inr (.inr (.inl rfl))⟩
  | error =>
  cases e4 : indirectCallP u i with
  | stuck => exact absurd e4 h4
  | ok r st =>
    obtain ⟨_, _, h⟩ := gives_indirectCallP u i r st e4
    exact .inl ⟨r, st, by rw [alt_error e1, alt_error e2, alt_error e3]; exact alt_ok e4, h.2.1,
      .inr (.inr (.inr rfl))⟩
  | error => exact .inr ⟨by rw [alt_error e1, alt_error e2, alt_error e3, alt_error e4]; rfl, rfl⟩

theorem notLineEnding_atEol {i r : Str} {a : Unit} (h : notLineEnding i = .ok r a) : AtEol r := by
  unfold notLineEnding at h
  have hs := spanP_snd notEol i
  split at h
  · injection h with h _
    subst h
    exact .inr ⟨c!"\r\n", _, .inr rfl, rfl⟩
  · simp at h
  · rename_i r' h1 h2
    injection h with h _
    subst h
    cases hr : (spanP notEol i).2 with
    | nil => exact .inl rfl
    | cons c y =>
      have := hs c (by rw [hr]; rfl)
      have hc : c = '\n' ∨ c = '\r' := by
        by_cases h3 : c = '\n'
        · exact .inl h3
        · by_cases h4 : c = '\r'
          · exact .inr h4
          · rw [(notEol_iff c).2 ⟨h3, h4⟩] at this
            simp at this
      rcases hc with rfl | rfl
      · exact .inr ⟨c!"\n", y, .inl rfl, rfl⟩
      · exact absurd hr (by
          intro hr
          exact h2 y hr)

/-- A parser that ends with `notLineEnding`. -/
theorem ends_atEol {α : Type} {a : α} {i r : Str} {st : α}
    (h : (notLineEnding >>= fun _ => (Pure.pure a : P α)) i = .ok r st) : AtEol r := by
  obtain ⟨r1, _, h1, h2⟩ := P.bind_eq_ok h
  rw [P.pure_eq] at h2
  injection h2 with h2 _
  subst h2
  exact notLineEnding_atEol h1

theorem call_atEol {u : CharClass} {i r : Str} {st : Stmt}
    (h : asmP u i = .ok r st ∨ bitcastCallP u i = .ok r st ∨ directCallP u i = .ok r st ∨
      indirectCallP u i = .ok r st) : AtEol r := by
  have key : ∀ {α β : Type} {p : P α} {f : α → P β} {i : Str} {r : Str} {st : β},
      (p >>= f) i = .ok r st → (∀ a i, f a i = .ok r st → AtEol r) → AtEol r := by
    intro α β p f i r st h hf
    obtain ⟨r1, a, _, h⟩ := P.bind_eq_ok h
    exact hf a r1 h
  rcases h with h | h | h | h
  · refine key h fun _ _ h => key h fun _ _ h => key h fun _ _ h => key h fun _ _ h => key h fun _ _ h =>
      key h fun _ _ h => key h fun _ _ h => key h fun _ _ h => key h fun _ _ h => ends_atEol h
  · refine key h fun _ _ h => key h fun _ _ h => key h fun _ _ h => key h fun _ _ h => key h fun _ _ h =>
      key h fun _ _ h => key h fun _ _ h => ends_atEol h
  · refine key h fun _ _ h => key h fun _ _ h => key h fun _ _ h => key h fun _ _ h => key h fun _ _ h =>
      key h fun _ _ h => key h fun _ _ h => key h fun _ _ h => ends_atEol h
  · refine key h fun _ _ h => key h fun _ _ h => key h fun _ _ h => key h fun _ _ h => key h fun _ _ h =>
      key h fun _ _ h => ends_atEol h

/-- The text of a call on a line is the whole line. -/
theorem whole_line {x r s k : Str} (h : s ++ k = x ++ r) (hs : OneLine s) (hq : s.count '"' % 2 = 0)
    (hk : AtEol k) (hx : InLine x) (hr : AtEol r) : x = s ∧ r = k := by
  rcases List.append_eq_append_iff.1 h with ⟨z, h1, h2⟩ | ⟨z, h1, h2⟩
  · cases z with
    | nil => exact ⟨by simpa using h1, by simpa using h2.symm⟩
    | cons c z =>
      have := hx s c z h1 (hk.head (by rw [h2]; rfl))
      omega
  · cases z with
    | nil => exact ⟨by simpa using h1.symm, by simpa using h2⟩
    | cons c z =>
      have h3 := hs c (by rw [h1]; simp)
      rcases hr.head (c := c) (by rw [h2]; rfl) with rfl | rfl
      · exact absurd rfl h3.1
      · exact absurd rfl h3.2

theorem instr_other_iff {u : CharClass} {s k : Str} (hs : CallFreeLine s) (hk : AtEol k) :
    alt [asmP u, bitcastCallP u, directCallP u, indirectCallP u, otherP] (s ++ k) = .ok k .other ↔
      ¬ ∃ st, st ≠ .other ∧ InstrRead u st s := by
  constructor
  · rintro h ⟨st, hst, hr⟩
    cases hr with
    | call h1 h2 h3 =>
      rw [h3.reads hk] at h
      injection h with _ h
      exact hst h
    | indirect ht ha ho hb hl hargs he =>
      have hi := InstrRead.indirect_reads ht ha ho hb hl hargs he hk
      simp only [List.append_assoc] at h
      rcases instr_alt u _ with ⟨r, st, h1, h2, _⟩ | ⟨_, h1⟩
      · rw [h1] at h
        injection h with _ h
        exact h2 h
      · rw [hi] at h1
        simp at h1
    | other => exact hst rfl
  · intro h
    rcases instr_alt u (s ++ k) with ⟨r, st, _, h2, h3⟩ | ⟨h1, _⟩
    · exfalso
      have hr := call_atEol h3
      have : ∃ x, s ++ k = x ++ r ∧ InLine x ∧ InstrRead u st x := by
        rcases h3 with h3 | h3 | h3 | h3
        · obtain ⟨x, hx, h4⟩ := gives_asmP u _ _ _ h3
          obtain ⟨y, hy, h5⟩ := reads_asmP u _ _ _ h3
          rw [hx] at hy
          obtain rfl := List.append_cancel_right hy
          exact ⟨x, hx, h4.1, h5⟩
        · obtain ⟨x, hx, h4⟩ := gives_bitcastCallP u _ _ _ h3
          obtain ⟨y, hy, h5⟩ := reads_bitcastCallP u _ _ _ h3
          rw [hx] at hy
          obtain rfl := List.append_cancel_right hy
          exact ⟨x, hx, h4.1, h5⟩
        · obtain ⟨x, hx, h4⟩ := gives_directCallP u _ _ _ h3
          obtain ⟨y, hy, h5⟩ := reads_directCallP u _ _ _ h3
          rw [hx] at hy
          obtain rfl := List.append_cancel_right hy
          exact ⟨x, hx, h4.1, h5⟩
        · obtain ⟨x, hx, h4⟩ := gives_indirectCallP u _ _ _ h3
          obtain ⟨y, hy, h5⟩ := reads_indirectCallP u _ _ _ h3
          rw [hx] at hy
          obtain rfl := List.append_cancel_right hy
          exact ⟨x, hx, h4.1, h5⟩
      obtain ⟨x, hx, hl, hi⟩ := this
      obtain ⟨rfl, _⟩ := whole_line hx hs.oneLine hs.quotes hk hl hr
      exact h ⟨st, h2, hi⟩
    · rw [h1]
      exact otherP_eq (tokens_of _ s (Nat.le_refl _) hs.ne hs.oneLine hs.first hs.last hs.noCall) hk

theorem CallFreeLine.noBlank {s : Str} (h : CallFreeLine s) (k : Str) : NoBlank (s ++ k) := by
  obtain ⟨c, s', rfl⟩ := List.exists_cons_of_ne_nil h.ne
  have := h.first c rfl
  exact noBlank_cons _ (by simp [isSpace, this])

theorem stmt_other_iff {u : CharClass} {b p s k : Str} (hb : Blanks b) (hp : AssignText u s p)
    (hs : CallFreeLine s) (hk : AtEol k) :
    stmtP u (b ++ (p ++ (s ++ k))) = .ok k .other ↔ ¬ ∃ st, st ≠ .other ∧ InstrRead u st s := by
  have hcomment : ∀ x, stmtCommentP (b ++ x) = .error := by
    intro x
    obtain ⟨c, b', rfl, hc⟩ := hb.head
    refine P.bind_error (P.bind_error (charP_ne _ ?_))
    rintro rfl
    exact absurd hc (by decide)
  have hlabel : ∀ x, labelP u (b ++ x) = .error := by
    intro x
    obtain ⟨c, b', rfl, hc⟩ := hb.head
    refine labelP_error _ (identChar_space u hc) ?_
    rintro rfl
    exact absurd hc (by decide)
  rw [← instr_other_iff hs hk]
  unfold stmtP
  rw [alt_error (hlabel _), alt_error (hcomment _)]
  show indentedP u _ = _ ↔ _
  unfold indentedP
  cases hp with
  | none hh =>
    rw [List.nil_append, P.bind_ok (space1_eq hb (hs.noBlank k))]
    have : assignP u (s ++ k) = .error := by
      obtain ⟨c, s', rfl⟩ := List.exists_cons_of_ne_nil hs.ne
      refine P.bind_error (localP_ne _ ?_)
      rintro rfl
      exact hh rfl
    rw [alt_error this]
  | some hl hb1 hb2 =>
    rename_i l b1 b2
    simp only [List.append_assoc, List.cons_append, List.nil_append]
    have hl' := hl.reads (stop_blanks u hb1 ('=' :: (b2 ++ (s ++ k))))
    have hnb : NoBlank (l ++ (b1 ++ '=' :: (b2 ++ (s ++ k)))) := by
      obtain ⟨n, rfl⟩ := hl.start
      exact noBlank_cons _ (by decide)
    rw [P.bind_ok (space1_eq hb hnb)]
    have ha : assignP u (l ++ (b1 ++ '=' :: (b2 ++ (s ++ k)))) =
        alt [asmP u, bitcastCallP u, directCallP u, indirectCallP u, otherP] (s ++ k) := by
      unfold assignP
      rw [P.bind_ok hl', P.bind_ok (space1_eq hb1 (noBlank_cons _ (by decide))), P.bind_ok (charP_cons _ _),
        P.bind_ok (space1_eq hb2 (hs.noBlank k))]
    rcases instr_alt u (s ++ k) with ⟨r, st, h1, _⟩ | ⟨h1, _⟩
    · rw [alt_ok (ha.trans h1), h1]
    · have h2 := otherP_eq (tokens_of _ s (Nat.le_refl _) hs.ne hs.oneLine hs.first hs.last hs.noCall) hk
      rw [alt_ok (ha.trans (h1.trans h2)), h1, h2]

theorem invoke_attr {u : CharClass} : AttrText u c!"invoke" := CallText.invoke.attr

/-- A call that begins with `invoke` is as in the grammar. -/
theorem InstrRead.invoke {u : CharClass} {st : Stmt} {b z : Str} (hst : st ≠ .other) (hb : Blanks b)
    (hz : NoBlank z) (h : InstrRead u st (c!"invoke" ++ (b ++ z))) :
    InstrText u st (c!"invoke" ++ (b ++ z)) := by
  generalize hx : c!"invoke" ++ (b ++ z) = x at h
  cases h with
  | call _ _ h => exact h
  | other => exact absurd rfl hst
  | indirect ht ha ho hb' hl hs he =>
    rename_i t a o b' l s e out ins
    cases ht with
    | tail _ => simp at hx
    | nil =>
      rw [List.nil_append] at hx ⊢
      obtain ⟨a', rfl, ha', _⟩ := first_attr invoke_attr hb hz ha (ho.noBlank _)
        (ho.attrStop (stop_blanks u hb' _)) hx
      simpa only [List.append_assoc, List.nil_append] using
        InstrText.indirect .nil .invoke hb ha' ho hb' hl hs he

end CallStack
