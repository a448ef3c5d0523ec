import Verif.Proof.IrConst
import Verif.Proof.IrCover

/-!
Reading statements.
-/

namespace CallStack

variable {α β : Type}

/-- The text is at an end or continues with a line break. -/
def AtEol (k : Str) : Prop := k = [] ∨ ∃ e k', Eol e ∧ k = e ++ k'

theorem AtEol.head {k : Str} (h : AtEol k) {c : Char} (hc : k.head? = some c) : c = '\n' ∨ c = '\r' := by
  rcases h with rfl | ⟨e, k', rfl | rfl, rfl⟩
  · simp at hc
  · exact .inl (by simpa using hc.symm)
  · exact .inr (by simpa using hc.symm)

theorem AtEol.noBlank {k : Str} (h : AtEol k) : NoBlank k := fun c hc => by
  rcases h.head hc with rfl | rfl <;> decide

theorem AtEol.stop {u : CharClass} {k : Str} (h : AtEol k) : Stop u k := fun c hc => by
  rcases h.head hc with rfl | rfl <;> exact identChar_false u (by decide) (by decide)

theorem Eol.atEol {e : Str} (h : Eol e) (k : Str) : AtEol (e ++ k) := .inr ⟨e, k, h, rfl⟩

theorem Eols.atEol {e : Str} (h : Eols e) (k : Str) : AtEol (e ++ k) := by
  cases h with
  | one h => exact h.atEol k
  | cons h _ => rw [List.append_assoc]; exact h.atEol _

theorem notEol_iff (c : Char) : notEol c = true ↔ c ≠ '\n' ∧ c ≠ '\r' := by
  simp [notEol, and_comm]

theorem notLineEnding_eq {e k : Str} (he : OneLine e) (hk : AtEol k) : notLineEnding (e ++ k) = .ok k () := by
  unfold notLineEnding
  rw [spanP_eq (fun c hc => (notEol_iff c).2 (he c hc)) (fun c hc => by
    rcases hk.head hc with rfl | rfl <;> decide)]
  rcases hk with rfl | ⟨e, k', rfl | rfl, rfl⟩ <;> rfl

theorem notLineEnding_none {k : Str} (hk : AtEol k) : notLineEnding k = .ok k () :=
  notLineEnding_eq (e := []) (by simp [OneLine]) hk

/-- The text does not go on with a line break. -/
def NoEol (k : Str) : Prop := ∀ c, k.head? = some c → c ≠ '\n' ∧ c ≠ '\r'

theorem noEol_cons {c : Char} (k : Str) (h : c ≠ '\n' ∧ c ≠ '\r') : NoEol (c :: k) := by
  intro d hd
  simp only [List.head?_cons, Option.some.injEq] at hd
  exact hd ▸ h

theorem lineEnding_eq {e : Str} (h : Eol e) (k : Str) : lineEnding (e ++ k) = .ok k () := by
  rcases h with rfl | rfl <;> rfl

theorem lineEnding_error {k : Str} (h : NoEol k) : lineEnding k = .error := by
  cases k with
  | nil => rfl
  | cons c k =>
    have := h c rfl
    unfold lineEnding
    split
    · rename_i heq; injection heq with heq _; exact absurd heq this.1
    · rename_i heq; injection heq with heq _; exact absurd heq this.2
    · rfl

theorem Eol.length {e : Str} (h : Eol e) : 0 < e.length := by rcases h with rfl | rfl <;> decide

theorem Eols.length {e : Str} (h : Eols e) : 0 < e.length := by
  cases h with
  | one h => exact h.length
  | cons h _ => have := h.length; simp; omega

theorem Eols.many0 {e : Str} (h : Eols e) {k : Str} (hk : NoEol k) :
    ∃ as, many0 lineEnding (e ++ k) = .ok k as := by
  induction h with
  | one h =>
    exact ⟨_, many0_cons (lineEnding_eq h k) (by have := h.length; simp; omega) (many0_error (lineEnding_error hk))⟩
  | cons h h' ih =>
    obtain ⟨as, ih⟩ := ih
    rw [List.append_assoc]
    exact ⟨_, many0_cons (lineEnding_eq h _) (by have := h.length; simp; omega) ih⟩

theorem Eols.many1 {e : Str} (h : Eols e) {k : Str} (hk : NoEol k) :
    ∃ as, many1 lineEnding (e ++ k) = .ok k as := by
  cases h with
  | one h => exact ⟨_, many1_eq (lineEnding_eq h k) (many0_error (lineEnding_error hk))⟩
  | cons h h' =>
    obtain ⟨as, ih⟩ := h'.many0 hk
    rw [List.append_assoc]
    exact ⟨_, many1_eq (lineEnding_eq h _) ih⟩

/-! ### Calls -/

theorem CallText.noBlank {c : Str} (h : CallText c) (k : Str) : NoBlank (c ++ k) := by
  cases h <;> exact noBlank_cons _ (by decide)

theorem CallText.attr {u : CharClass} {c : Str} (h : CallText c) : AttrText u c := by
  have key : ∀ w : Str, w.all (fun c => decide (c.toNat < 128) &&
      ((65 ≤ c.toNat && c.toNat ≤ 90) || (97 ≤ c.toNat && c.toNat ≤ 122) || c == '_')) = true →
      ∀ c ∈ w, u.alphabetic c = true ∨ c = '_' := fun w hw c hc => (wordChar_iff u c).1 (wordChars u hw c hc)
  cases h
  · exact .word (by decide) (key _ (by decide)) (by decide) (by decide) (by decide) (by decide)
  · exact .word (by decide) (key _ (by decide)) (by decide) (by decide) (by decide) (by decide)

theorem tailP_eq {t c : Str} (ht : TailText t) (hc : CallText c) (k : Str) :
    tailP (t ++ (c ++ k)) = .ok (c ++ k) () := by
  unfold tailP
  cases ht with
  | nil =>
    have : (do tag c!"tail"; space1 : P Unit) ([] ++ (c ++ k)) = .error := by
      cases hc <;> exact P.bind_error (tag_ne (by decide))
    rw [P.bind_ok (opt_error this)]
    rfl
  | tail hb =>
    rw [List.append_assoc]
    rw [P.bind_ok (opt_ok ((P.bind_ok (tag_append _ _)).trans (space1_eq hb (hc.noBlank k))))]
    rfl

/-- The text of a call up to the called function. -/
structure CallHead (u : CharClass) (t c b1 a o b2 : Str) (out : Option Ty) : Prop where
  tail : TailText t
  call : CallText c
  blanks1 : Blanks b1
  attrs : AttrsText u a
  output : OutText u out o
  blanks2 : Blanks b2

theorem CallHead.outNoBlank {u : CharClass} {t c b1 a o b2 : Str} {out : Option Ty}
    (h : CallHead u t c b1 a o b2 out) (k : Str) : NoBlank (a ++ (o ++ k)) :=
  h.attrs.noBlank (h.output.noBlank _)

theorem CallHead.asm_error {u : CharClass} {t c b1 a o b2 : Str} {out : Option Ty}
    (h : CallHead u t c b1 a o b2 out) {d : Char} (y : Str) (h1 : isSpace d = false) (h2 : d ≠ '(')
    (h3 : d ≠ 'a') : asmP u (t ++ (c ++ (b1 ++ (a ++ (o ++ (b2 ++ d :: y)))))) = .error := by
  unfold asmP
  rw [P.bind_ok (tailP_eq h.tail h.call _)]
  cases h.call with
  | invoke => exact P.bind_error (tag_ne (by decide))
  | call =>
    rw [P.bind_ok (tag_append _ _), P.bind_ok (space1_eq h.blanks1 (h.outNoBlank _))]
    have hends : EndsType u (b2 ++ d :: y) := endsType_blanks h.blanks2 (noBlank_cons _ h1) (by simpa using h2)
    cases h.attrs with
    | nil =>
      rw [List.nil_append, P.bind_ok (h.output.reads hends), P.bind_ok (space1_eq h.blanks2 (noBlank_cons _ h1))]
      exact P.bind_error (tag_ne h3)
    | cons ha hb has =>
      rw [List.append_assoc, List.append_assoc]
      rcases ha.notOutput (stop_blanks u hb _) with h | ⟨r, o, h, hr⟩
      · exact P.bind_error h
      · rw [P.bind_ok h]
        exact P.bind_error (space1_error hr)

theorem CallHead.attrs_reads {u : CharClass} {t c b1 a o b2 : Str} {out : Option Ty}
    (h : CallHead u t c b1 a o b2 out) (k : Str) : attrsP u (a ++ (o ++ (b2 ++ k))) = .ok (o ++ (b2 ++ k)) () :=
  h.attrs.reads (h.output.noBlank _) (h.output.attrStop (stop_blanks u h.blanks2 _))

theorem CallHead.output_reads {u : CharClass} {t c b1 a o b2 : Str} {out : Option Ty}
    (h : CallHead u t c b1 a o b2 out) {d : Char} (y : Str) (h1 : isSpace d = false) (h2 : d ≠ '(') :
    outputP u (o ++ (b2 ++ d :: y)) = .ok (b2 ++ d :: y) out :=
  h.output.reads (endsType_blanks h.blanks2 (noBlank_cons _ h1) (by simpa using h2))

theorem CallHead.bitcast {u : CharClass} {t b1 a o b2 : Str} {out : Option Ty}
    (h : CallHead u t c!"call" b1 a o b2 out) {d : Char} (y : Str) (h1 : isSpace d = false) (h2 : d ≠ '(') :
    bitcastCallP u (t ++ (c!"call" ++ (b1 ++ (a ++ (o ++ (b2 ++ d :: y)))))) =
      (do let name ← bitcastP u; notLineEnding; pure (.bitcastCall name) : P Stmt) (d :: y) := by
  unfold bitcastCallP
  rw [P.bind_ok (tailP_eq h.tail h.call _), P.bind_ok (tag_append _ _),
    P.bind_ok (space1_eq h.blanks1 (h.outNoBlank _)), P.bind_ok (h.attrs_reads _),
    P.bind_ok (h.output_reads y h1 h2), P.bind_ok (space1_eq h.blanks2 (noBlank_cons _ h1))]

theorem CallHead.bitcast_error {u : CharClass} {t c b1 a o b2 : Str} {out : Option Ty}
    (h : CallHead u t c b1 a o b2 out) {d : Char} (y : Str) (h1 : isSpace d = false) (h2 : d ≠ '(')
    (h3 : d ≠ 'b') : bitcastCallP u (t ++ (c ++ (b1 ++ (a ++ (o ++ (b2 ++ d :: y)))))) = .error := by
  cases hc : h.call with
  | invoke =>
    unfold bitcastCallP
    rw [P.bind_ok (tailP_eq h.tail .invoke _)]
    exact P.bind_error (tag_ne (by decide))
  | call =>
    rw [h.bitcast y h1 h2]
    exact P.bind_error (bitcastP_ne _ h3)

theorem CallHead.direct {u : CharClass} {t c b1 a o b2 : Str} {out : Option Ty}
    (h : CallHead u t c b1 a o b2 out) {d : Char} (y : Str) (h1 : isSpace d = false) (h2 : d ≠ '(') :
    directCallP u (t ++ (c ++ (b1 ++ (a ++ (o ++ (b2 ++ d :: y)))))) =
      (do let name ← functionP u; charP '('; notLineEnding; pure (.directCall name) : P Stmt) (d :: y) := by
  have hc : ∀ k, alt [tag c!"call", tag c!"invoke"] (c ++ k) = .ok k () := by
    intro k
    cases h.call with
    | call => exact alt_ok (tag_append _ _)
    | invoke =>
      have h1 : tag c!"call" (c!"invoke" ++ k) = .error := tag_ne (by decide)
      rw [alt_error h1]
      exact tag_append _ _
  unfold directCallP
  rw [P.bind_ok (tailP_eq h.tail h.call _), P.bind_ok (hc _),
    P.bind_ok (space1_eq h.blanks1 (h.outNoBlank _)), P.bind_ok (h.attrs_reads _),
    P.bind_ok (h.output_reads y h1 h2), P.bind_ok (space1_eq h.blanks2 (noBlank_cons _ h1))]

theorem CallHead.indirect {u : CharClass} {t c b1 a o b2 : Str} {out : Option Ty}
    (h : CallHead u t c b1 a o b2 out) {d : Char} (y : Str) (h1 : isSpace d = false) (h2 : d ≠ '(') :
    indirectCallP u (t ++ (c ++ (b1 ++ (a ++ (o ++ (b2 ++ d :: y)))))) =
      (do localP u; let inputs ← delimited (charP '(') (sepList0 commaP (argumentP u)) (charP ')')
          notLineEnding; pure (.indirectCall ⟨inputs, out⟩) : P Stmt) (d :: y) := by
  have ha : AttrsText u (c ++ (b1 ++ a)) := .cons h.call.attr h.blanks1 h.attrs
  have h3 := ha.reads (h.output.noBlank (b2 ++ d :: y)) (h.output.attrStop (stop_blanks u h.blanks2 _))
  simp only [List.append_assoc] at h3
  unfold indirectCallP
  rw [P.bind_ok (tailP_eq h.tail h.call _), P.bind_ok h3,
    P.bind_ok (h.output_reads y h1 h2), P.bind_ok (space1_eq h.blanks2 (noBlank_cons _ h1))]

theorem AsmFlagsText.reads {u : CharClass} {f : Str} (h : AsmFlagsText u f) (k : Str) :
    ∃ as, many0 (do let _ ← identP u; space1 : P Unit) (f ++ '"' :: k) = .ok ('"' :: k) as := by
  induction h with
  | nil =>
    refine ⟨[], many0_error (P.bind_error ?_)⟩
    exact mapRes_error (takeWhile1_error (stop_cons u _ (identChar_quote u)))
  | cons hw hb hf ih =>
    rename_i w b s
    obtain ⟨as, ih⟩ := ih
    have hnb : NoBlank (s ++ '"' :: k) := by
      cases hf with
      | nil => exact noBlank_cons _ (by decide)
      | cons hw' _ _ =>
        obtain ⟨c, s', rfl, hc, _⟩ := hw'.head
        refine noBlank_cons _ ?_
        cases hs : isSpace c with
        | false => rfl
        | true => have := identChar_space u hs; rw [hc] at this; exact this
    refine ⟨() :: as, many0_cons (r := s ++ '"' :: k) ?_ ?_ ih⟩
    · simp only [List.append_assoc]
      rw [P.bind_ok (identP_eq hw (stop_blanks u hb _))]
      exact space1_eq hb hnb
    · have := List.length_pos_iff.2 hw.1
      simp; omega

/-! ### Other instructions -/

/-- Tokens other than `call`, with blanks between them. -/
inductive Tokens : Str → Prop
  | one {t : Str} : Token t → Tokens t
  | cons {t b s : Str} : Token t → Blanks b → Tokens s → Tokens (t ++ (b ++ s))

theorem tokens_of (n : Nat) : ∀ s : Str, s.length ≤ n → s ≠ [] → OneLine s →
    (∀ c, s.head? = some c → c ≠ ' ' ∧ c ≠ '\t') → (∀ c, s.getLast? = some c → c ≠ ' ' ∧ c ≠ '\t') →
    ¬ HasWord c!"call" s → Tokens s := by
  induction n with
  | zero => intro s hl hne; exact absurd (List.length_eq_zero_iff.1 (by omega)) hne
  | succ n ih =>
    intro s hl hne h1 h2 h3 h4
    have e1 := spanP_append tokenChar s
    have f1 := spanP_fst tokenChar s
    have g1 := spanP_snd tokenChar s
    generalize (spanP tokenChar s).1 = t at e1 f1
    generalize (spanP tokenChar s).2 = r at e1 g1
    have htc : ∀ c ∈ s, c ≠ ' ' → c ≠ '\t' → tokenChar c = true := fun c hc h5 h6 => by
      have := h1 c hc
      simp [tokenChar, h5, h6, this]
    have hne' : t ≠ [] := by
      rintro rfl
      rw [List.nil_append] at e1
      subst e1
      obtain ⟨c, r, rfl⟩ := List.exists_cons_of_ne_nil hne
      have := htc c (by simp) (h2 c rfl).1 (h2 c rfl).2
      rw [g1 c rfl] at this
      exact absurd this (by simp)
    cases r with
    | nil =>
      rw [List.append_nil] at e1
      subst e1
      refine .one ⟨hne', f1, ?_⟩
      rintro rfl
      exact h4 ⟨[], [], by simp, by simp, by simp⟩
    | cons d r =>
      have hd : isSpace d = true := by
        cases hs : isSpace d with
        | true => rfl
        | false =>
          have h5 : ¬ (d = ' ' ∨ d = '\t') := by rw [← isSpace_iff, hs]; simp
          have := htc d (by rw [← e1]; simp) (fun h => h5 (.inl h)) (fun h => h5 (.inr h))
          rw [g1 d rfl] at this
          exact absurd this (by simp)
      have e2 := spanP_append isSpace (d :: r)
      have f2 := spanP_fst isSpace (d :: r)
      have g2 := spanP_snd isSpace (d :: r)
      have hb0 : (spanP isSpace (d :: r)).1 ≠ [] := by simp [spanP, hd]
      generalize (spanP isSpace (d :: r)).1 = b at e2 f2 hb0
      generalize (spanP isSpace (d :: r)).2 = s' at e2 g2
      rw [← e2] at e1
      have hb : Blanks b := ⟨hb0, fun c hc => (isSpace_iff c).1 (f2 c hc)⟩
      have ht : Token t := by
        refine ⟨hne', f1, ?_⟩
        rintro rfl
        refine h4 ⟨[], b ++ s', by rw [← e1]; simp, by simp, fun c hc => ?_⟩
        obtain ⟨c', b', rfl, hc'⟩ := hb.head
        simp only [List.cons_append, List.head?_cons, Option.some.injEq] at hc
        exact hc ▸ (isSpace_iff _).1 hc'
      subst e1
      have hs' : s' ≠ [] := by
        rintro rfl
        have : ∃ c, b.getLast? = some c := by
          cases hg : b.getLast? with
          | none => rw [List.getLast?_eq_none_iff] at hg; exact absurd hg hb0
          | some c => exact ⟨c, rfl⟩
        obtain ⟨c, hc⟩ := this
        have h5 := h3 c (by simp [List.getLast?_append, hc])
        rcases hb.2 c (List.mem_of_getLast? hc) with h | h
        · exact h5.1 h
        · exact h5.2 h
      refine .cons ht hb (ih s' ?_ hs' (fun c hc => h1 c (by simp [hc])) ?_ ?_ ?_)
      · have := List.length_pos_iff.2 hne'
        simp at hl
        omega
      · intro c hc
        have := g2 c hc
        simp only [isSpace, Bool.or_eq_false_iff, beq_eq_false_iff_ne] at this
        exact this
      · intro c hc
        exact h3 c (by simp [List.getLast?_append, hc])
      · rintro ⟨p, q, rfl, h6, h7⟩
        refine h4 ⟨t ++ (b ++ p), q, by simp, fun c hc => ?_, h7⟩
        cases hp : p.getLast? with
        | none =>
          rw [List.getLast?_eq_none_iff] at hp
          subst hp
          cases hg : b.getLast? with
          | none => rw [List.getLast?_eq_none_iff] at hg; exact absurd hg hb0
          | some d =>
            simp [List.getLast?_append, hg] at hc
            exact hc ▸ hb.2 d (List.mem_of_getLast? hg)
        | some d =>
          simp [List.getLast?_append, hp] at hc
          exact hc ▸ h6 d hp

theorem Token.reads {t k : Str} (h : Token t) (hk : ∀ c, k.head? = some c → tokenChar c = false) :
    tokenP (t ++ k) = .ok k () := by
  unfold tokenP
  exact mapRes_some (takeWhile1_eq h.1 h.2.1 hk) (by rw [if_neg h.2.2])

theorem tokenChar_blanks {b : Str} (h : Blanks b) (k : Str) :
    ∀ c, (b ++ k).head? = some c → tokenChar c = false := fun c hc => by
  obtain ⟨d, b', rfl, hd⟩ := h.head
  simp only [List.cons_append, List.head?_cons, Option.some.injEq] at hc
  subst hc
  rcases (isSpace_iff d).1 hd with rfl | rfl <;> decide

theorem Token.noBlank {t : Str} (h : Token t) (k : Str) : NoBlank (t ++ k) := by
  obtain ⟨c, t, rfl⟩ := List.exists_cons_of_ne_nil h.1
  exact noBlank_cons _ (tokenChar_noSpace (h.2.1 c (by simp)))

theorem Tokens.noBlank {s : Str} (h : Tokens s) (k : Str) : NoBlank (s ++ k) := by
  cases h with
  | one h => exact h.noBlank k
  | cons h _ _ => rw [List.append_assoc]; exact h.noBlank _

theorem Tokens.reads {s k : Str} (h : Tokens s) (hk : AtEol k) :
    ∃ r a as, tokenP (s ++ k) = .ok r a ∧ sepLoop space1 tokenP r = .ok k as := by
  have htk : ∀ c, k.head? = some c → tokenChar c = false := fun c hc => by
    rcases hk.head hc with rfl | rfl <;> decide
  induction h with
  | one h => exact ⟨k, (), [], h.reads htk, sepLoop_error (space1_error hk.noBlank)⟩
  | cons h hb hs ih =>
    rename_i t b s
    obtain ⟨r, a, as, h1, h2⟩ := ih
    refine ⟨b ++ (s ++ k), (), _, ?_, sepLoop_cons (fun n => eats_tokenP.good)
      (space1_eq hb (hs.noBlank k)) ?_ h1 h2⟩
    · simp only [List.append_assoc]
      exact h.reads (tokenChar_blanks hb _)
    · have := List.length_pos_iff.2 hb.1
      simp; omega

theorem otherP_eq {s k : Str} (h : Tokens s) (hk : AtEol k) : otherP (s ++ k) = .ok k .other := by
  obtain ⟨r, a, as, h1, h2⟩ := h.reads hk
  unfold otherP
  rw [P.bind_ok (sepList1_eq h1 h2)]
  rfl

/-- Text before a line break. -/
theorem prefix_of_eol {s k x y : Str} (hk : AtEol k) (hx : OneLine x) (h : s ++ k = x ++ y) :
    ∃ z, s = x ++ z := by
  rcases List.append_eq_append_iff.1 h with ⟨z, h1, h2⟩ | ⟨z, h1, _⟩
  · cases z with
    | nil => exact ⟨[], by simpa using h1.symm⟩
    | cons c z =>
      have h3 := hx c (by rw [h1]; simp)
      rcases hk.head (c := c) (by rw [h2]; rfl) with rfl | rfl
      · exact absurd rfl h3.1
      · exact absurd rfl h3.2
  · exact ⟨z, h1⟩

theorem gives_tailP : Gives tailP (fun _ x => TailText x) := by
  unfold tailP
  refine (gives_bind (gives_opt (gives_bind (gives_tag c!"tail") fun _ => gives_space1)) fun _ =>
    gives_pure ()).imp ?_
  rintro a x ⟨o, y, z, rfl, h, _, rfl⟩
  rw [List.append_nil]
  rcases h with ⟨_, rfl⟩ | ⟨_, _, _, t, b, rfl, rfl, hb⟩
  · exact .nil
  · exact .tail hb

/-- The text begins with a call. -/
def StartsCall (x : Str) : Prop := ∃ t c b y, TailText t ∧ CallText c ∧ Blanks b ∧ x = t ++ (c ++ (b ++ y))

theorem starts_call {u : CharClass} {f : Unit → P Stmt} {w : P Unit} {i r : Str} {st : Stmt}
    (hw : Gives w (fun _ x => CallText x))
    (h : (tailP >>= fun _ => w >>= fun _ => space1 >>= f) i = .ok r st) : StartsCall i := by
  obtain ⟨r1, _, h1, h⟩ := P.bind_eq_ok h
  obtain ⟨r2, _, h2, h⟩ := P.bind_eq_ok h
  obtain ⟨r3, _, h3, h⟩ := P.bind_eq_ok h
  obtain ⟨t, rfl, ht⟩ := gives_tailP _ _ _ h1
  obtain ⟨c, rfl, hc⟩ := hw _ _ _ h2
  obtain ⟨b, rfl, hb⟩ := gives_space1 _ _ _ h3
  exact ⟨t, c, b, r3, ht, hc, hb, rfl⟩

theorem gives_call : Gives (tag c!"call") (fun _ x => CallText x) :=
  (gives_tag _).imp fun _ _ h => h ▸ .call

theorem gives_callInvoke : Gives (alt [tag c!"call", tag c!"invoke"]) (fun _ x => CallText x) :=
  gives_alt_cons gives_call (gives_alt_one ((gives_tag _).imp fun _ _ h => h ▸ .invoke))

theorem starts_asmP {u : CharClass} {i r : Str} {st : Stmt} (h : asmP u i = .ok r st) : StartsCall i := by
  unfold asmP at h
  exact starts_call (u := u) gives_call h

theorem starts_bitcastCallP {u : CharClass} {i r : Str} {st : Stmt} (h : bitcastCallP u i = .ok r st) :
    StartsCall i := by
  unfold bitcastCallP at h
  exact starts_call (u := u) gives_call h

theorem starts_directCallP {u : CharClass} {i r : Str} {st : Stmt} (h : directCallP u i = .ok r st) :
    StartsCall i := by
  unfold directCallP at h
  exact starts_call (u := u) gives_callInvoke h

theorem TailText.oneLine {t : Str} (h : TailText t) : OneLine t := by
  cases h with
  | nil => simp [OneLine]
  | tail hb => exact oneLine_append (by simp [OneLine]) (oneLine_blanks hb)

theorem CallText.oneLine {t : Str} (h : CallText t) : OneLine t := by
  cases h <;> simp [OneLine]

theorem OtherText.not_starts {u : CharClass} {s k : Str} (h : OtherText u s) (hk : AtEol k) :
    ¬ StartsCall (s ++ k) := by
  rintro ⟨t, c, b, y, ht, hc, hb, he⟩
  have h5 := h.2.2.2.2.1
  have h6 := h.2.2.2.2.2.1
  clear h
  replace he : s ++ k = (t ++ (c ++ b)) ++ y := by rw [he]; simp
  obtain ⟨z, rfl⟩ := prefix_of_eol hk (oneLine_append ht.oneLine (oneLine_append hc.oneLine (oneLine_blanks hb))) he
  have hw : HasWord c (t ++ (c ++ b) ++ z) := by
    refine ⟨t, b ++ z, by simp, fun d hd => ?_, fun d hd => ?_⟩
    · cases ht with
      | nil => simp at hd
      | @tail b' hb' =>
        cases hg : b'.getLast? with
        | none => rw [List.getLast?_eq_none_iff] at hg; exact absurd hg hb'.1
        | some e =>
          rw [List.getLast?_append, hg] at hd
          have hd : e = d := by simpa using hd
          exact hd ▸ hb'.2 e (List.mem_of_getLast? hg)
    · obtain ⟨e, b', rfl, hsp⟩ := hb.head
      simp only [List.cons_append, List.head?_cons, Option.some.injEq] at hd
      exact hd ▸ (isSpace_iff _).1 hsp
  cases hc with
  | call => exact h5 hw
  | invoke => exact h6 hw

theorem OtherText.not_indirect {u : CharClass} {s k r : Str} {st : Stmt} (h : OtherText u s) (hk : AtEol k) :
    indirectCallP u (s ++ k) ≠ .ok r st := by
  intro hi
  unfold indirectCallP at hi
  obtain ⟨r1, _, h1, hi⟩ := P.bind_eq_ok hi
  obtain ⟨r2, _, h2, hi⟩ := P.bind_eq_ok hi
  obtain ⟨r3, _, h3, hi⟩ := P.bind_eq_ok hi
  obtain ⟨r4, _, h4, hi⟩ := P.bind_eq_ok hi
  obtain ⟨r5, _, h5, hi⟩ := P.bind_eq_ok hi
  obtain ⟨r6, _, h6, hi⟩ := P.bind_eq_ok hi
  unfold delimited at h6
  obtain ⟨r7, _, h7, h6⟩ := P.bind_eq_ok h6
  obtain ⟨x1, e1, g1⟩ := takes_tailP _ _ _ h1
  obtain ⟨x2, e2, g2⟩ := takes_attrsP u _ _ _ h2
  obtain ⟨x3, e3, g3⟩ := takes_outputP u _ _ _ h3
  obtain ⟨x4, e4, g4⟩ := takes_space1 _ _ _ h4
  obtain ⟨x5, e5, g5⟩ := gives_localP u _ _ _ h5
  have e7 := charP_ok h7
  have hl := localText_token g5
  have hx : ∃ n, x5 = '%' :: n ∧ ∀ c ∈ n, IdentChar u c := by
    cases g5 with
    | plain h => exact ⟨_, rfl, h.2.1⟩
    | number h => exact ⟨_, rfl, fun c hc => (identChar_iff u c).1 (identChar_digit u ((isDigit_iff c).2 (h.2 c hc)))⟩
  obtain ⟨n, rfl, hn⟩ := hx
  have he : s ++ k = (x1 ++ (x2 ++ (x3 ++ (x4 ++ ('%' :: n ++ ['(']))))) ++ r7 := by
    rw [e1, e2, e3, e4, e5, e7]; simp
  have hb : Bal (x1 ++ (x2 ++ (x3 ++ (x4 ++ ('%' :: n ++ ['(']))))) :=
    bal_append g1 (bal_append g2 (bal_append g3 (bal_append g4 (bal_append hl.2 (bal_plain (by decide))))))
  obtain ⟨_, _, _, _, _, _, hc, hq⟩ := h
  rcases List.append_eq_append_iff.1 he with ⟨z, h8, h9⟩ | ⟨z, h8, h9⟩
  · cases z with
    | nil =>
      refine hc ⟨x1 ++ (x2 ++ (x3 ++ x4)), n, [], ?_, hn⟩
      rw [List.append_nil] at h8
      rw [← h8]; simp
    | cons c z =>
      have := hb.1 s c z h8 (hk.head (by rw [h9]; rfl))
      omega
  · refine hc ⟨x1 ++ (x2 ++ (x3 ++ x4)), n, z, ?_, hn⟩
    rw [h8]; simp

theorem error_of {p : P α} (hg : ∀ n, EatsTo n p) {i : Str} (h : ∀ r a, p i ≠ .ok r a) : p i = .error := by
  cases hp : p i with
  | error => rfl
  | stuck => exact absurd hp (hg (i.length + 1) i (Nat.lt_succ_self _)).1
  | ok r a => exact absurd hp (h r a)

theorem InstrText.reads {u : CharClass} {st : Stmt} {s : Str} (h : InstrText u st s) {k : Str}
    (hk : AtEol k) :
    alt [asmP u, bitcastCallP u, directCallP u, indirectCallP u, otherP] (s ++ k) = .ok k st := by
  cases h with
  | asm ht hb1 ho hb2 hb3 hf hs he =>
    rename_i t b1 o b2 b3 f s e out
    refine alt_ok ?_
    obtain ⟨as, hfl⟩ := hf.reads (s ++ '"' :: (e ++ k))
    have hnb : NoBlank (f ++ '"' :: (s ++ '"' :: (e ++ k))) := by
      cases hf with
      | nil => exact noBlank_cons _ (by decide)
      | cons hw _ _ =>
        obtain ⟨c, s', rfl, hc, _⟩ := hw.head
        refine noBlank_cons _ ?_
        cases hs : isSpace c with
        | false => rfl
        | true => have := identChar_space u hs; rw [hc] at this; exact this
    simp only [List.append_assoc, List.cons_append, List.nil_append] at hfl ⊢
    unfold asmP
    have hc := tailP_eq ht .call (b1 ++ (o ++ (b2 ++ ('a' :: 's' :: 'm' :: (b3 ++ (f ++
      '"' :: (s ++ '"' :: (e ++ k)))))))) 
    have hcall := tag_append c!"call" (b1 ++ (o ++ (b2 ++ ('a' :: 's' :: 'm' :: (b3 ++ (f ++
      '"' :: (s ++ '"' :: (e ++ k))))))))
    have hasm := tag_append c!"asm" (b3 ++ (f ++ '"' :: (s ++ '"' :: (e ++ k))))
    simp only [List.cons_append, List.nil_append] at hc hcall hasm
    rw [P.bind_ok hc, P.bind_ok hcall, P.bind_ok (space1_eq hb1 (ho.noBlank _)),
      P.bind_ok (ho.reads (endsType_blanks hb2 (noBlank_cons _ (by decide)) (by simp))),
      P.bind_ok (space1_eq hb2 (noBlank_cons _ (by decide))), P.bind_ok hasm,
      P.bind_ok (space1_eq hb3 hnb), P.bind_ok hfl, P.bind_ok (stringP_eq hs _),
      P.bind_ok (notLineEnding_eq he hk)]
    rfl
  | bitcast ht hb1 ha ho hb2 hc he =>
    rename_i t b1 a o b2 c e out name
    have hh : CallHead u t c!"call" b1 a o b2 out := ⟨ht, .call, hb1, ha, ho, hb2⟩
    have hr := hc.reads (e ++ k)
    obtain ⟨y, hy⟩ : ∃ y, c = 'b' :: y := by cases hc; exact ⟨_, rfl⟩
    subst hy
    rw [List.cons_append] at hr
    have h1 := hh.asm_error (y ++ (e ++ k)) (d := 'b') (by decide) (by decide) (by decide)
    have h2 := hh.bitcast (y ++ (e ++ k)) (d := 'b') (by decide) (by decide)
    rw [P.bind_ok hr, P.bind_ok (notLineEnding_eq he hk)] at h2
    simp only [List.append_assoc, List.cons_append, List.nil_append] at h1 h2 ⊢
    rw [alt_error h1]
    exact alt_ok h2
  | direct ht hc hb1 ha ho hb2 hn he =>
    rename_i t c b1 a o b2 name n e out
    have hh : CallHead u t c b1 a o b2 out := ⟨ht, hc, hb1, ha, ho, hb2⟩
    have h1 := hh.asm_error (n ++ '(' :: (e ++ k)) (d := '@') (by decide) (by decide) (by decide)
    have h2 := hh.bitcast_error (n ++ '(' :: (e ++ k)) (d := '@') (by decide) (by decide) (by decide)
    have h3 := hh.direct (n ++ '(' :: (e ++ k)) (d := '@') (by decide) (by decide)
    rw [P.bind_ok (functionP_eq hn (stop_cons u _ (identChar_false u (by decide) (by decide)))),
      P.bind_ok (charP_cons _ _), P.bind_ok (notLineEnding_eq he hk)] at h3
    simp only [List.append_assoc, List.cons_append, List.nil_append] at h1 h2 h3 ⊢
    rw [alt_error h1, alt_error h2]
    exact alt_ok h3
  | indirect ht hc hb1 ha ho hb2 hl hs he =>
    rename_i t c b1 a o b2 l s e out ins
    have hh : CallHead u t c b1 a o b2 out := ⟨ht, hc, hb1, ha, ho, hb2⟩
    have hr := hl.reads (k := '(' :: (s ++ ')' :: (e ++ k)))
      (stop_cons u _ (identChar_false u (by decide) (by decide)))
    obtain ⟨y, rfl⟩ := hl.start
    rw [List.cons_append] at hr
    have h1 := hh.asm_error (y ++ '(' :: (s ++ ')' :: (e ++ k))) (d := '%') (by decide) (by decide) (by decide)
    have h2 := hh.bitcast_error (y ++ '(' :: (s ++ ')' :: (e ++ k))) (d := '%') (by decide) (by decide) (by decide)
    have h3 := hh.direct (y ++ '(' :: (s ++ ')' :: (e ++ k))) (d := '%') (by decide) (by decide)
    rw [P.bind_error (functionP_ne _ (by decide))] at h3
    have h4 := hh.indirect (y ++ '(' :: (s ++ ')' :: (e ++ k))) (d := '%') (by decide) (by decide)
    have hd : delimited (charP '(') (sepList0 commaP (argumentP u)) (charP ')')
        ('(' :: (s ++ ')' :: (e ++ k))) = .ok (e ++ k) ins := by
      unfold delimited
      rw [P.bind_ok (charP_cons _ _), P.bind_ok (args_reads hs _), P.bind_ok (charP_cons _ _)]
      rfl
    rw [P.bind_ok hr, P.bind_ok hd, P.bind_ok (notLineEnding_eq he hk)] at h4
    simp only [List.append_assoc, List.cons_append, List.nil_append] at h1 h2 h3 h4 ⊢
    rw [alt_error h1, alt_error h2, alt_error h3]
    exact alt_ok h4
  | other h =>
    have h0 := h.not_starts hk
    rw [alt_error (error_of (fun n => eats_asmP u) fun r a h => h0 (starts_asmP h)),
      alt_error (error_of (fun n => eats_bitcastCallP u) fun r a h => h0 (starts_bitcastCallP h)),
      alt_error (error_of (fun n => eats_directCallP u) fun r a h => h0 (starts_directCallP h)),
      alt_error (error_of (fun n => eats_indirectCallP u) fun r a => h.not_indirect hk)]
    obtain ⟨h1, h2, h3, h4, h5, _⟩ := h
    exact otherP_eq (tokens_of _ s (Nat.le_refl _) h1 h2 h3 h4 h5) hk

theorem TailText.append_head {t c : Str} (ht : TailText t) (hc : CallText c) (k : Str) :
    ∃ d y, t ++ (c ++ k) = d :: y ∧ (d = 't' ∨ d = 'c' ∨ d = 'i') := by
  cases ht with
  | tail _ => exact ⟨_, _, rfl, .inl rfl⟩
  | nil =>
    cases hc
    · exact ⟨_, _, rfl, .inr (.inl rfl)⟩
    · exact ⟨_, _, rfl, .inr (.inr rfl)⟩

theorem InstrText.head {u : CharClass} {st : Stmt} {s : Str} (h : InstrText u st s) :
    ∃ d y, s = d :: y ∧ isSpace d = false ∧ d ≠ '\n' ∧ d ≠ '\r' := by
  have key : ∀ {t c : Str} (ht : TailText t) (hc : CallText c) (k : Str),
      ∃ d y, t ++ (c ++ k) = d :: y ∧ isSpace d = false ∧ d ≠ '\n' ∧ d ≠ '\r' := by
    intro t c ht hc k
    obtain ⟨d, y, h1, h2⟩ := ht.append_head hc k
    exact ⟨d, y, h1, by rcases h2 with rfl | rfl | rfl <;> decide⟩
  cases h with
  | asm ht => exact key ht .call _
  | bitcast ht => exact key ht .call _
  | direct ht hc => exact key ht hc _
  | indirect ht hc => exact key ht hc _
  | other h =>
    obtain ⟨h1, h2, h3, _⟩ := h
    obtain ⟨c, s, rfl⟩ := List.exists_cons_of_ne_nil h1
    refine ⟨c, s, rfl, ?_, h2 c (by simp)⟩
    have := h3 c rfl
    simp [isSpace, this]

theorem identP_ne {u : CharClass} {c : Char} (k : Str) (h : identChar u c = false) :
    identP u (c :: k) = .error := mapRes_error (takeWhile1_error (stop_cons u k h))

theorem labelP_error {u : CharClass} {c : Char} (k : Str) (h1 : identChar u c = false) (h2 : c ≠ '"') :
    labelP u (c :: k) = .error := by
  have hd : isDigit c = false := by
    cases hd : isDigit c with
    | false => rfl
    | true => rw [identChar_digit u hd] at h1; exact absurd h1 (by simp)
  have h3 : alt [(do let _ ← identP u : P Unit), (do let _ ← stringP), (do let _ ← digit1)] (c :: k) = .error := by
    rw [alt_error (P.bind_error (identP_ne k h1)),
      alt_error (P.bind_error (stringP_ne _ h2))]
    refine P.bind_error (takeWhile1_error ?_)
    intro d hd'
    simp only [List.head?_cons, Option.some.injEq] at hd'
    exact hd' ▸ hd
  unfold labelP
  exact P.bind_error h3

theorem LabelText.reads {u : CharClass} {l : Str} (h : LabelText u l) (k : Str) :
    alt [(do let _ ← identP u : P Unit), (do let _ ← stringP), (do let _ ← digit1)] (l ++ ':' :: k) =
      .ok (':' :: k) () := by
  have hst : Stop u (':' :: k) := stop_cons u _ (identChar_false u (by decide) (by decide))
  cases h with
  | plain h => exact alt_ok (P.bind_ok (identP_eq h hst))
  | quoted h =>
    rw [List.cons_append, alt_error (P.bind_error (identP_ne _ (identChar_quote u)))]
    exact alt_ok (P.bind_ok (stringP_eq' h _))
  | number h =>
    rw [alt_error (P.bind_error (h.ident_error hst)), alt_error (P.bind_error (h.string_error _))]
    exact P.bind_ok (digit1_eq h hst.digit)

theorem commentP_eq {e k : Str} (he : OneLine e) (hk : AtEol k) : commentP (';' :: (e ++ k)) = .ok k () := by
  unfold commentP
  rw [P.bind_ok (charP_cons _ _)]
  exact notLineEnding_eq he hk

theorem labelP_eq {u : CharClass} {l : Str} (h : LabelText u l) {x k : Str}
    (hx : opt (do space1; commentP : P Unit) x = .ok k (some ()) ∨
      opt (do space1; commentP : P Unit) x = .ok k none) : labelP u (l ++ ':' :: x) = .ok k .label := by
  unfold labelP
  rw [P.bind_ok (h.reads x), P.bind_ok (charP_cons _ _)]
  rcases hx with hx | hx <;> (rw [P.bind_ok hx]; rfl)

theorem StmtText.reads {u : CharClass} {st : Stmt} {s : Str} (h : StmtText u st s) {k : Str} (hk : AtEol k) :
    stmtP u (s ++ k) = .ok k st := by
  have hcomment : ∀ {b : Str}, Blanks b → ∀ x, stmtCommentP (b ++ x) = .error := by
    intro b hb x
    obtain ⟨c, b', rfl, hc⟩ := hb.head
    refine P.bind_error (P.bind_error (charP_ne _ ?_))
    rintro rfl
    exact absurd hc (by decide)
  have hlabel : ∀ {b : Str}, Blanks b → ∀ x, labelP u (b ++ x) = .error := by
    intro b hb x
    obtain ⟨c, b', rfl, hc⟩ := hb.head
    refine labelP_error _ (identChar_space u hc) ?_
    rintro rfl
    exact absurd hc (by decide)
  unfold stmtP
  cases h with
  | label h =>
    have := labelP_eq h (.inr (opt_error (P.bind_error (space1_error hk.noBlank))))
    simp only [List.append_assoc, List.cons_append, List.nil_append]
    exact alt_ok this
  | labelComment h hb he =>
    have h1 : ∀ b : Str, Blanks b → ∀ e : Str, OneLine e →
        (do space1; commentP : P Unit) (b ++ ';' :: (e ++ k)) = .ok k () := by
      intro b hb e he
      rw [P.bind_ok (space1_eq hb (noBlank_cons _ (by decide)))]
      exact commentP_eq he hk
    have := labelP_eq h (.inl (opt_ok (h1 _ hb _ he)))
    simp only [List.append_assoc, List.cons_append, List.nil_append]
    exact alt_ok this
  | comment he =>
    have h1 : stmtCommentP (';' :: (_ ++ k)) = .ok k .comment := P.bind_ok (commentP_eq he hk)
    simp only [List.cons_append, List.nil_append]
    rw [alt_error (labelP_error _ (identChar_false u (by decide) (by decide)) (by decide))]
    exact alt_ok h1
  | instr hb hh hi =>
    rename_i b s
    rw [List.append_assoc, alt_error (hlabel hb _), alt_error (hcomment hb _)]
    have hr := hi.reads hk
    have hnb' : NoBlank (s ++ k) := by
      obtain ⟨d, y, rfl, hd, _⟩ := hi.head
      exact noBlank_cons _ hd
    obtain ⟨d, y, rfl, hd, _⟩ := hi.head
    show indentedP u _ = _
    unfold indentedP
    rw [P.bind_ok (space1_eq hb hnb')]
    have : assignP u (d :: y ++ k) = .error := by
      refine P.bind_error (localP_ne _ ?_)
      rintro rfl
      exact hh rfl
    rw [alt_error this]
    exact hr
  | assign hb hl hb1 hb2 hi =>
    rename_i b l b1 b2 s
    simp only [List.append_assoc, List.cons_append, List.nil_append]
    rw [alt_error (hlabel hb _), alt_error (hcomment hb _)]
    have hr := hi.reads hk
    have hnb' : NoBlank (s ++ k) := by
      obtain ⟨d, y, rfl, hd, _⟩ := hi.head
      exact noBlank_cons _ hd
    obtain ⟨d, y, rfl, hd, _⟩ := hi.head
    have hl' := hl.reads (stop_blanks u hb1 ('=' :: (b2 ++ (d :: y ++ k))))
    have hnb : NoBlank (l ++ (b1 ++ '=' :: (b2 ++ (d :: y ++ k)))) := by
      obtain ⟨n, rfl⟩ := hl.start
      exact noBlank_cons _ (by decide)
    show indentedP u _ = _
    unfold indentedP
    rw [P.bind_ok (space1_eq hb hnb)]
    refine alt_ok ?_
    unfold assignP
    rw [P.bind_ok hl', P.bind_ok (space1_eq hb1 (noBlank_cons _ (by decide))), P.bind_ok (charP_cons _ _),
      P.bind_ok (space1_eq hb2 hnb')]
    exact hr

theorem LabelText.noEol {u : CharClass} {l : Str} (h : LabelText u l) (k : Str) : NoEol (l ++ k) := by
  cases h with
  | plain h =>
    obtain ⟨c, s, rfl, hc, _⟩ := h.head
    refine noEol_cons _ ⟨?_, ?_⟩ <;>
      (rintro rfl; rw [identChar_false u (by decide) (by decide)] at hc; exact absurd hc (by simp))
  | quoted h => exact noEol_cons _ (by decide)
  | number h =>
    obtain ⟨c, s, rfl, hc⟩ := h.head
    exact noEol_cons _ ⟨by rintro rfl; exact absurd hc (by decide), by rintro rfl; exact absurd hc (by decide)⟩

theorem noEol_blanks {b : Str} (h : Blanks b) (k : Str) : NoEol (b ++ k) := by
  obtain ⟨c, b', rfl, hc⟩ := h.head
  exact noEol_cons _ ⟨by rintro rfl; exact absurd hc (by decide), by rintro rfl; exact absurd hc (by decide)⟩

theorem StmtText.noEol {u : CharClass} {st : Stmt} {s : Str} (h : StmtText u st s) (k : Str) : NoEol (s ++ k) := by
  cases h with
  | label h => rw [List.append_assoc]; exact h.noEol _
  | labelComment h => rw [List.append_assoc]; exact h.noEol _
  | comment h => exact noEol_cons _ (by decide)
  | instr hb => rw [List.append_assoc]; exact noEol_blanks hb _
  | assign hb => rw [List.append_assoc]; exact noEol_blanks hb _

theorem stmtP_brace (u : CharClass) (k : Str) : stmtP u ('}' :: k) = .error := by
  have h1 : stmtCommentP ('}' :: k) = .error := P.bind_error (P.bind_error (charP_ne _ (by decide)))
  unfold stmtP
  rw [alt_error (labelP_error _ (identChar_false u (by decide) (by decide)) (by decide)),
    alt_error h1]
  exact P.bind_error (space1_error (noBlank_cons _ (by decide)))

theorem BodyText.noEol {u : CharClass} {sts : List Stmt} {s : Str} (h : BodyText u sts s) (k : Str) :
    NoEol (s ++ k) := by
  cases h with
  | one h => exact h.noEol k
  | cons h => rw [List.append_assoc]; exact h.noEol _

theorem BodyText.reads {u : CharClass} {sts : List Stmt} {s l : Str} (h : BodyText u sts s) (hl : Eol l)
    (k : Str) :
    ∃ r st sts', sts = st :: sts' ∧ stmtP u (s ++ (l ++ '}' :: k)) = .ok r st ∧
      sepLoop (many1 lineEnding) (stmtP u) r = .ok (l ++ '}' :: k) sts' := by
  induction h with
  | one h =>
    refine ⟨_, _, [], rfl, h.reads (hl.atEol _), ?_⟩
    obtain ⟨as, h1⟩ := (Eols.one hl).many1 (k := '}' :: k) (noEol_cons _ (by decide))
    exact sepLoop_stop h1 (by have := hl.length; simp; omega) (stmtP_brace u k)
  | cons h he hb ih =>
    rename_i st sts s e s'
    obtain ⟨r, st', sts', rfl, h1, h2⟩ := ih
    refine ⟨e ++ (s' ++ (l ++ '}' :: k)), st, _, rfl, ?_, ?_⟩
    · simp only [List.append_assoc]
      exact h.reads (he.atEol _)
    · obtain ⟨as, h3⟩ := he.many1 (hb.noEol (l ++ '}' :: k))
      exact sepLoop_cons (fun n => (eats_stmtP u).good) h3 (by have := he.length; simp; omega) h1 h2

end CallStack
