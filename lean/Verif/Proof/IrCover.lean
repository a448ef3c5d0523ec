import Verif.Proof.IrTakes
import Verif.Spec.IrCover

/-!
How an accepted file is divided among the statements read from it.
-/

namespace CallStack

variable {α β : Type}

theorem alt_cons_ok {p q : P α} {ps : List (P α)} {i r : Str} {a : α}
    (h : alt (p :: q :: ps) i = .ok r a) :
    p i = .ok r a ∨ (p i = .error ∧ alt (q :: ps) i = .ok r a) := by
  cases hp : p i with
  | ok r' a' => rw [alt_ok hp] at h; exact .inl h
  | error => rw [alt_error hp] at h; exact .inr ⟨rfl, h⟩
  | stuck =>
    have : alt (p :: q :: ps) i = .stuck := by
      show orElse _ _ _ = _
      unfold orElse
      rw [hp]
    rw [this] at h
    exact absurd h (by simp)

/-- The consumed text and the result. -/
def Gives (p : P α) (Q : α → Str → Prop) : Prop := ∀ i r a, p i = .ok r a → ∃ x, i = x ++ r ∧ Q a x

theorem Takes.gives {p : P α} {Q : Str → Prop} (h : Takes p Q) : Gives p (fun _ x => Q x) := h

theorem gives_alt_one {p : P α} {Q : α → Str → Prop} (h : Gives p Q) : Gives (alt [p]) Q := h

theorem gives_alt_cons {p q : P α} {ps : List (P α)} {Q : α → Str → Prop} (h : Gives p Q)
    (h' : Gives (alt (q :: ps)) Q) : Gives (alt (p :: q :: ps)) Q := fun i r a ha => by
  rcases alt_cons_ok ha with ha | ⟨_, ha⟩
  · exact h i r a ha
  · exact h' i r a ha

theorem gives_bind {p : P α} {f : α → P β} {Q : α → Str → Prop} {Q' : α → β → Str → Prop}
    (hp : Gives p Q) (hf : ∀ a, Gives (f a) (Q' a)) :
    Gives (p >>= f) (fun b x => ∃ a y z, x = y ++ z ∧ Q a y ∧ Q' a b z) := fun i r b h => by
  obtain ⟨r', a, h1, h2⟩ := P.bind_eq_ok h
  obtain ⟨x, rfl, hx⟩ := hp i r' a h1
  obtain ⟨y, rfl, hy⟩ := hf a r' r b h2
  exact ⟨x ++ y, by simp, a, x, y, rfl, hx, hy⟩

theorem Gives.imp {p : P α} {Q Q' : α → Str → Prop} (h : Gives p Q) (hi : ∀ a x, Q a x → Q' a x) :
    Gives p Q' := fun i r a ha => by
  obtain ⟨x, hx, hq⟩ := h i r a ha
  exact ⟨x, hx, hi a x hq⟩

theorem Gives.and {p : P α} {Q Q' : α → Str → Prop} (h : Gives p Q) (h' : Gives p Q') :
    Gives p (fun a x => Q a x ∧ Q' a x) := fun i r a ha => by
  obtain ⟨x, rfl, hq⟩ := h i r a ha
  obtain ⟨y, hy, hq'⟩ := h' _ r a ha
  have := List.append_cancel_right hy
  subst this
  exact ⟨x, rfl, hq, hq'⟩

theorem gives_pure (a : α) : Gives (Pure.pure a : P α) (fun b x => b = a ∧ x = []) := fun i r b h => by
  rw [P.pure_eq] at h
  injection h with h h'
  exact ⟨[], h, h'.symm, rfl⟩

theorem gives_tag (t : Str) : Gives (tag t) (fun _ x => x = t) := fun i r a h => ⟨t, tag_ok h, rfl⟩

theorem gives_charP (c : Char) : Gives (charP c) (fun _ x => x = [c]) := fun i r a h =>
  ⟨[c], charP_ok h, rfl⟩

theorem gives_space1 : Gives space1 (fun _ x => Blanks x) := fun i r a h => by
  obtain ⟨b, h1, h2, _⟩ := space1_ok h
  exact ⟨b, h1, h2⟩

theorem gives_notLineEnding : Gives notLineEnding (fun _ x => OneLine x) := fun i r a h =>
  ⟨_, notLineEnding_ok h, fun c hc => by
    have := spanP_fst notEol i c hc
    simp only [notEol, Bool.and_eq_true, bne_iff_ne] at this
    exact ⟨this.2, this.1⟩⟩

theorem gives_any {p : P α} (h : ∀ n, GoodTo n p) : Gives p (fun _ _ => True) := fun i r a ha => by
  obtain ⟨x, hx⟩ := (h (i.length + 1) i (Nat.lt_succ_self _)).2 r a ha
  exact ⟨x, hx.symm, trivial⟩

theorem gives_stringP : Gives stringP (fun s x => x = '"' :: (s ++ ['"']) ∧ '"' ∉ s) := fun i r s h => by
  unfold stringP at h
  obtain ⟨r1, a1, h1, h⟩ := P.bind_eq_ok h
  obtain ⟨r2, a2, h2, h⟩ := P.bind_eq_ok h
  obtain ⟨r3, a3, h3, h⟩ := P.bind_eq_ok h
  rw [P.pure_eq] at h
  injection h with h h'
  subst h h'
  have h1 := charP_ok h1
  have h3 := charP_ok h3
  have hs := spanP_append (fun c => c != '"') r1
  have hf := spanP_fst (fun c => c != '"') r1
  unfold takeUntilQuote at h2
  split at h2
  · exact absurd h2 (by simp)
  · rename_i s' c r' heq
    injection h2 with h2 h2'
    rw [heq] at hs hf
    subst h2'
    refine ⟨_, ?_, rfl, fun hq => ?_⟩
    · rw [h1, ← hs]
      simp only at h2 ⊢
      rw [h2, h3]
      simp
    · exact absurd (hf _ hq) (by decide)

theorem gives_identP (u : CharClass) : Gives (identP u) (fun s x => x = s ∧ Ident u s) := fun i r s h => by
  unfold identP mapRes at h
  obtain ⟨r1, a1, h1, h⟩ := P.bind_eq_ok h
  obtain ⟨h2, h3, h4, _⟩ := takeWhile1_ok h1
  by_cases hd : a1.head?.any isDigit = true
  · simp only [hd, if_true] at h
    exact absurd h (by simp [P.fail])
  · simp only [hd, if_false] at h
    have h : (Pure.pure a1 : P Str) r1 = .ok r s := by simpa using h
    rw [P.pure_eq] at h
    injection h with h h'
    subst h h'
    refine ⟨_, h2, rfl, h3, fun c hc => (identChar_iff u c).1 (h4 c hc), fun c hc => ?_⟩
    rw [hc] at hd
    rw [← isDigit_iff]
    simpa using hd

theorem gives_digit1 : Gives digit1 (fun s x => x = s ∧ Digits s) := fun i r s h => by
  obtain ⟨h2, h3, h4, _⟩ := takeWhile1_ok h
  exact ⟨s, h2, rfl, h3, fun c hc => (isDigit_iff c).1 (h4 c hc)⟩

theorem gives_nameP (u : CharClass) : Gives (nameP u) (NameText u) := by
  unfold nameP
  refine gives_alt_cons ?_ (gives_alt_cons ?_ (gives_alt_one ?_))
  · exact gives_stringP.imp fun a x h => by rw [h.1]; exact .quoted h.2
  · exact (gives_identP u).imp fun a x h => by rw [h.1]; exact .plain h.2
  · exact gives_digit1.imp fun a x h => by rw [h.1]; exact .number h.2

theorem gives_functionP (u : CharClass) :
    Gives (functionP u) (fun name x => ∃ n, x = c!"@" ++ n ∧ NameText u name n) := by
  unfold functionP
  refine (gives_bind (gives_charP '@') fun _ => gives_nameP u).imp ?_
  rintro a x ⟨_, y, z, rfl, rfl, hz⟩
  exact ⟨z, rfl, hz⟩

/-! ### Lists with line breaks -/

theorem gives_lineEnding : Gives lineEnding (fun _ x => Eol x) := fun i r a h => by
  unfold lineEnding at h
  split at h
  · injection h with h _; subst h; exact ⟨c!"\n", rfl, .inl rfl⟩
  · injection h with h _; subst h; exact ⟨c!"\r\n", rfl, .inr rfl⟩
  · exact absurd h (by simp)

theorem many0F_eols (n : Nat) : ∀ i r a, many0F lineEnding n i = .ok r a →
    ∃ x, i = x ++ r ∧ (x = [] ∨ Eols x) := by
  induction n with
  | zero => intro i r a ha; simp [many0F] at ha
  | succ n ih =>
    intro i r a ha
    unfold many0F at ha
    cases hp : lineEnding i with
    | stuck => rw [hp] at ha; simp at ha
    | error =>
      rw [hp] at ha
      injection ha with h1 _
      exact ⟨[], by simpa using h1, .inl rfl⟩
    | ok r' a' =>
      rw [hp] at ha
      simp only at ha
      split at ha
      · cases hm : many0F lineEnding n r' with
        | stuck => rw [hm] at ha; simp at ha
        | error => rw [hm] at ha; simp at ha
        | ok r2 as =>
          rw [hm] at ha
          injection ha with h1 _
          subst h1
          obtain ⟨x, rfl, hx⟩ := gives_lineEnding i r' a' hp
          obtain ⟨y, rfl, hy⟩ := ih r' _ _ hm
          refine ⟨x ++ y, by simp, .inr ?_⟩
          rcases hy with rfl | hy
          · rw [List.append_nil]; exact .one hx
          · exact .cons hx hy
      · simp at ha

theorem gives_many1_eol : Gives (many1 lineEnding) (fun _ x => Eols x) := fun i r a ha => by
  unfold many1 at ha
  cases hp : lineEnding i with
  | stuck => rw [hp] at ha; simp at ha
  | error => rw [hp] at ha; simp at ha
  | ok r' a' =>
    rw [hp] at ha
    simp only at ha
    cases hm : many0 lineEnding r' with
    | stuck => rw [hm] at ha; simp at ha
    | error => rw [hm] at ha; simp at ha
    | ok r2 as =>
      rw [hm] at ha
      injection ha with h1 _
      subst h1
      obtain ⟨x, rfl, hx⟩ := gives_lineEnding i r' a' hp
      obtain ⟨y, rfl, hy⟩ := many0F_eols _ r' _ _ hm
      refine ⟨x ++ y, by simp, ?_⟩
      rcases hy with rfl | hy
      · rw [List.append_nil]; exact .one hx
      · exact .cons hx hy

theorem gives_sepLoopF {sep : P β} {p : P α} {S : Str → Prop} {Q : α → Str → Prop}
    (hs : Gives sep (fun _ x => S x)) (h : Gives p Q) (n : Nat) : ∀ i r as, sepLoopF sep p n i = .ok r as →
      ∃ x, i = x ++ r ∧ (as = [] ∧ x = [] ∨ ∃ r' a as' s y z, as = a :: as' ∧ x = s ++ (y ++ z) ∧ S s ∧ Q a y ∧
        r' = z ++ r ∧ ∃ m, m < n ∧ sepLoopF sep p m r' = .ok r as') := by
  intro i r as ha
  cases n with
  | zero => simp [sepLoopF] at ha
  | succ n =>
    unfold sepLoopF at ha
    cases hp : sep i with
    | stuck => rw [hp] at ha; simp at ha
    | error =>
      rw [hp] at ha
      injection ha with h1 h2
      exact ⟨[], by simpa using h1, .inl ⟨h2.symm, rfl⟩⟩
    | ok r0 b =>
      rw [hp] at ha
      simp only at ha
      split at ha
      · cases hq : p r0 with
        | stuck => rw [hq] at ha; simp at ha
        | error =>
          rw [hq] at ha
          injection ha with h1 h2
          exact ⟨[], by simpa using h1, .inl ⟨h2.symm, rfl⟩⟩
        | ok r' a' =>
          rw [hq] at ha
          simp only at ha
          cases hm : sepLoopF sep p n r' with
          | stuck => rw [hm] at ha; simp at ha
          | error => rw [hm] at ha; simp at ha
          | ok r2 as' =>
            rw [hm] at ha
            injection ha with h1 h2
            subst h1 h2
            obtain ⟨x, rfl, hx⟩ := hs i _ _ hp
            obtain ⟨y, rfl, hy⟩ := h _ _ _ hq
            have hg : ∃ z, r' = z ++ r2 := by
              clear hy hx hq hp
              have : ∀ n i r as, sepLoopF sep p n i = .ok r as → ∃ z, i = z ++ r := by
                intro n
                induction n with
                | zero => intro i r as ha; simp [sepLoopF] at ha
                | succ n ih =>
                  intro i r as ha
                  unfold sepLoopF at ha
                  cases hp : sep i with
                  | stuck => rw [hp] at ha; simp at ha
                  | error => rw [hp] at ha; injection ha with h1 _; exact ⟨[], by simpa using h1⟩
                  | ok r0 b =>
                    rw [hp] at ha
                    simp only at ha
                    split at ha
                    · cases hq : p r0 with
                      | stuck => rw [hq] at ha; simp at ha
                      | error => rw [hq] at ha; injection ha with h1 _; exact ⟨[], by simpa using h1⟩
                      | ok r' a' =>
                        rw [hq] at ha
                        simp only at ha
                        cases hm : sepLoopF sep p n r' with
                        | stuck => rw [hm] at ha; simp at ha
                        | error => rw [hm] at ha; simp at ha
                        | ok r2 as' =>
                          rw [hm] at ha
                          injection ha with h1 _
                          subst h1
                          obtain ⟨x, rfl, _⟩ := hs i _ _ hp
                          obtain ⟨y, rfl, _⟩ := h _ _ _ hq
                          obtain ⟨z, rfl⟩ := ih _ _ _ hm
                          exact ⟨x ++ (y ++ z), by simp⟩
                    · simp at ha
              exact this _ _ _ _ hm
            obtain ⟨z, rfl⟩ := hg
            exact ⟨x ++ (y ++ z), by simp, .inr ⟨_, a', as', x, y, z, rfl, rfl, hx, hy, rfl, n,
              Nat.lt_succ_self _, hm⟩⟩
      · simp at ha

theorem sepLoopF_pieces {p : P α} {Q : α → Str → Prop} (h : Gives p Q) (n : Nat) :
    ∀ i r as, sepLoopF (many1 lineEnding) p n i = .ok r as →
      ∃ x, i = x ++ r ∧ (as = [] ∧ x = [] ∨ ∃ e y, x = e ++ y ∧ Eols e ∧ Pieces Q as y) := by
  induction n using Nat.strongRecOn with
  | ind n ih =>
    intro i r as ha
    obtain ⟨x, rfl, hx⟩ := gives_sepLoopF gives_many1_eol h n i r as ha
    rcases hx with hx | ⟨r', a, as', e, y, z, rfl, rfl, he, hy, rfl, m, hm, hl⟩
    · exact ⟨x, rfl, .inl hx⟩
    · obtain ⟨w, hw, hx⟩ := ih m hm _ r as' hl
      have hw := List.append_cancel_right hw
      subst hw
      refine ⟨_, rfl, .inr ⟨e, y ++ z, rfl, he, ?_⟩⟩
      rcases hx with ⟨rfl, rfl⟩ | ⟨e', y', rfl, he', hp⟩
      · rw [List.append_nil]; exact .one hy
      · exact .cons hy he' hp

theorem gives_pieces {p : P α} {Q : α → Str → Prop} (h : Gives p Q) :
    Gives (sepList1 (many1 lineEnding) p) (Pieces Q) := fun i r as ha => by
  obtain ⟨r', a, as', h1, h2, rfl⟩ := sepList1_eq_ok ha
  obtain ⟨x, rfl, hx⟩ := h i r' a h1
  obtain ⟨y, rfl, hy⟩ := sepLoopF_pieces h _ r' _ _ h2
  refine ⟨x ++ y, by simp, ?_⟩
  rcases hy with ⟨rfl, rfl⟩ | ⟨e, z, rfl, he, hp⟩
  · rw [List.append_nil]; exact .one hx
  · exact .cons hx he hp

/-! ### Words -/

theorem hasWord_blanks {w b y : Str} (hw : w ≠ []) (hw' : ∀ c ∈ w, isSpace c = false) (hb : OptBlanks b)
    (h : HasWord w (b ++ y)) : HasWord w y := by
  obtain ⟨p, q, h1, h2, h3⟩ := h
  rcases List.append_eq_append_iff.1 h1 with ⟨z, rfl, hz⟩ | ⟨z, rfl, hz⟩
  · refine ⟨z, q, hz, fun c hc => ?_, h3⟩
    cases z with
    | nil => simp at hc
    | cons d z => exact h2 c (by rw [List.getLast?_append, hc]; rfl)
  · cases z with
    | nil => exact ⟨[], q, by simpa using hz.symm, by simp, h3⟩
    | cons d z =>
      obtain ⟨e, w', rfl⟩ := List.exists_cons_of_ne_nil hw
      injection hz with hz _
      have h4 := hw' e (by simp)
      rw [hz, isSpace_blank (hb d (by simp))] at h4
      exact absurd h4 (by simp)

theorem hasWord_token {w t y : Str} (hw : w ≠ []) (hw' : ∀ c ∈ w, isSpace c = false)
    (ht : ∀ c ∈ t, isSpace c = false) (hy : ∀ c, y.head? = some c → isSpace c = true)
    (h : HasWord w (t ++ y)) : t = w ∨ HasWord w y := by
  obtain ⟨p, q, h1, h2, h3⟩ := h
  have hq : ∀ c, q.head? = some c → isSpace c = true := fun c hc => isSpace_blank (h3 c hc)
  rcases List.append_eq_append_iff.1 h1 with ⟨z, rfl, hz⟩ | ⟨z, rfl, hz⟩
  · cases z with
    | nil =>
      obtain ⟨e, w', rfl⟩ := List.exists_cons_of_ne_nil hw
      have := hy e (by rw [hz]; rfl)
      rw [hw' e (by simp)] at this
      exact absurd this (by simp)
    | cons d z =>
      exact .inr ⟨d :: z, q, hz, fun c hc => h2 c (by rw [List.getLast?_append, hc]; rfl), h3⟩
  · have hp : p = [] := by
      cases hl : p.getLast? with
      | none => simpa using hl
      | some c =>
        have := ht c (by simp [List.mem_of_getLast? hl])
        rw [isSpace_blank (h2 c hl)] at this
        exact absurd this (by simp)
    subst hp
    rcases List.append_eq_append_iff.1 hz with ⟨v, rfl, hv⟩ | ⟨v, rfl, hv⟩
    · cases v with
      | nil => exact .inl (by simp)
      | cons d v =>
        have := hq d (by rw [hv]; rfl)
        rw [ht d (by simp)] at this
        exact absurd this (by simp)
    · cases v with
      | nil => exact .inl (by simp)
      | cons d v =>
        have := hy d (by rw [hv]; rfl)
        rw [hw' d (by simp)] at this
        exact absurd this (by simp)

theorem call_ne : c!"call" ≠ [] := by decide
theorem call_noSpace : ∀ c ∈ c!"call", isSpace c = false := by decide

/-- A single line without the word `call`. -/
def Calm (x : Str) : Prop := OneLine x ∧ ¬ HasWord c!"call" x

theorem calm_blanks {b y : Str} (hb : Blanks b) (hy : Calm y) : Calm (b ++ y) := by
  refine ⟨fun c hc => ?_, fun h => hy.2 (hasWord_blanks call_ne call_noSpace hb.2 h)⟩
  rcases List.mem_append.1 hc with hc | hc
  · rcases hb.2 c hc with rfl | rfl <;> decide
  · exact hy.1 c hc

/-- A token other than `call`. -/
def Token (t : Str) : Prop := t ≠ [] ∧ (∀ c ∈ t, tokenChar c = true) ∧ t ≠ c!"call"

theorem tokenChar_noSpace {c : Char} (h : tokenChar c = true) : isSpace c = false := by
  cases hs : isSpace c with
  | false => rfl
  | true => rcases (isSpace_iff c).1 hs with rfl | rfl <;> exact absurd h (by decide)

theorem tokenChar_line {c : Char} (h : tokenChar c = true) : c ≠ '\n' ∧ c ≠ '\r' := by
  constructor <;> (rintro rfl; exact absurd h (by decide))

theorem calm_token {t y : Str} (ht : Token t) (hy : Calm y)
    (hh : ∀ c, y.head? = some c → isSpace c = true) : Calm (t ++ y) := by
  refine ⟨fun c hc => ?_, fun h => ?_⟩
  · rcases List.mem_append.1 hc with hc | hc
    · exact tokenChar_line (ht.2.1 c hc)
    · exact hy.1 c hc
  · rcases hasWord_token call_ne call_noSpace (fun c hc => tokenChar_noSpace (ht.2.1 c hc)) hh h with h | h
    · exact ht.2.2 h
    · exact hy.2 h

theorem calm_nil : Calm [] := by
  refine ⟨by simp [OneLine], ?_⟩
  rintro ⟨a, b, h, _⟩
  exact absurd h (by simp)

theorem gives_tokenP : Gives tokenP (fun _ x => Token x) := fun i r a h => by
  unfold tokenP mapRes at h
  obtain ⟨r1, a1, h1, h⟩ := P.bind_eq_ok h
  obtain ⟨h2, h3, h4, _⟩ := takeWhile1_ok h1
  by_cases hc : a1 = c!"call"
  · simp only [hc, if_true] at h
    exact absurd h (by simp [P.fail])
  · simp only [hc, if_false] at h
    rw [P.pure_eq] at h
    injection h with h _
    subst h
    exact ⟨a1, h2, h3, h4, hc⟩

theorem sepLoopF_calm (n : Nat) : ∀ i r as, sepLoopF space1 tokenP n i = .ok r as →
    ∃ x, i = x ++ r ∧ Calm x ∧ ∀ c, x.head? = some c → isSpace c = true := by
  induction n using Nat.strongRecOn with
  | ind n ih =>
    intro i r as ha
    obtain ⟨x, rfl, hx⟩ := gives_sepLoopF gives_space1 gives_tokenP n i r as ha
    rcases hx with ⟨_, rfl⟩ | ⟨r', a, as', e, y, z, rfl, rfl, he, hy, rfl, m, hm, hl⟩
    · exact ⟨[], rfl, calm_nil, by simp⟩
    · obtain ⟨w, hw, hx, hh⟩ := ih m hm _ r as' hl
      have hw := List.append_cancel_right hw
      subst hw
      refine ⟨_, rfl, calm_blanks he (calm_token hy hx hh), ?_⟩
      obtain ⟨c, b', rfl, hc⟩ := he.head
      intro d hd
      simp only [List.cons_append, List.head?_cons, Option.some.injEq] at hd
      exact hd ▸ hc

theorem gives_otherP : Gives otherP (fun st x => st = .other ∧ Calm x) := fun i r st h => by
  unfold otherP at h
  obtain ⟨r1, as, h1, h⟩ := P.bind_eq_ok h
  rw [P.pure_eq] at h
  injection h with h h'
  subst h h'
  obtain ⟨r', a, as', h3, h2, rfl⟩ := sepList1_eq_ok h1
  obtain ⟨x, rfl, hx⟩ := gives_tokenP i r' a h3
  obtain ⟨y, rfl, hy, hh⟩ := sepLoopF_calm _ r' _ _ h2
  exact ⟨x ++ y, by simp, rfl, calm_token hx hy hh⟩

/-! ### Statements -/

/-- What is said about calls of all kinds. -/
def CallPiece (u : CharClass) (st : Stmt) (x : Str) : Prop :=
  InLine x ∧ st ≠ .other ∧ st ≠ .comment ∧ st ≠ .label ∧ ∀ name, st = .directCall name →
    ∃ a n b, x = a ++ (c!"@" ++ (n ++ (c!"(" ++ b))) ∧ NameText u name n

theorem gives_asmP (u : CharClass) : Gives (asmP u) (CallPiece u) := by
  have h : Gives (asmP u) (fun st _ => ∃ s, st = .asm s) := by
    intro i r st h
    have h0 := h
    unfold asmP at h
    iterate 10 obtain ⟨_, _, _, h⟩ := P.bind_eq_ok h
    rw [P.pure_eq] at h
    injection h with _ h'
    obtain ⟨x, hx, _⟩ := takes_asmP u i r st h0
    exact ⟨x, hx, _, h'.symm⟩
  refine ((takes_asmP u).gives.and h).imp ?_
  rintro st x ⟨h1, s, rfl⟩
  exact ⟨h1, by simp, by simp, by simp, by simp⟩

theorem gives_bitcastCallP (u : CharClass) : Gives (bitcastCallP u) (CallPiece u) := by
  have h : Gives (bitcastCallP u) (fun st _ => ∃ s, st = .bitcastCall s) := by
    intro i r st h
    have h0 := h
    unfold bitcastCallP at h
    iterate 8 obtain ⟨_, _, _, h⟩ := P.bind_eq_ok h
    rw [P.pure_eq] at h
    injection h with _ h'
    obtain ⟨x, hx, _⟩ := takes_bitcastCallP u i r st h0
    exact ⟨x, hx, _, h'.symm⟩
  refine ((takes_bitcastCallP u).gives.and h).imp ?_
  rintro st x ⟨h1, s, rfl⟩
  exact ⟨h1, by simp, by simp, by simp, by simp⟩

theorem gives_indirectCallP (u : CharClass) : Gives (indirectCallP u) (CallPiece u) := by
  have h : Gives (indirectCallP u) (fun st _ => ∃ s, st = .indirectCall s) := by
    intro i r st h
    have h0 := h
    unfold indirectCallP at h
    iterate 7 obtain ⟨_, _, _, h⟩ := P.bind_eq_ok h
    rw [P.pure_eq] at h
    injection h with _ h'
    obtain ⟨x, hx, _⟩ := takes_indirectCallP u i r st h0
    exact ⟨x, hx, _, h'.symm⟩
  refine ((takes_indirectCallP u).gives.and h).imp ?_
  rintro st x ⟨h1, s, rfl⟩
  exact ⟨h1, by simp, by simp, by simp, by simp⟩

theorem gives_directCallP (u : CharClass) : Gives (directCallP u) (CallPiece u) := by
  have h : Gives (directCallP u) (fun st x => ∃ name, st = .directCall name ∧
      ∃ a n b, x = a ++ (c!"@" ++ (n ++ (c!"(" ++ b))) ∧ NameText u name n) := by
    have hc : Takes (alt [tag c!"call", tag c!"invoke"]) Bal := by takes
    unfold directCallP
    refine (gives_bind (takes_tailP.gives) fun _ => gives_bind hc.gives fun _ =>
      gives_bind gives_space1 fun _ => gives_bind (takes_attrsP u).gives fun _ =>
      gives_bind (takes_outputP u).gives fun _ => gives_bind gives_space1 fun _ =>
      gives_bind (gives_functionP u) fun name => gives_bind (gives_charP '(') fun _ =>
      gives_bind gives_notLineEnding fun _ => gives_pure (Stmt.directCall name)).imp ?_
    rintro st x ⟨_, t, _, rfl, _, _, c, _, rfl, _, _, b, _, rfl, _, _, a, _, rfl, _, _, o, _, rfl, _,
      _, b', _, rfl, _, name, m, _, rfl, ⟨n, rfl, hn⟩, _, p, _, rfl, rfl, _, e, _, rfl, _, rfl, rfl⟩
    exact ⟨name, rfl, t ++ (c ++ (b ++ (a ++ (o ++ b')))), n, e, by simp, hn⟩
  refine ((takes_directCallP u).gives.and h).imp ?_
  rintro st x ⟨h1, name, rfl, h2⟩
  refine ⟨h1, by simp, by simp, by simp, ?_⟩
  rintro _ ⟨⟩
  exact h2

/-- What is said about statements after blanks. -/
def BodyPiece (u : CharClass) (st : Stmt) (x : Str) : Prop := CallPiece u st x ∨ (st = .other ∧ Calm x)

theorem gives_localP (u : CharClass) : Gives (localP u) (fun _ x => LocalText u x) := by
  unfold localP
  refine (gives_bind (gives_charP '%') (Q' := fun _ _ x => Ident u x ∨ Digits x) fun _ => ?_).imp ?_
  · refine gives_alt_cons ?_ (gives_alt_one ?_)
    · refine (gives_bind gives_digit1 fun s => gives_pure ()).imp ?_
      rintro a x ⟨s, y, z, rfl, ⟨rfl, h⟩, _, rfl⟩
      exact .inr (by simpa using h)
    · refine (gives_bind (gives_identP u) fun s => gives_pure ()).imp ?_
      rintro a x ⟨s, y, z, rfl, ⟨rfl, h⟩, _, rfl⟩
      exact .inl (by simpa using h)
  · rintro a x ⟨_, y, z, rfl, rfl, h | h⟩
    · exact .plain h
    · exact .number h

theorem Bal.blanks {b : Str} (h : Blanks b) : Bal b :=
  bal_plain fun c hc => plainChar_space (isSpace_blank (h.2 c hc))

theorem localText_token {u : CharClass} {l : Str} (h : LocalText u l) : Token l ∧ Bal l := by
  have key : ∀ n : Str, (∀ c ∈ n, identChar u c = true) → Token ('%' :: n) ∧ Bal ('%' :: n) := by
    intro n hn
    refine ⟨⟨by simp, fun c hc => ?_, by simp⟩, bal_plain fun c hc => ?_⟩
    · rcases List.mem_cons.1 hc with rfl | hc
      · decide
      · have h1 := plainChar_ident u (hn c hc)
        have h2 : isSpace c = false := by
          cases hs : isSpace c with
          | false => rfl
          | true => have := identChar_space u hs; rw [hn c hc] at this; exact this
        simp only [plainChar, Bool.and_eq_true, bne_iff_ne] at h1
        simp only [isSpace, Bool.or_eq_false_iff, beq_eq_false_iff_ne] at h2
        simp [tokenChar, h1, h2]
    · rcases List.mem_cons.1 hc with rfl | hc
      · decide
      · exact plainChar_ident u (hn c hc)
  cases h with
  | plain h => exact key _ fun c hc => (identChar_iff u c).2 (h.2.1 c hc)
  | number h => exact key _ fun c hc => identChar_digit u ((isDigit_iff c).2 (h.2 c hc))

theorem gives_instr (u : CharClass) :
    Gives (alt [asmP u, bitcastCallP u, directCallP u, indirectCallP u, otherP]) (BodyPiece u) :=
  gives_alt_cons ((gives_asmP u).imp fun _ _ => .inl) <|
  gives_alt_cons ((gives_bitcastCallP u).imp fun _ _ => .inl) <|
  gives_alt_cons ((gives_directCallP u).imp fun _ _ => .inl) <|
  gives_alt_cons ((gives_indirectCallP u).imp fun _ _ => .inl) <|
  gives_alt_one (gives_otherP.imp fun _ _ => .inr)

theorem bodyPiece_bal {u : CharClass} {st : Stmt} {p x : Str} (hp : Bal p) (hc : Calm x → Calm (p ++ x))
    (h : BodyPiece u st x) : BodyPiece u st (p ++ x) := by
  rcases h with ⟨h1, h2, h3, h4, h5⟩ | ⟨rfl, h⟩
  · refine .inl ⟨inLine_append hp h1, h2, h3, h4, fun name hn => ?_⟩
    obtain ⟨a, n, b, rfl, h6⟩ := h5 name hn
    exact ⟨p ++ a, n, b, by simp, h6⟩
  · exact .inr ⟨rfl, hc h⟩

theorem gives_assignP (u : CharClass) : Gives (assignP u) (BodyPiece u) := by
  unfold assignP
  refine (gives_bind (gives_localP u) fun _ => gives_bind gives_space1 fun _ =>
    gives_bind (gives_charP '=') fun _ => gives_bind gives_space1 fun _ => gives_instr u).imp ?_
  rintro st x ⟨_, l, _, rfl, hl, _, b, _, rfl, hb, _, e, _, rfl, rfl, _, b', y, rfl, hb', hy⟩
  obtain ⟨ht, hlb⟩ := localText_token hl
  have he : Token (['='] : Str) := ⟨by simp, by decide, by decide⟩
  have hh : ∀ {b y : Str}, Blanks b → ∀ c, (b ++ y).head? = some c → isSpace c = true := by
    intro b y hb c hc
    obtain ⟨d, b', rfl, hd⟩ := hb.head
    simp only [List.cons_append, List.head?_cons, Option.some.injEq] at hc
    exact hc ▸ hd
  refine bodyPiece_bal hlb (fun h => calm_token ht h (hh hb)) ?_
  refine bodyPiece_bal (Bal.blanks hb) (calm_blanks hb) ?_
  refine bodyPiece_bal (bal_plain (by decide)) (fun h => calm_token he h (hh hb')) ?_
  exact bodyPiece_bal (Bal.blanks hb') (calm_blanks hb') hy

theorem gives_indentedP (u : CharClass) : Gives (indentedP u) (StmtPiece u) := by
  unfold indentedP
  refine (gives_bind gives_space1 fun _ => gives_alt_cons (gives_assignP u) (gives_instr u)).imp ?_
  rintro st x ⟨_, b, y, rfl, hb, hy⟩
  rcases bodyPiece_bal (Bal.blanks hb) (calm_blanks hb) hy with ⟨h1, h2, h3, h4, h5⟩ | ⟨rfl, h⟩
  · exact ⟨h1, fun h => absurd h h2, fun h => absurd h h3, fun h => absurd h h4, fun _ _ => ⟨b, y, rfl, hb⟩, h5⟩
  · exact ⟨inLine_oneLine h.1, fun _ => h, by simp, by simp, fun _ _ => ⟨b, y, rfl, hb⟩, by simp⟩

theorem gives_commentP : Gives commentP (fun _ x => ∃ e, x = c!";" ++ e ∧ OneLine e) := by
  unfold commentP
  refine (gives_bind (gives_charP ';') fun _ => gives_notLineEnding).imp ?_
  rintro a x ⟨_, y, z, rfl, rfl, h⟩
  exact ⟨z, rfl, h⟩

theorem gives_stmtCommentP (u : CharClass) : Gives stmtCommentP (StmtPiece u) := by
  refine (takes_stmtCommentP.gives.and (gives_bind gives_commentP fun _ => gives_pure Stmt.comment)).imp ?_
  rintro st x ⟨h, _, y, z, rfl, hy, rfl, rfl⟩
  rw [List.append_nil] at h ⊢
  exact ⟨h, by simp, fun _ => hy, by simp, by simp, by simp⟩

theorem oneLine_append {x y : Str} (hx : OneLine x) (hy : OneLine y) : OneLine (x ++ y) := fun c hc => by
  rcases List.mem_append.1 hc with hc | hc
  · exact hx c hc
  · exact hy c hc

theorem oneLine_blanks {b : Str} (hb : Blanks b) : OneLine b := fun c hc => by
  rcases hb.2 c hc with rfl | rfl <;> decide

theorem gives_opt {p : P α} {Q : α → Str → Prop} (h : Gives p Q) :
    Gives (opt p) (fun o x => (o = none ∧ x = []) ∨ ∃ a, o = some a ∧ Q a x) := fun i r a ha => by
  unfold opt at ha
  cases hp : p i with
  | ok r' a' =>
    rw [hp] at ha
    injection ha with h1 h2
    subst h1
    obtain ⟨x, hx, hq⟩ := h i _ _ hp
    exact ⟨x, hx, .inr ⟨a', h2.symm, hq⟩⟩
  | error =>
    rw [hp] at ha
    injection ha with h1 h2
    exact ⟨[], by simpa using h1, .inl ⟨h2.symm, rfl⟩⟩
  | stuck => rw [hp] at ha; exact absurd ha (by simp)

theorem gives_labelP (u : CharClass) : Gives (labelP u) (StmtPiece u) := by
  have hl : Gives (alt [(do let _ ← identP u), (do let _ ← stringP), (do let _ ← digit1)])
      (fun _ x => LabelText u x) := by
    refine gives_alt_cons ?_ (gives_alt_cons ?_ (gives_alt_one ?_))
    · refine (gives_bind (gives_identP u) fun s => gives_pure ()).imp ?_
      rintro a x ⟨s, y, z, rfl, ⟨rfl, h⟩, _, rfl⟩
      exact .plain (by simpa using h)
    · refine (gives_bind gives_stringP fun s => gives_pure ()).imp ?_
      rintro a x ⟨s, y, z, rfl, ⟨rfl, h⟩, _, rfl⟩
      rw [List.append_nil]
      exact .quoted h
    · refine (gives_bind gives_digit1 fun s => gives_pure ()).imp ?_
      rintro a x ⟨s, y, z, rfl, ⟨rfl, h⟩, _, rfl⟩
      exact .number (by simpa using h)
  refine ((takes_labelP u).gives.and (gives_bind hl fun _ => gives_bind (gives_charP ':') fun _ =>
    gives_bind (gives_opt (gives_bind gives_space1 fun _ => gives_commentP)) fun _ =>
    gives_pure Stmt.label)).imp ?_
  rintro st x ⟨h, _, l, _, rfl, hl, _, c, _, rfl, rfl, _, e, _, rfl, he, rfl, rfl⟩
  refine ⟨h, by simp, by simp, fun _ => ⟨l, e, by simp, hl, ?_⟩, by simp, by simp⟩
  rcases he with ⟨_, rfl⟩ | ⟨_, _, _, b, _, rfl, hb, e', rfl, he'⟩
  · simp [OneLine]
  · exact oneLine_append (oneLine_blanks hb) (oneLine_append (by simp [OneLine]) he')

theorem gives_stmtP (u : CharClass) : Gives (stmtP u) (StmtPiece u) :=
  gives_alt_cons (gives_labelP u) <| gives_alt_cons (gives_stmtCommentP u) <|
  gives_alt_one (gives_indentedP u)

/-! ### Items -/

theorem gives_defineP (u : CharClass) : Gives (defineP u) (DefinePiece u) := by
  unfold defineP
  refine (gives_bind (gives_tag c!"define") fun _ =>
      gives_bind (takes_space1).gives fun _ => gives_bind (takes_attrsP u).gives fun _ =>
      gives_bind (takes_outputP u).gives fun out => gives_bind takes_space1.gives fun _ =>
      gives_bind (takes_functionP u).gives fun name => gives_bind (gives_charP '(') fun _ =>
      gives_bind (takes_sepList0 takes_commaP (takes_parameterP u)).gives fun ins =>
      gives_bind (gives_charP ')') fun _ =>
      gives_bind gives_notLineEnding fun _ => gives_bind gives_lineEnding fun _ =>
      gives_bind (gives_pieces (gives_stmtP u)) fun sts =>
      gives_bind (gives_opt gives_lineEnding) fun _ =>
      gives_bind (gives_tag c!"}") fun _ => gives_pure (⟨name, ⟨ins, out⟩, sts⟩ : Define)).imp ?_
  rintro d x ⟨_, _, _, rfl, rfl, _, b, _, rfl, hb, _, a, _, rfl, ha, out, o, _, rfl, ho, _, b', _, rfl, hb',
    name, n, _, rfl, hn, _, _, _, rfl, rfl, ins, ps, _, rfl, hps, _, _, _, rfl, rfl, _, e, _, rfl, he,
    _, l, _, rfl, hl, sts, s, _, rfl, hs, _, l', _, rfl, hl', _, _, _, rfl, rfl, rfl, rfl⟩
  have key : InLine (c!"define" ++ (b ++ (a ++ (o ++ (b' ++ (n ++ (['('] ++ (ps ++ ([')'] ++ e))))))))) := by
    refine inLine_append (bal_plain (by decide)) (inLine_append hb (inLine_append ha (inLine_append ho
      (inLine_append hb' (inLine_append hn (inLine_append (bal_plain (by decide)) (inLine_append hps
        (inLine_append (bal_plain (by decide)) (inLine_oneLine he)))))))))
  have := DefinePiece.mk (u := u) (d := ⟨name, ⟨ins, out⟩, sts⟩) key hl hs (l' := l') (by
    rcases hl' with ⟨_, h⟩ | ⟨_, _, h⟩
    · exact .inl h
    · exact .inr h)
  simpa using this

theorem gives_item {p : P Item} {Q : Item → Prop} (h : Takes p InLine) (hv : ∀ i r a, p i = .ok r a → Q a)
    (u : CharClass) (hq : ∀ d, ¬ Q (.define d)) : Gives p (ItemPiece u) := fun i r a ha => by
  obtain ⟨x, hx, hl⟩ := h i r a ha
  exact ⟨x, hx, .other (fun d hd => hq d (hd ▸ hv i r a ha)) hl⟩

/-- The result of a parser that ends with `pure`. -/
theorem bind_value {p : P α} {f : α → P β} {Q : β → Prop} (hf : ∀ a i r b, f a i = .ok r b → Q b) :
    ∀ i r b, (p >>= f) i = .ok r b → Q b := fun i r b h => by
  obtain ⟨r', a, _, h2⟩ := P.bind_eq_ok h
  exact hf a r' r b h2

theorem pure_value {a : α} {Q : α → Prop} (h : Q a) : ∀ i r b, (Pure.pure a : P α) i = .ok r b → Q b :=
  fun i r b hb => by
    rw [P.pure_eq] at hb
    injection hb with _ hb
    exact hb ▸ h

/-- Not a definition. -/
def NotDefine : Item → Prop
  | .define _ => False
  | _ => True

/-- The result of a parser is what its last `pure` says. -/
macro "value" : tactic => `(tactic| (
  repeat (with_reducible refine bind_value fun _ => ?_)
  exact pure_value trivial))

theorem takes_declareRestP (u : CharClass) (o : Option Ty) (name : Str) :
    Takes (declareRestP u o name) InLine := by
  have h : Takes (declParamP u) Bal := by unfold declParamP; takes
  unfold declareRestP
  split <;> takes

theorem value_declareRestP (u : CharClass) (o : Option Ty) (name : Str) :
    ∀ i r a, declareRestP u o name i = .ok r a → NotDefine a := by
  unfold declareRestP
  split <;> value

theorem gives_itemP (u : CharClass) : Gives (itemP u) (ItemPiece u) := by
  unfold itemP
  refine gives_alt_cons ?_ <| gives_alt_cons ?_ <| gives_alt_cons ?_ <| gives_alt_cons ?_ <|
    gives_alt_cons ?_ <| gives_alt_cons ?_ <| gives_alt_cons ?_ <| gives_alt_cons ?_ <|
    gives_alt_cons ?_ <| gives_alt_cons ?_ <| gives_alt_one ?_
  · exact gives_item (Q := NotDefine) (by unfold itemCommentP; takes) (by unfold itemCommentP; value) u (by simp [NotDefine])
  · exact gives_item (Q := NotDefine) (by unfold sourceFilenameP; takes) (by unfold sourceFilenameP; value) u (by simp [NotDefine])
  · exact gives_item (Q := NotDefine) (by unfold targetP; takes) (by unfold targetP; value) u (by simp [NotDefine])
  · exact gives_item (Q := NotDefine) (by unfold itemTypeP; takes) (by unfold itemTypeP; value) u (by simp [NotDefine])
  · exact gives_item (Q := NotDefine) (by unfold itemGlobalP; takes) (by unfold itemGlobalP; value) u (by simp [NotDefine])
  · exact gives_item (Q := NotDefine) (by unfold itemAliasP; takes) (by unfold itemAliasP; value) u (by simp [NotDefine])
  · refine (gives_bind (gives_defineP u) fun d => gives_pure (Item.define d)).imp ?_
    rintro it x ⟨d, y, z, rfl, hd, rfl, rfl⟩
    rw [List.append_nil]
    exact .define hd
  · refine gives_item (Q := NotDefine) ?_ ?_ u (by simp [NotDefine])
    · have := takes_declareRestP u
      unfold declareP
      exact takes_bind_line (by takes) fun _ => takes_bind_line (by takes) fun _ =>
        takes_bind_line (by takes) fun _ => takes_bind_line (by takes) fun o =>
        takes_bind_line (by takes) fun _ => takes_bind_line (by takes) fun n =>
        takes_bind_line (by takes) fun _ => this o n
    · unfold declareP
      repeat (with_reducible refine bind_value fun _ => ?_)
      exact value_declareRestP u _ _
  · exact gives_item (Q := NotDefine) (by unfold attributesP; takes) (by unfold attributesP; value) u (by simp [NotDefine])
  · exact gives_item (Q := NotDefine) (by unfold metadataP; takes) (by unfold metadataP; value) u (by simp [NotDefine])
  · exact gives_item (Q := NotDefine) (by unfold moduleAsmP; takes) (by unfold moduleAsmP; value) u (by simp [NotDefine])

theorem parseIr_pieces {u : CharClass} {ll : Str} {items : List Item} (h : parseIr u ll = .ok items) :
    FilePiece u items ll := by
  unfold parseIr at h
  cases hi : itemsP u ll with
  | ok items' =>
    rw [hi] at h
    injection h with h
    subst h
    unfold itemsP at hi
    cases hs : sepList0 (many1 lineEnding) (itemP u) ll with
    | error => rw [hs] at hi; simp at hi
    | stuck => rw [hs] at hi; simp at hi
    | ok r as =>
      rw [hs] at hi
      simp only at hi
      have hm : ∃ a, many0 lineEnding r = .ok [] a ∧ as = items' := by
        cases hm : many0 lineEnding r with
        | error => rw [hm] at hi; simp at hi
        | stuck => rw [hm] at hi; simp at hi
        | ok r' a =>
          rw [hm] at hi
          cases r' with
          | nil => exact ⟨a, rfl, by simpa using hi⟩
          | cons c r' => simp at hi
      obtain ⟨a, hm, rfl⟩ := hm
      obtain ⟨e, he, he'⟩ := many0F_eols _ _ _ _ hm
      rw [List.append_nil] at he
      subst he
      unfold sepList0 at hs
      split at hs
      · injection hs with h1 h2
        subst h1 h2
        exact .empty he'
      · obtain ⟨x, rfl, hx⟩ := gives_pieces (gives_itemP u) ll r as hs
        exact .items hx he'
  | failure rest =>
    rw [hi] at h
    simp only at h
    split at h <;> exact absurd h (by simp)
  | stuck => rw [hi] at h; exact absurd h (by simp)

end CallStack
