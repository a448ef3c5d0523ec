import Verif.Proof.IrModule
import Verif.Proof.IrWF

/-!
What the parsers of LLVM-IR accept is written in the grammar: types, attributes, constants and arguments.
-/

namespace CallStack

variable {α β : Type}

/-! ### Lists -/

theorem gives_commaP : Gives commaP (fun _ x => ∃ b, x = c!"," ++ b ∧ Blanks b) := by
  refine (gives_bind (gives_charP ',') fun _ => gives_space1).imp ?_
  rintro a x ⟨_, y, z, rfl, rfl, h⟩
  exact ⟨z, rfl, h⟩

theorem sepLoopF_list {p : P Ty} {Q : Ty → Str → Prop} (h : Gives p Q) (n : Nat) :
    ∀ i r as, sepLoopF commaP p n i = .ok r as →
      ∃ x, i = x ++ r ∧ (as = [] ∧ x = [] ∨
        ∃ a as' b y, as = a :: as' ∧ x = c!"," ++ (b ++ y) ∧ Blanks b ∧ ListText Q (a :: as') y) := by
  induction n using Nat.strongRecOn with
  | ind n ih =>
    intro i r as ha
    obtain ⟨x, rfl, hx⟩ := gives_sepLoopF gives_commaP h n i r as ha
    rcases hx with hx | ⟨r', a, as', e, y, z, rfl, rfl, ⟨b, rfl, hb⟩, hy, rfl, m, hm, hl⟩
    · exact ⟨x, rfl, .inl hx⟩
    · obtain ⟨w, hw, hx⟩ := ih m hm _ r as' hl
      have hw := List.append_cancel_right hw
      subst hw
      refine ⟨_, rfl, .inr ⟨a, as', b, y ++ z, rfl, by simp, hb, ?_⟩⟩
      rcases hx with ⟨rfl, rfl⟩ | ⟨a', as', b', y', rfl, rfl, hb', hp⟩
      · rw [List.append_nil]; exact .one hy
      · exact .cons hy hb' hp

theorem gives_list {p : P Ty} {Q : Ty → Str → Prop} (h : Gives p Q) :
    Gives (sepList0 commaP p) (ListText Q) := fun i r as ha => by
  unfold sepList0 at ha
  cases hs : sepList1 commaP p i with
  | stuck => rw [hs] at ha; exact absurd ha (by simp)
  | error =>
    rw [hs] at ha
    injection ha with h1 h2
    subst h1 h2
    exact ⟨[], rfl, .nil⟩
  | ok r1 as1 =>
    rw [hs] at ha
    injection ha with h1 h2
    subst h1 h2
    obtain ⟨r', a, as', h1, h2, rfl⟩ := sepList1_eq_ok hs
    obtain ⟨x, rfl, hx⟩ := h i r' a h1
    obtain ⟨y, rfl, hy⟩ := sepLoopF_list h _ r' _ _ h2
    refine ⟨x ++ y, by simp, ?_⟩
    rcases hy with ⟨rfl, rfl⟩ | ⟨a', as', b, z, rfl, rfl, hb, hp⟩
    · rw [List.append_nil]; exact .one hx
    · exact .cons hx hb hp

theorem ListText.tys {u : CharClass} {ts : List Ty} {s : Str} (h : ListText (TyText u) ts s) :
    TysText u ts s := by
  induction h with
  | nil => exact .nil
  | one h => exact .one h
  | cons h hb _ ih => exact .cons h hb ih

theorem many0F_texts {p : P α} {Q T : Str → Prop} (h : Gives p (fun _ x => Q x)) (h0 : T [])
    (h1 : ∀ x y, Q x → T y → T (x ++ y)) (n : Nat) : ∀ i r a, many0F p n i = .ok r a →
      ∃ x, i = x ++ r ∧ T x := by
  induction n with
  | zero => intro i r a ha; simp [many0F] at ha
  | succ n ih =>
    intro i r a ha
    unfold many0F at ha
    cases hp : p i with
    | stuck => rw [hp] at ha; simp at ha
    | error =>
      rw [hp] at ha
      injection ha with h1 _
      exact ⟨[], by simpa using h1, h0⟩
    | ok r' a' =>
      rw [hp] at ha
      simp only at ha
      split at ha
      · cases hm : many0F p n r' with
        | stuck => rw [hm] at ha; simp at ha
        | error => rw [hm] at ha; simp at ha
        | ok r2 as =>
          rw [hm] at ha
          injection ha with h2 _
          subst h2
          obtain ⟨x, rfl, hx⟩ := h i r' a' hp
          obtain ⟨y, rfl, hy⟩ := ih r' _ _ hm
          exact ⟨x ++ y, by simp, h1 x y hx hy⟩
      · simp at ha

theorem gives_many0 {p : P α} {Q T : Str → Prop} (h : Gives p (fun _ x => Q x)) (h0 : T [])
    (h1 : ∀ x y, Q x → T y → T (x ++ y)) : Gives (many0 p) (fun _ x => T x) :=
  fun i r a ha => many0F_texts h h0 h1 _ i r a ha

theorem gives_space0 : Gives space0 (fun _ x => OptBlanks x) := fun i r a h => by
  unfold space0 at h
  injection h with h _
  refine ⟨(spanP isSpace i).1, ?_, fun c hc => ?_⟩
  · rw [← h]; exact (spanP_append isSpace i).symm
  · exact (isSpace_iff c).1 (spanP_fst isSpace i c hc)

/-! ### Types -/

theorem gives_usizeP : Gives usizeP (fun n x => n < 2 ^ 64 ∧ IsDecimal x n) := fun i r n h => by
  unfold usizeP mapRes at h
  obtain ⟨r1, ds, h1, h⟩ := P.bind_eq_ok h
  obtain ⟨x, rfl, rfl, hd⟩ := gives_digit1 i r1 ds h1
  cases hp : parseU64 x with
  | none => simp only [hp] at h; exact absurd h (by simp [P.fail])
  | some m =>
    simp only [hp] at h
    rw [P.pure_eq] at h
    injection h with h h'
    subst h h'
    obtain ⟨h1, h2⟩ := (parseU64_iff x m).1 hp
    refine ⟨x, rfl, h1, ?_⟩
    rcases h2 with h2 | ⟨t, rfl, _⟩
    · exact h2
    · exact absurd (hd.2 '+' (by simp)) (by decide)

theorem gives_delimited {o c : Char} {p : P α} {Q : α → Str → Prop} (h : Gives p Q) :
    Gives (delimited (charP o) p (charP c)) (fun a x => ∃ y, x = [o] ++ (y ++ [c]) ∧ Q a y) := by
  unfold delimited
  refine (gives_bind (gives_charP o) fun _ => gives_bind h fun a => gives_bind (gives_charP c) fun _ =>
    gives_pure a).imp ?_
  rintro a x ⟨_, y, z, rfl, rfl, a', y', z', rfl, hq, _, y2, z2, rfl, rfl, rfl, rfl⟩
  exact ⟨y', by simp, hq⟩

theorem gives_counted {ty : P Ty} {Q : Ty → Str → Prop} {mk : Nat → Ty → Ty} (h : Gives ty Q) :
    Gives (countedP ty mk) (fun t' x => ∃ n t ds b b' s, t' = mk n t ∧ x = ds ++ (b ++ (c!"x" ++ (b' ++ s))) ∧
      n < 2 ^ 64 ∧ IsDecimal ds n ∧ Blanks b ∧ Blanks b' ∧ Q t s) := by
  unfold countedP
  refine (gives_bind gives_usizeP fun n => gives_bind gives_space1 fun _ => gives_bind (gives_charP 'x') fun _ =>
    gives_bind gives_space1 fun _ => gives_bind h fun t => gives_pure (mk n t)).imp ?_
  rintro a x ⟨n, ds, _, rfl, ⟨hn, hd⟩, _, b, _, rfl, hb, _, _, _, rfl, rfl, _, b', _, rfl, hb', t, s, _, rfl, hs,
    rfl, rfl⟩
  exact ⟨n, t, ds, b, b', s, rfl, by simp, hn, hd, hb, hb', hs⟩

theorem gives_fieldsP {u : CharClass} {ty : P Ty} (h : Gives ty (TyText u)) :
    Gives (fieldsP ty) (fun ts x => ∃ b s b', x = c!"{" ++ (b ++ (s ++ (b' ++ c!"}"))) ∧ OptBlanks b ∧
      OptBlanks b' ∧ TysText u ts s) := by
  unfold fieldsP
  refine (gives_bind (gives_charP '{') fun _ => gives_bind gives_space0 fun _ => gives_bind (gives_list h) fun ts =>
    gives_bind gives_space0 fun _ => gives_bind (gives_charP '}') fun _ => gives_pure ts).imp ?_
  rintro a x ⟨_, _, _, rfl, rfl, _, b, _, rfl, hb, ts, s, _, rfl, hs, _, b', _, rfl, hb', _, _, _, rfl, rfl, rfl, rfl⟩
  exact ⟨b, s, b', by simp, hb, hb', hs.tys⟩

theorem gives_fnInputsP {u : CharClass} {ty : P Ty} (h : Gives ty (TyText u)) :
    Gives (fnInputsP ty) (fun ts x => ∃ b s, x = c!"(" ++ (b ++ (s ++ c!")")) ∧ OptBlanks b ∧
      TysText u ts s) := by
  unfold fnInputsP
  refine (gives_bind (gives_charP '(') fun _ => gives_bind gives_space0 fun _ => gives_bind (gives_list h) fun ts =>
    gives_bind (gives_charP ')') fun _ => gives_pure ts).imp ?_
  rintro a x ⟨_, _, _, rfl, rfl, _, b, _, rfl, hb, ts, s, _, rfl, hs, _, _, _, rfl, rfl, rfl, rfl⟩
  exact ⟨b, s, by simp, hb, hs.tys⟩

theorem gives_starsP (u : CharClass) : ∀ (i r : Str) (t t' : Ty), starsP t i = .ok r t' →
    ∃ x, i = x ++ r ∧ (∀ s, TyText u t s → TyText u t' (s ++ x)) ∧ (¬ t.VoidFn → ¬ t'.VoidFn) := by
  intro i
  induction i with
  | nil =>
    intro r t t' h
    simp only [starsP] at h
    injection h with h h'
    subst h h'
    exact ⟨[], rfl, fun s hs => by simpa using hs, id⟩
  | cons c i ih =>
    intro r t t' h
    by_cases hc : c = '*'
    · subst hc
      rw [starsP_star] at h
      obtain ⟨x, rfl, h1, h2⟩ := ih r _ t' h
      refine ⟨'*' :: x, rfl, fun s hs => ?_, fun hv => h2 ?_⟩
      · have := h1 _ (.pointer hs)
        simpa using this
      · rintro (⟨⟩ | ⟨hv'⟩)
        exact hv hv'
    · rw [starsP_stop (by simpa using hc)] at h
      injection h with h h'
      subst h h'
      exact ⟨[], rfl, fun s hs => by simpa using hs, id⟩

theorem gives_fnLoopF {u : CharClass} {ty : P Ty} (h : Gives ty (TyText u)) (n : Nat) :
    ∀ (i r : Str) (t t' : Ty), fnLoopF ty n t i = .ok r t' → ¬ t.VoidFn →
      ∃ x, i = x ++ r ∧ ∀ s, TyText u t s → TyText u t' (s ++ x) := by
  induction n with
  | zero => intro i r t t' ha; exact absurd ha (by simp [fnLoopF])
  | succ n ih =>
    intro i r t t' ha ht
    unfold fnLoopF at ha
    cases ho : opt (fnTailP ty) i with
    | error => rw [ho] at ha; exact absurd ha (by simp)
    | stuck => rw [ho] at ha; exact absurd ha (by simp)
    | ok r1 o =>
      rw [ho] at ha
      cases o with
      | none =>
        injection ha with h1 h2
        subst h1 h2
        exact ⟨[], rfl, fun s hs => by simpa using hs⟩
      | some ts =>
        simp only at ha
        obtain ⟨x, rfl, hx⟩ := gives_opt (gives_bind gives_space1 fun _ => gives_fnInputsP h) i r1 _ ho
        rcases hx with ⟨hx, _⟩ | ⟨ts', hts, _, b, _, rfl, hb, b', s', rfl, hb', hs'⟩
        · exact absurd hx (by simp)
        · injection hts with hts
          subst hts
          cases hs : starsP (.fn ts (some t)) r1 with
          | error => rw [hs] at ha; exact absurd ha (by simp)
          | stuck => rw [hs] at ha; exact absurd ha (by simp)
          | ok r2 t2 =>
            rw [hs] at ha
            obtain ⟨y, rfl, hy, hv⟩ := gives_starsP u _ _ _ _ hs
            obtain ⟨z, rfl, hz⟩ := ih _ _ _ _ ha (hv (by rintro ⟨⟩))
            refine ⟨b ++ (c!"(" ++ (b' ++ (s' ++ c!")"))) ++ (y ++ z), by simp, fun s hs => ?_⟩
            have := hz _ (hy _ (.fn hs ht hb hb' hs'))
            simpa only [List.append_assoc] using this

theorem gives_baseP (u : CharClass) {ty : P Ty} (h : Gives ty (TyText u)) :
    Gives (baseP u ty) (fun t x => TyText u t x ∧ ¬ t.VoidFn) := by
  refine gives_alt_cons ?_ <| gives_alt_cons ?_ <| gives_alt_cons ?_ <| gives_alt_cons ?_ <|
    gives_alt_cons ?_ <| gives_alt_cons ?_ <| gives_alt_cons ?_ <| gives_alt_cons ?_ <|
    gives_alt_cons ?_ <| gives_alt_one ?_
  · refine (gives_delimited (gives_counted h)).imp ?_
    rintro a x ⟨y, rfl, n, t, ds, b, b', s, rfl, rfl, hn, hd, hb, hb', hs⟩
    refine ⟨?_, by rintro ⟨⟩⟩
    simpa only [List.append_assoc] using TyText.array hn hd hb hb' hs
  · unfold packedStructP
    refine (gives_bind (gives_charP '<') fun _ => gives_bind (gives_fieldsP h) fun ts =>
      gives_bind (gives_charP '>') fun _ => gives_pure (Ty.packedStruct ts)).imp ?_
    rintro a x ⟨_, _, _, rfl, rfl, ts, _, _, rfl, ⟨b, s, b', rfl, hb, hb', hs⟩, _, _, _, rfl, rfl, rfl, rfl⟩
    refine ⟨?_, by rintro ⟨⟩⟩
    simpa using TyText.packedStruct hb hb' hs
  · unfold structP
    refine (gives_bind (gives_fieldsP h) fun ts => gives_pure (Ty.struct ts)).imp ?_
    rintro a x ⟨ts, _, _, rfl, ⟨b, s, b', rfl, hb, hb', hs⟩, rfl, rfl⟩
    refine ⟨?_, by rintro ⟨⟩⟩
    simpa using TyText.struct hb hb' hs
  · unfold tyAliasP aliasP
    refine (gives_bind (gives_bind (gives_charP '%') fun _ => gives_nameP u) fun n =>
      gives_pure (Ty.alias n)).imp ?_
    rintro a x ⟨n, _, _, rfl, ⟨_, _, _, rfl, rfl, hn⟩, rfl, rfl⟩
    refine ⟨?_, by rintro ⟨⟩⟩
    simpa using TyText.alias hn
  · refine (gives_bind (gives_tag _) fun _ => gives_pure Ty.double).imp ?_
    rintro a x ⟨_, _, _, rfl, rfl, rfl, rfl⟩
    exact ⟨.double, by rintro ⟨⟩⟩
  · refine (gives_bind (gives_tag _) fun _ => gives_pure Ty.float).imp ?_
    rintro a x ⟨_, _, _, rfl, rfl, rfl, rfl⟩
    exact ⟨.float, by rintro ⟨⟩⟩
  · refine (gives_bind (gives_tag _) fun _ => gives_pure Ty.opaquePointer).imp ?_
    rintro a x ⟨_, _, _, rfl, rfl, rfl, rfl⟩
    exact ⟨.opaquePointer, by rintro ⟨⟩⟩
  · unfold integerP
    refine (gives_bind (gives_charP 'i') fun _ => gives_bind gives_usizeP fun n =>
      gives_pure (Ty.integer n)).imp ?_
    rintro a x ⟨_, _, _, rfl, rfl, n, ds, _, rfl, ⟨hn, hd⟩, rfl, rfl⟩
    refine ⟨?_, by rintro ⟨⟩⟩
    simpa using TyText.integer hn hd
  · refine (gives_bind (gives_tag _) fun _ => gives_pure Ty.varargs).imp ?_
    rintro a x ⟨_, _, _, rfl, rfl, rfl, rfl⟩
    exact ⟨.varargs, by rintro ⟨⟩⟩
  · refine (gives_delimited (gives_counted h)).imp ?_
    rintro a x ⟨y, rfl, n, t, ds, b, b', s, rfl, rfl, hn, hd, hb, hb', hs⟩
    refine ⟨?_, by rintro ⟨⟩⟩
    simpa only [List.append_assoc] using TyText.mvtVector hn hd hb hb' hs

theorem gives_typeF (u : CharClass) (n : Nat) : Gives (typeF u n) (TyText u) := by
  induction n with
  | zero => intro i r a h; simp [typeF] at h
  | succ n ih =>
    intro i r t h0
    obtain ⟨r1, o, h1, h⟩ := P.bind_eq_ok h0
    clear h0
    obtain ⟨x, rfl, hx⟩ := gives_opt (gives_tag c!"void") i r1 o h1
    cases o with
    | some a =>
      rcases hx with ⟨hx, _⟩ | ⟨_, _, rfl⟩
      · exact absurd hx (by simp)
      · obtain ⟨r2, _, h2, h⟩ := P.bind_eq_ok h
        obtain ⟨r3, ts, h3, h4⟩ := P.bind_eq_ok h
        clear h
        obtain ⟨b, rfl, hb⟩ := gives_space1 _ _ _ h2
        obtain ⟨_, rfl, b', s, rfl, hb', hs⟩ := gives_fnInputsP ih _ _ _ h3
        obtain ⟨y, rfl, hy, _⟩ := gives_starsP u _ _ _ _ h4
        refine ⟨_, ?_, hy _ (.voidFn hb hb' hs)⟩
        simp
    | none =>
      rcases hx with ⟨_, rfl⟩ | ⟨_, hx, _⟩
      · obtain ⟨r2, t1, h2, h⟩ := P.bind_eq_ok h
        obtain ⟨r3, t2, h3, h4⟩ := P.bind_eq_ok h
        clear h
        obtain ⟨x, rfl, hx, hv⟩ := gives_baseP u ih _ _ _ h2
        obtain ⟨y, rfl, hy, hv'⟩ := gives_starsP u _ _ _ _ h3
        obtain ⟨z, rfl, hz⟩ := gives_fnLoopF ih _ _ _ _ _ h4 (hv' hv)
        exact ⟨_, by simp, hz _ (hy _ hx)⟩
      · exact absurd hx (by simp)

theorem gives_typeP (u : CharClass) : Gives (typeP u) (TyText u) := fun i r a h =>
  gives_typeF u (i.length + 1) i r a h

theorem gives_outputP (u : CharClass) : Gives (outputP u) (OutText u) := by
  refine gives_alt_cons ?_ (gives_alt_one ?_)
  · refine (gives_bind (gives_typeP u) fun t => gives_pure (some t)).imp ?_
    rintro a x ⟨t, s, _, rfl, hs, rfl, rfl⟩
    simpa using OutText.some hs
  · refine (gives_bind (gives_tag c!"void") fun _ => gives_pure none).imp ?_
    rintro a x ⟨_, _, _, rfl, rfl, rfl, rfl⟩
    exact .void

end CallStack
