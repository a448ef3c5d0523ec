import Verif.Proof.ReportIr

/-! Lemmas for C114: panics in the pass over the machine code. -/

namespace CallStack

/-! ### Decoding -/

section thumb

variable {search : TagSearch} {address : Nat} {v7 : Bool} {tags : List (Nat × Tag)} {len : Nat}

theorem tagReport_error {a : Nat} {rep : Report} (h : tagReport search tags a = .error rep) :
    ∃ k b, tags[k]? = some (a, .data) ∧ tags[k + 1]? = some (b, .data) ∧ rep = .tag b := by
  unfold tagReport at h
  cases hf : search.find tags a with
  | none => rw [hf] at h; cases h
  | some k =>
    rw [hf] at h
    obtain ⟨t, ht⟩ := search.sound _ _ _ hf
    simp only [ht] at h
    cases t with
    | thumb => cases h
    | data =>
      simp only at h
      rcases hn : tags[k + 1]? with _ | ⟨b, _ | _⟩ <;> rw [hn] at h <;> cases h
      exact ⟨k, b, ht, hn, rfl⟩

theorem tagReport_code {a : Nat} (sorted : tags.Pairwise (fun x y => x.1 ≤ y.1))
    (h : tagReport search tags a = .ok .code) : (a, Tag.data) ∉ tags ∨ (a, Tag.thumb) ∈ tags := by
  unfold tagReport at h
  cases hf : search.find tags a with
  | none => exact .inl fun hm => search.complete _ _ sorted hf _ hm rfl
  | some k =>
    rw [hf] at h
    obtain ⟨t, ht⟩ := search.sound _ _ _ hf
    simp only [ht] at h
    cases t with
    | thumb => exact .inr (List.mem_of_getElem? ht)
    | data =>
      simp only at h
      rcases hn : tags[k + 1]? with _ | ⟨b, _ | _⟩ <;> rw [hn] at h <;> cases h

/-- Where decoding ends with a panic. -/
def ThumbFails (search : TagSearch) (address : Nat) (v7 : Bool) (tags : List (Nat × Tag)) (i : Nat) (l : List Half)
    (rep : Report) : Prop :=
  (∃ pre first, l = pre ++ [first] ∧ rep = .instruction first ∧ decode16 v7 first = none ∧
    tagReport search tags (address + 2 * (i + pre.length)) = .ok .code) ∨
  (∃ pre x post, l = pre ++ x :: post ∧ tagReport search tags (address + 2 * (i + pre.length)) = .error rep)

theorem ThumbFails.append {i : Nat} {l : List Half} {rep : Report} (pre : List Half)
    (h : ThumbFails search address v7 tags (i + pre.length) l rep) :
    ThumbFails search address v7 tags i (pre ++ l) rep := by
  rcases h with ⟨pre', f, rfl, h1, h2, h3⟩ | ⟨pre', x, post, rfl, h1⟩
  · refine .inl ⟨pre ++ pre', f, by simp, h1, h2, ?_⟩
    rw [← h3]
    congr 2
    simp only [List.length_append]
    omega
  · refine .inr ⟨pre ++ pre', x, post, by simp, ?_⟩
    rw [← h1]
    congr 2
    simp only [List.length_append]
    omega

theorem thumbLoopReport_error (n : Nat) : ∀ (l : List Half), l.length ≤ n → ∀ (skip i : Nat) (st : ThumbState)
    {rep : Report}, thumbLoopReport search address v7 tags len skip i l st = .error rep →
    ThumbFails search address v7 tags i l rep := by
  induction n with
  | zero =>
    intro l hl skip i st rep h
    obtain rfl := List.length_eq_zero_iff.mp (Nat.le_zero.mp hl)
    cases skip <;> cases h
  | succ n ih =>
    intro l hl skip i st rep h
    cases l with
    | nil => cases skip <;> cases h
    | cons first rest =>
      have hr : rest.length ≤ n := by simpa using hl
      cases skip with
      | succ skip => exact (ih rest hr skip (i + 1) st h).append [first]
      | zero =>
        rw [thumbLoopReport.eq_def] at h
        simp only at h
        generalize ht : tagReport search tags (address + 2 * i) = t at h
        rcases t with e | (_ | k | _)
        · cases h
          exact .inr ⟨[], first, rest, rfl, ht⟩
        · simp only at h
          cases hd : decode16 v7 first with
          | some act => rw [hd] at h; exact (ih rest hr 0 (i + 1) _ h).append [first]
          | none =>
            rw [hd] at h
            cases rest with
            | nil =>
              cases h
              exact .inl ⟨[], first, rfl, rfl, hd, ht⟩
            | cons second rest =>
              exact (ih rest (by simp at hr; omega) 0 (i + 2) _ h).append [first, second]
        · exact (ih rest hr k (i + 1) st h).append [first]
        · cases h

/-- A figure other than 0 comes with a note that SP is modified. -/
theorem thumbLoopReport_sp (n : Nat) : ∀ (l : List Half), l.length ≤ n → ∀ (skip i : Nat) (st : ThumbState)
    {r : ThumbState}, (∀ k, st.stack = some k → k ≠ 0 → st.modifiesSp = true) →
    thumbLoopReport search address v7 tags len skip i l st = .ok r →
    ∀ k, r.stack = some k → k ≠ 0 → r.modifiesSp = true := by
  have hsub : ∀ (st : ThumbState) (m : Nat), ∀ k, (st.subSp m).stack = some k → k ≠ 0 →
      (st.subSp m).modifiesSp = true := fun st m k _ _ => rfl
  have hbr : ∀ (st : ThumbState) (off : Int), (∀ k, st.stack = some k → k ≠ 0 → st.modifiesSp = true) →
      ∀ k, (st.branch len off).stack = some k → k ≠ 0 → (st.branch len off).modifiesSp = true := by
    intro st off hst k hk hk0
    simp only [ThumbState.branch] at hk ⊢
    split at hk
    · cases hk
    · exact hst k hk hk0
  have h16 : ∀ (i : Nat) (first : Half) (st : ThumbState) (act : Act16),
      (∀ k, st.stack = some k → k ≠ 0 → st.modifiesSp = true) →
      ∀ k, (step16 len i first st act).stack = some k → k ≠ 0 → (step16 len i first st act).modifiesSp = true := by
    intro i first st act hst
    cases act with
    | skip => exact hst
    | bT1 => exact hbr st _ hst
    | bT2 => exact hbr st _ hst
    | blx => exact hst
    | bx => simp only [step16]; split <;> exact hst
    | push => exact hsub st _
    | subSp => exact hsub st _
  have h32 : ∀ (i : Nat) (first second : Half) (st : ThumbState) (act : Act32),
      (∀ k, st.stack = some k → k ≠ 0 → st.modifiesSp = true) →
      ∀ k, (step32 len i first second st act).stack = some k → k ≠ 0 →
        (step32 len i first second st act).modifiesSp = true := by
    intro i first second st act hst
    cases act with
    | stmdb => simp only [step32]; split; exacts [hsub st _, hst]
    | subW => simp only [step32]; split; exacts [hsub st _, hst]
    | vpush => exact hsub st _
    | bT3 => simp only [step32]; split; exacts [hst, hbr st _ hst]
    | bT4 => exact hbr st _ hst
    | bl => exact hst
    | strT4 => simp only [step32]; split; exacts [hsub st _, hst]
    | other => exact hst
  induction n with
  | zero =>
    intro l hl skip i st r hst h
    obtain rfl := List.length_eq_zero_iff.mp (Nat.le_zero.mp hl)
    cases skip <;> cases h <;> exact hst
  | succ n ih =>
    intro l hl skip i st r hst h
    cases l with
    | nil => cases skip <;> cases h <;> exact hst
    | cons first rest =>
      have hr : rest.length ≤ n := by simpa using hl
      cases skip with
      | succ skip => exact ih rest hr skip (i + 1) st hst h
      | zero =>
        rw [thumbLoopReport.eq_def] at h
        simp only at h
        generalize ht : tagReport search tags (address + 2 * i) = t at h
        rcases t with e | (_ | k | _)
        · cases h
        · simp only at h
          cases hd : decode16 v7 first with
          | some act => rw [hd] at h; exact ih rest hr 0 (i + 1) _ (h16 i first st act hst) h
          | none =>
            rw [hd] at h
            cases rest with
            | nil => cases h
            | cons second rest =>
              exact ih rest (by simp at hr; omega) 0 (i + 2) _ (h32 i first second st _ hst) h
        · exact ih rest hr k (i + 1) st hst h
        · cases h; exact hst

theorem thumbReport_sp {bytes : List Nat} {r : ThumbState}
    (h : thumbReport search bytes address v7 tags = .ok r) :
    ∀ k, r.stack = some k → k ≠ 0 → r.modifiesSp = true :=
  thumbLoopReport_sp _ _ (Nat.le_refl _) 0 0 _ (fun k hk hk0 => by
    simp only [ThumbState.init, Option.some.injEq] at hk
    omega) h

end thumb

theorem chunks2_last : ∀ (bytes : List Nat) {pre : List Half} {lo hi : Nat}, chunks2 bytes = pre ++ [(lo, hi)] →
    ∃ code tail, bytes = code ++ lo :: hi :: tail ∧ code.length = 2 * pre.length ∧ tail.length ≤ 1
  | [], pre, lo, hi, h => by cases pre <;> cases h
  | [_], pre, lo, hi, h => by cases pre <;> cases h
  | a :: b :: rest, [], lo, hi, h => by
    simp only [chunks2, List.nil_append, List.cons.injEq, Prod.mk.injEq] at h
    obtain ⟨⟨rfl, rfl⟩, h⟩ := h
    refine ⟨[], rest, rfl, rfl, ?_⟩
    rcases rest with _ | ⟨_, _ | _⟩
    · simp
    · simp
    · cases h
  | a :: b :: rest, x :: pre, lo, hi, h => by
    simp only [chunks2, List.cons_append, List.cons.injEq] at h
    obtain ⟨code, tail, rfl, h1, h2⟩ := chunks2_last rest h.2
    exact ⟨a :: b :: code, tail, rfl, by simp [h1]; omega, h2⟩

/-! ### Which symbol -/

/-- The pass stops at one of the symbols; up to there the node of this symbol has not changed. -/
theorem machineLoopReport_error {m : Nat} {st0 : Build} {search : TagSearch} {v7 : Bool}
    {tags : List (Nat × Tag)} {stext : Nat} {text : List Nat}
    (hidx : ∀ (n : Str) (k : Nat), mget n st0.indices = some k → k < m) {rep : Report} (es : List (Nat × Sym)) :
    ∀ {st : Build}, MachineInv m st0 st →
      es.Pairwise (fun e e' => ∀ c i c' i', NodeOf st0 e c i → NodeOf st0 e' c' i' → i ≠ i') →
      machineLoopReport search v7 tags stext text st es = .error rep →
      ∃ e ∈ es, ∃ st', MachineInv m st0 st' ∧ machineStepReport search v7 tags stext text st' e = .error rep ∧
        ∀ c i, NodeOf st0 e c i → i < st.g.nodes.length → st'.g.nodes[i]? = st.g.nodes[i]? := by
  induction es with
  | nil => intro st _ _ h; cases h
  | cons e es ih =>
    intro st inv hp h
    rw [List.pairwise_cons] at hp
    simp only [machineLoopReport] at h
    cases hs : machineStepReport search v7 tags stext text st e with
    | error err =>
      rw [hs] at h
      cases h
      exact ⟨e, List.mem_cons_self, st, inv, hs, fun _ _ _ _ => rfl⟩
    | ok st1 =>
      rw [hs] at h
      have hs' : machineStep search v7 tags stext text st e = .ok st1 := by
        rw [← erase_machineStep, hs]
        rfl
      obtain ⟨inv1, c, i, r, n1, _, hu⟩ := machineStep_spec inv hidx hs'
      obtain ⟨e', he', st', inv', h1, h2⟩ := ih inv1 hp.2 h
      refine ⟨e', List.mem_cons_of_mem _ he', st', inv', h1, fun c' i' hn hlt => ?_⟩
      have hne : i ≠ i' := hp.1 e' he' c i c' i' n1 hn
      have ho := hu.other i' (Ne.symm hne) hlt
      have hlt1 : i' < st1.g.nodes.length := by
        rw [List.getElem?_eq_getElem hlt] at ho
        exact (List.getElem?_eq_some_iff.mp ho).1
      rw [h2 c' i' hn hlt1]
      exact ho

theorem callAddrs_error (caller : Nat) {e : Panic} (addrs : List Nat) : ∀ {st : Build},
    (∀ a name, mget a st.addr2name = some name → mget name st.indices ≠ none) →
    callAddrs caller st addrs = .error e →
    ∃ a ∈ addrs, mget a st.addr2name = none ∧ e = .noSymbolAt a := by
  induction addrs with
  | nil => intro st _ h; cases h
  | cons a addrs ih =>
    intro st hst h
    simp only [callAddrs] at h
    cases hc : callAddr caller st a with
    | error e' =>
      rw [hc] at h
      cases h
      unfold callAddr at hc
      cases hm : mget a st.addr2name with
      | none =>
        rw [hm] at hc
        cases hc
        exact ⟨a, List.mem_cons_self, hm, rfl⟩
      | some name =>
        rw [hm] at hc
        simp only at hc
        cases hn : mget name st.indices with
        | none => exact absurd hn (hst a name hm)
        | some k => rw [hn] at hc; cases hc
    | ok st1 =>
      rw [hc] at h
      obtain ⟨j, hj, rfl⟩ := callAddr_ok hc
      obtain ⟨_, f2, _, _, _, _, _, _, f9, _⟩ := call_frame st caller j
      obtain ⟨x, h1, h2, h3⟩ := ih (st := st.call caller j) (by rw [f2, f9]; exact hst) h
      rw [f9] at h2
      exact ⟨x, List.mem_cons_of_mem _ h1, h2, h3⟩

end CallStack
