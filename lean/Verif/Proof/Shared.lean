import Verif.Proof.CallGraph
import Verif.Proof.MachineRun

/-! Lemmas for C115: the graph of programs in which several functions may have the same names. -/

namespace CallStack

/-! ### The pass over the symbols: the last node of a name -/

/-- The index of a name is the last of its nodes. -/
def LastNode (st : Build) : Prop :=
  ∀ (c : Str) (i : Nat), mget c st.indices = some i → i < st.g.nodes.length ∧
    ∀ (k : Nat) (nd : Node), i < k → st.g.nodes[k]? = some nd → nd.name ≠ c

theorem symStep_last {demangle : Str → Str} {p : Program} {st st' : Build} {e : Nat × Sym} (hl : LastNode st)
    (h : symStep demangle p st e = .ok st') : LastNode st' := by
  unfold symStep at h
  simp only at h
  split at h
  · cases h
  · rename_i canonical _
    simp only [Except.ok.injEq] at h
    subst h
    intro c i hc
    obtain ⟨f1, f2, -⟩ := registerType_frame p (realNames e.2) canonical st.g.nodes.length
      { st with
        g := (st.g.addNode (mkNode canonical (mget canonical p.stackSizes) false)).1
        aliases := (realNames e.2).foldl (fun m name => mset name canonical m) st.aliases
        addr2name := mset e.1 canonical st.addr2name
        hasStackUsageInfo := st.hasStackUsageInfo || (mget canonical p.stackSizes).isSome
        ambiguous := countName demangle st.ambiguous canonical
        indices := mset canonical st.g.nodes.length st.indices }
    simp only [Graph.addNode] at hc f1 f2 ⊢
    rw [f2] at hc
    rw [f1]
    simp only [mget_mset] at hc
    simp only [List.length_append, List.length_cons, List.length_nil]
    split at hc
    · rename_i hcc
      cases hc
      refine ⟨by omega, fun k nd hk hnd => ?_⟩
      have := (List.getElem?_eq_some_iff.mp hnd).1
      simp only [List.length_append, List.length_cons, List.length_nil] at this
      omega
    · rename_i hcc
      obtain ⟨h1, h2⟩ := hl c i hc
      refine ⟨by omega, fun k nd hk hnd => ?_⟩
      by_cases hlt : k < st.g.nodes.length
      · rw [List.getElem?_append_left hlt] at hnd
        exact h2 k nd hk hnd
      · have := (List.getElem?_eq_some_iff.mp hnd).1
        simp only [List.length_append, List.length_cons, List.length_nil] at this
        obtain rfl : k = st.g.nodes.length := by omega
        rw [List.getElem?_concat_length] at hnd
        cases hnd
        exact hcc

theorem symPass_last {demangle : Str → Str} {p : Program} (es : List (Nat × Sym)) : ∀ {st st' : Build},
    LastNode st → symPass demangle p st es = .ok st' → LastNode st' := by
  induction es with
  | nil =>
    intro st st' hl h
    simp only [symPass, Except.ok.injEq] at h
    exact h ▸ hl
  | cons e es ih =>
    intro st st' hl h
    simp only [symPass] at h
    split at h
    · cases h
    · rename_i st1 h1
      exact ih (symStep_last hl h1) h

/-! ### The pass over the LLVM-IR -/

/-- The node is that of a name. -/
def NodeOfName (st : Build) (i : Nat) : Prop := ∃ n : Str, mget n st.indices = some i

/-- What holds of the state `st` of this pass for every program; `st0` is the state before it. -/
structure WeakIr (p : Program) (st0 st : Build) : Prop where
  aliases : st.aliases = st0.aliases
  fmts : st.fmts = st0.fmts
  untyped : st.hasUntypedSymbols = st0.hasUntypedSymbols
  addr : st.addr2name = st0.addr2name
  indices : ∀ (n : Str) (k : Nat), mget n st0.indices = some k → mget n st.indices = some k
  lt : ∀ (n : Str) (k : Nat), mget n st.indices = some k → k < st.g.nodes.length
  nodes : ∃ ext : List Str, st.g.nodes = st0.g.nodes ++ ext.map (fun n => mkNode n none false)
  wf : ∀ x ∈ st.g.edges, x.1 < st.g.nodes.length ∧ x.2 < st.g.nodes.length
  seen : ∀ i j, j ∈ st.seen i → (i, j) ∈ st.g.edges
  asm : ∀ c ∈ st.asmFns, ∃ d ∈ p.defines, mget d.name st0.aliases = some c ∧ ∃ x, .asm x ∈ d.stmts
  sigs : st.indirects.map (fun e => (e.1, e.2.callees)) = st0.indirects.map (fun e => (e.1, e.2.callees))
  callers : ∀ e ∈ st.indirects, ∀ i ∈ e.2.callers, i < st.g.nodes.length
  src : ∀ x ∈ st.g.edges, NodeOfName st0 x.1
  callersSrc : ∀ e ∈ st.indirects, ∀ i ∈ e.2.callers, NodeOfName st0 i
  defined : ∀ c ∈ st.defined, ∃ d ∈ p.defines, mget d.name st0.aliases = some c
  fresh : ∀ (n : Str) (k : Nat), mget n st.indices = some k → mget n st0.indices = some k ∨ st0.g.nodes.length ≤ k
  ambiguous : st.ambiguous = st0.ambiguous
  info : st.hasStackUsageInfo = st0.hasStackUsageInfo
  named : ∀ (n : Str) (k : Nat), mget n st.indices = some k → ∃ nd, st.g.nodes[k]? = some nd ∧ nd.name = n

section

variable {p : Program} {st0 st st' : Build}

theorem WeakIr.call (w : WeakIr p st0 st) {i j : Nat} (hix : NodeOfName st0 i) (hi : i < st.g.nodes.length)
    (hj : j < st.g.nodes.length) : WeakIr p st0 (st.call i j) := by
  obtain ⟨f1, f2, f3, f4, f5, f6, f7, f8, f9, f10, f11⟩ := call_frame st i j
  constructor
  · rw [f5]; exact w.aliases
  · rw [f4]; exact w.fmts
  · rw [f8]; exact w.untyped
  · rw [f9]; exact w.addr
  · rw [f2]; exact w.indices
  · rw [f1, f2]; exact w.lt
  · rw [f1]; exact w.nodes
  · intro x hx
    rw [f1]
    rcases (mem_call_edges (w.seen i j) x).mp hx with hx | rfl
    · exact w.wf x hx
    · exact ⟨hi, hj⟩
  · intro a b hb
    rw [mem_call_edges (w.seen i j)]
    rcases (mem_call_seen st i j a b).mp hb with hb | ⟨ha, hb⟩
    · exact .inl (w.seen a b hb)
    · exact .inr (by rw [ha, hb])
  · rw [f10]; exact w.asm
  · rw [f3]; exact w.sigs
  · rw [f1, f3]; exact w.callers
  · intro x hx
    rcases (mem_call_edges (w.seen i j) x).mp hx with hx | rfl
    · exact w.src x hx
    · exact hix
  · rw [f3]; exact w.callersSrc
  · rw [f11]; exact w.defined
  · rw [f2]; exact w.fresh
  · rw [f6]; exact w.ambiguous
  · rw [f7]; exact w.info
  · rw [f1, f2]; exact w.named

theorem WeakIr.getOrAdd (w : WeakIr p st0 st) (name : Str) :
    WeakIr p st0 (st.getOrAddNode name).1 ∧ (st.getOrAddNode name).1.g.edges = st.g.edges ∧
      st.g.nodes.length ≤ (st.getOrAddNode name).1.g.nodes.length ∧
      (st.getOrAddNode name).2 < (st.getOrAddNode name).1.g.nodes.length := by
  unfold Build.getOrAddNode
  cases hm : mget name st.indices with
  | some idx => exact ⟨w, rfl, Nat.le_refl _, w.lt name idx hm⟩
  | none =>
    simp only [Graph.addNode]
    refine ⟨?_, by trivial, ?_, ?_⟩
    · constructor
      · exact w.aliases
      · exact w.fmts
      · exact w.untyped
      · exact w.addr
      · intro n k hk
        have := w.indices n k hk
        rw [mget_mset]
        split
        · rename_i hn
          subst hn
          rw [hm] at this
          cases this
        · exact this
      · intro n k hk
        simp only [List.length_append, List.length_cons, List.length_nil]
        rw [mget_mset] at hk
        split at hk
        · cases hk; omega
        · have := w.lt n k hk; omega
      · obtain ⟨ext, he⟩ := w.nodes
        exact ⟨ext ++ [name], by simp [he]⟩
      · intro x hx
        have := w.wf x hx
        simp only [List.length_append, List.length_cons, List.length_nil]
        omega
      · exact w.seen
      · exact w.asm
      · exact w.sigs
      · intro e he i hi
        have := w.callers e he i hi
        simp only [List.length_append, List.length_cons, List.length_nil]
        omega
      · exact w.src
      · exact w.callersSrc
      · exact w.defined
      · intro n k hk
        rw [mget_mset] at hk
        split at hk
        · cases hk
          obtain ⟨ext, he⟩ := w.nodes
          right
          rw [he, List.length_append]
          omega
        · exact w.fresh n k hk
      · exact w.ambiguous
      · exact w.info
      · intro n k hk
        rw [mget_mset] at hk
        split at hk
        · rename_i hn
          cases hk
          exact ⟨_, List.getElem?_concat_length, hn⟩
        · obtain ⟨nd, h1, h2⟩ := w.named n k hk
          exact ⟨nd, by rw [List.getElem?_append_left (List.getElem?_eq_some_iff.mp h1).1]; exact h1, h2⟩
    · simp
    · simp

theorem WeakIr.routines (w : WeakIr p st0 st) {i : Nat} (hix : NodeOfName st0 i) (hi : i < st.g.nodes.length) (rs : List Str) :
    WeakIr p st0 (st.callRoutines i rs) ∧ (∀ x ∈ st.g.edges, x ∈ (st.callRoutines i rs).g.edges) ∧
      (st.callRoutines i rs).g.nodes = st.g.nodes := by
  unfold Build.callRoutines
  induction rs generalizing st with
  | nil => exact ⟨w, fun _ h => h, rfl⟩
  | cons r rs ih =>
    simp only [List.foldl_cons]
    split
    · rename_i callee hc
      have hn := (call_frame st i callee).1
      obtain ⟨h1, h2, h3⟩ := ih (w.call hix hi (w.lt r callee hc)) (by rw [hn]; exact hi)
      refine ⟨h1, fun x hx => h2 x ?_, h3.trans hn⟩
      rw [mem_call_edges (w.seen i callee)]
      exact .inl hx
    · exact ih w hi

/-- One statement: everything known stays, and a direct call of a live function is an edge. -/
theorem WeakIr.stmt (w : WeakIr p st0 st) {d : Define} (hd : d ∈ p.defines) {c : Str}
    (hal : mget d.name st0.aliases = some c) {i : Nat} (hix : NodeOfName st0 i) (hi : i < st.g.nodes.length) {s : Stmt}
    (hs : s ∈ d.stmts) (h : stmtStep p c i st s = .ok st') :
    WeakIr p st0 st' ∧ (∀ x ∈ st.g.edges, x ∈ st'.g.edges) ∧ st.g.nodes.length ≤ st'.g.nodes.length ∧
      ∀ f cf j, s = .directCall f → classify p.target.isThumb f = .plain → (f ∈ symbollessIntrinsics → mget f st0.indices ≠ none) →
        mget f st0.aliases = some cf → mget cf st0.indices = some j → (i, j) ∈ st'.g.edges := by
  unfold stmtStep at h
  split at h
  · rename_i x
    cases h
    refine ⟨?_, fun _ h => h, Nat.le_refl _, fun _ _ _ h => by cases h⟩
    exact { w with
      asm := by
        intro c' hc'
        rcases (mem_sinsert _ _ _).mp hc' with rfl | hc'
        · exact ⟨d, hd, hal, x, hs⟩
        · exact w.asm c' hc'
      seen := w.seen }
  · cases h
  · rename_i sym
    obtain ⟨h1, h2, h3, h4⟩ := w.getOrAdd sym
    cases h
    refine ⟨?_, fun x hx => ?_, h3, fun _ _ _ h => by cases h⟩
    · exact { h1 with
        wf := by
          intro x hx
          simp only [Graph.addEdge, List.mem_append, List.mem_singleton] at hx
          rcases hx with hx | rfl
          · exact h1.wf x hx
          · exact ⟨Nat.lt_of_lt_of_le hi h3, h4⟩
        seen := by
          intro a b hb
          simp only [Graph.addEdge, List.mem_append]
          exact .inl (h1.seen a b hb)
        src := by
          intro x hx
          simp only [Graph.addEdge, List.mem_append, List.mem_singleton] at hx
          rcases hx with hx | rfl
          · exact h1.src x hx
          · exact hix }
    · have : x ∈ (st.getOrAddNode sym).1.g.edges := h2 ▸ hx
      exact List.mem_append.mpr (.inl this)
  · rename_i func
    split at h
    · rename_i hk
      cases h
      exact ⟨w, fun _ h => h, Nat.le_refl _, fun f _ _ hf hp => by cases hf; rw [hk] at hp; cases hp⟩
    · rename_i rs hk
      cases h
      obtain ⟨h1, h2, h3⟩ := w.routines hix hi rs
      exact ⟨h1, h2, Nat.le_of_eq (by rw [h3]), fun f _ _ hf hp => by cases hf; rw [hk] at hp; cases hp⟩
    · cases h
    · rename_i hk
      unfold plainCall at h
      split at h
      · rename_i hm
        cases h
        refine ⟨w, fun _ h => h, Nat.le_refl _, fun f cf j hf _ hns => ?_⟩
        cases hf
        simp only [Bool.and_eq_true, List.contains_iff_mem, Option.isNone_iff_eq_none] at hm
        obtain ⟨k, hk⟩ := Option.ne_none_iff_exists'.mp (hns hm.1)
        rw [w.indices _ _ hk] at hm
        cases hm.2
      · split at h
        · rename_i canon hcan
          split at h
          · rename_i callee hcallee
            cases h
            have hn := (call_frame st i callee).1
            refine ⟨w.call hix hi (w.lt _ _ hcallee), fun x hx => ?_, Nat.le_of_eq (by rw [hn]), ?_⟩
            · rw [mem_call_edges (w.seen i callee)]
              exact .inl hx
            · intro f cf j hf _ _ ha hj
              cases hf
              rw [w.aliases, ha] at hcan
              cases hcan
              rw [w.indices _ _ hj] at hcallee
              cases hcallee
              exact (mem_call_edges (w.seen i _) _).mpr (.inr rfl)
          · cases h
        · rename_i hnone
          split at h
          · obtain ⟨h1, h2, h3, h4⟩ := w.getOrAdd func
            have he := Except.ok.inj h
            change (st.getOrAddNode func).1.call i (st.getOrAddNode func).2 = st' at he
            rw [← he]
            have hn := (call_frame (st.getOrAddNode func).1 i (st.getOrAddNode func).2).1
            refine ⟨h1.call hix (Nat.lt_of_lt_of_le hi h3) h4, fun x hx => ?_, by rw [hn]; exact h3, ?_⟩
            · rw [mem_call_edges (h1.seen _ _), h2]
              exact .inl hx
            · intro f cf j hf _ _ ha
              cases hf
              rw [w.aliases, ha] at hnone
              cases hnone
          · cases h
  · rename_i sig
    cases h
    refine ⟨?_, fun _ h => h, Nat.le_refl _, fun _ _ _ h => by cases h⟩
    exact { w with
      seen := w.seen
      sigs := by rw [markCalled_map]; exact w.sigs
      callers := by
        intro e he a ha
        obtain ⟨e0, h0, h1, h2⟩ := mem_markCalled he
        split at h2
        · rw [h2.2] at ha
          rcases (mem_sinsert _ _ _).mp ha with rfl | ha
          · exact hi
          · exact w.callers e0 h0 a ha
        · rw [h2] at ha
          exact w.callers e0 h0 a ha
      callersSrc := by
        intro e he a ha
        obtain ⟨e0, h0, h1, h2⟩ := mem_markCalled he
        split at h2
        · rw [h2.2] at ha
          rcases (mem_sinsert _ _ _).mp ha with rfl | ha
          · exact hix
          · exact w.callersSrc e0 h0 a ha
        · rw [h2] at ha
          exact w.callersSrc e0 h0 a ha }
  all_goals
    cases h
    exact ⟨w, fun _ h => h, Nat.le_refl _, fun _ _ _ h => by cases h⟩

theorem WeakIr.stmts {d : Define} (hd : d ∈ p.defines) {c : Str}
    (hal : mget d.name st0.aliases = some c) {i : Nat} (hix : NodeOfName st0 i) (ss : List Stmt) : ∀ {st : Build}, WeakIr p st0 st →
    i < st.g.nodes.length → (∀ s ∈ ss, s ∈ d.stmts) → stmtsPass p c i st ss = .ok st' →
    WeakIr p st0 st' ∧ (∀ x ∈ st.g.edges, x ∈ st'.g.edges) ∧ st.g.nodes.length ≤ st'.g.nodes.length ∧
      ∀ f cf j, .directCall f ∈ ss → classify p.target.isThumb f = .plain → (f ∈ symbollessIntrinsics → mget f st0.indices ≠ none) →
        mget f st0.aliases = some cf → mget cf st0.indices = some j → (i, j) ∈ st'.g.edges := by
  induction ss with
  | nil =>
    intro st w hi _ h
    cases h
    exact ⟨w, fun _ h => h, Nat.le_refl _, fun _ _ _ h => by cases h⟩
  | cons s ss ih =>
    intro st w hi hss h
    simp only [stmtsPass] at h
    split at h
    · cases h
    · rename_i st1 h1
      obtain ⟨a1, a2, a3, a4⟩ := w.stmt hd hal hix hi (hss s List.mem_cons_self) h1
      obtain ⟨b1, b2, b3, b4⟩ := ih a1 (Nat.lt_of_lt_of_le hi a3) (fun s hs => hss s (List.mem_cons_of_mem _ hs)) h
      refine ⟨b1, fun x hx => b2 x (a2 x hx), Nat.le_trans a3 b3, ?_⟩
      intro f cf j hf hk hns ha hj
      rcases List.mem_cons.mp hf with hf | hf
      · exact b2 _ (a4 f cf j hf.symm hk hns ha hj)
      · exact b4 f cf j hf hk hns ha hj

theorem WeakIr.defines (ds : List Define) : ∀ {st : Build}, WeakIr p st0 st → (∀ d ∈ ds, d ∈ p.defines) →
    (∀ d c, mget d st0.aliases = some c → ∃ i, mget c st0.indices = some i) →
    definePass p st ds = .ok st' →
    WeakIr p st0 st' ∧ (∀ x ∈ st.g.edges, x ∈ st'.g.edges) ∧
      ∀ d ∈ ds, ∀ c i f cf j, mget d.name st0.aliases = some c → mget c st0.indices = some i →
        .directCall f ∈ d.stmts → classify p.target.isThumb f = .plain → (f ∈ symbollessIntrinsics → mget f st0.indices ≠ none) →
        mget f st0.aliases = some cf → mget cf st0.indices = some j → (i, j) ∈ st'.g.edges := by
  induction ds with
  | nil =>
    intro st w _ _ h
    cases h
    exact ⟨w, fun _ h => h, fun _ h => by cases h⟩
  | cons d ds ih =>
    intro st w hds hcan h
    simp only [definePass] at h
    split at h
    · cases h
    · rename_i st1 h1
      have key : WeakIr p st0 st1 ∧ (∀ x ∈ st.g.edges, x ∈ st1.g.edges) ∧
          ∀ c i f cf j, mget d.name st0.aliases = some c → mget c st0.indices = some i →
            .directCall f ∈ d.stmts → classify p.target.isThumb f = .plain → (f ∈ symbollessIntrinsics → mget f st0.indices ≠ none) →
            mget f st0.aliases = some cf → mget cf st0.indices = some j → (i, j) ∈ st1.g.edges := by
        unfold defineStep at h1
        split at h1
        · rename_i hn
          rw [w.aliases] at hn
          cases h1
          exact ⟨w, fun _ h => h, fun c i f cf j hc => by rw [hn] at hc; cases hc⟩
        · rename_i canonical hcn
          rw [w.aliases] at hcn
          split at h1
          · cases h1
          · rename_i caller hcal
            have hix : NodeOfName st0 caller := by
              obtain ⟨i, hi⟩ := hcan _ _ hcn
              have := w.indices _ _ hi
              rw [hcal] at this
              cases this
              exact ⟨_, hi⟩
            have w' : WeakIr p st0 { st with
                defined := sinsert canonical st.defined
                edges := mset caller (st.seen caller) st.edges } := { w with
              seen := by
                intro a b hb
                rw [seen_set st caller a (st.seen caller) _ rfl] at hb
                split at hb
                · rename_i ha
                  exact ha ▸ w.seen _ b hb
                · exact w.seen a b hb
              defined := by
                intro c' hc'
                rcases (mem_sinsert _ _ _).mp hc' with rfl | hc'
                · exact ⟨d, hds d List.mem_cons_self, hcn⟩
                · exact w.defined c' hc' }
            obtain ⟨a1, a2, a3, a4⟩ := w'.stmts (hds d List.mem_cons_self) hcn hix d.stmts
              (w.lt _ _ hcal) (fun _ h => h) h1
            refine ⟨a1, a2, ?_⟩
            intro c i f cf j hc hi hf hk hns ha hj
            rw [hcn] at hc
            cases hc
            rw [w.indices _ _ hi] at hcal
            cases hcal
            exact a4 f cf j hf hk hns ha hj
      obtain ⟨b1, b2, b3⟩ := ih key.1 (fun d hd => hds d (List.mem_cons_of_mem _ hd)) hcan h
      refine ⟨b1, fun x hx => b2 x (key.2.1 x hx), ?_⟩
      intro d' hd' c i f cf j hc hi hf hk hns ha hj
      rcases List.mem_cons.mp hd' with rfl | hd'
      · exact b2 _ (key.2.2 c i f cf j hc hi hf hk hns ha hj)
      · exact b3 d' hd' c i f cf j hc hi hf hk hns ha hj

end

/-- The indirect calls with type `sig` of the node `i` are noted. -/
def CallMarked (st : Build) (i : Nat) (sig : FnSig) : Prop :=
  ∀ e ∈ st.indirects, e.1.looselyEqual sig = true → e.2.called = true ∧ i ∈ e.2.callers

theorem stmtStep_indirects {p : Program} {c : Str} {i : Nat} {st st' : Build} {s : Stmt}
    (h : stmtStep p c i st s = .ok st') : st'.indirects = st.indirects ∧ (∀ sig, s ≠ .indirectCall sig) ∨
      ∃ sig, s = .indirectCall sig ∧ st'.indirects = markCalled i sig st.indirects := by
  have hget : ∀ n, (st.getOrAddNode n).1.indirects = st.indirects := by
    intro n
    unfold Build.getOrAddNode
    split <;> rfl
  unfold stmtStep at h
  split at h
  · cases h
    exact .inl ⟨rfl, fun _ h => by cases h⟩
  · cases h
  · rename_i sym
    have he := Except.ok.inj h
    refine .inl ⟨?_, fun _ h => by cases h⟩
    rw [← he]
    exact hget sym
  · rename_i func
    refine .inl ⟨?_, fun _ h => by cases h⟩
    split at h
    · cases h; rfl
    · rename_i rs hk
      cases h
      clear hget hk
      unfold Build.callRoutines
      induction rs generalizing st with
      | nil => rfl
      | cons r rs ih =>
        simp only [List.foldl_cons]
        split
        · rename_i callee _
          exact ih.trans (call_frame st i callee).2.2.1
        · exact ih
    · cases h
    · unfold plainCall at h
      split at h
      · cases h; rfl
      · split at h
        · split at h
          · rename_i callee _
            cases h
            exact (call_frame st i callee).2.2.1
          · cases h
        · split at h
          · have he := Except.ok.inj h
            rw [← he]
            exact (call_frame (st.getOrAddNode func).1 i (st.getOrAddNode func).2).2.2.1.trans (hget func)
          · cases h
  · rename_i sig
    cases h
    exact .inr ⟨sig, rfl, rfl⟩
  all_goals
    cases h
    exact .inl ⟨rfl, fun _ h => by cases h⟩

theorem CallMarked.step {p : Program} {c : Str} {i j : Nat} {st st' : Build} {s : Stmt} {sig : FnSig}
    (h : stmtStep p c i st s = .ok st') (hm : CallMarked st j sig) : CallMarked st' j sig := by
  intro e he hl
  rcases stmtStep_indirects h with ⟨h1, _⟩ | ⟨sig', _, h1⟩
  · exact hm e (h1 ▸ he) hl
  · rw [h1] at he
    obtain ⟨e0, h2, h3, h4⟩ := mem_markCalled he
    obtain ⟨h5, h6⟩ := hm e0 h2 (h3 ▸ hl)
    split at h4
    · rw [h4.1, h4.2]
      exact ⟨rfl, (mem_sinsert _ _ _).mpr (.inr h6)⟩
    · rw [h4]
      exact ⟨h5, h6⟩

theorem CallMarked.new {p : Program} {c : Str} {i : Nat} {st st' : Build} {sig : FnSig}
    (h : stmtStep p c i st (.indirectCall sig) = .ok st') : CallMarked st' i sig := by
  intro e he hl
  rcases stmtStep_indirects h with ⟨_, h1⟩ | ⟨sig', h0, h1⟩
  · exact absurd rfl (h1 sig)
  · cases h0
    rw [h1] at he
    obtain ⟨e0, h2, h3, h4⟩ := mem_markCalled he
    rw [if_pos (h3 ▸ hl)] at h4
    rw [h4.1, h4.2]
    exact ⟨rfl, (mem_sinsert _ _ _).mpr (.inl rfl)⟩

theorem CallMarked.stmts {p : Program} {c : Str} {i : Nat} (ss : List Stmt) : ∀ {st st' : Build},
    stmtsPass p c i st ss = .ok st' → (∀ j sig, CallMarked st j sig → CallMarked st' j sig) ∧
      ∀ sig, .indirectCall sig ∈ ss → CallMarked st' i sig := by
  induction ss with
  | nil =>
    intro st st' h
    cases h
    exact ⟨fun _ _ h => h, fun _ h => by cases h⟩
  | cons s ss ih =>
    intro st st' h
    simp only [stmtsPass] at h
    split at h
    · cases h
    · rename_i st1 h1
      obtain ⟨a1, a2⟩ := ih h
      refine ⟨fun j sig hm => a1 j sig (hm.step h1), fun sig hs => ?_⟩
      rcases List.mem_cons.mp hs with rfl | hs
      · exact a1 i sig (.new h1)
      · exact a2 sig hs

theorem WeakIr.marked {p : Program} {st0 : Build} (ds : List Define) : ∀ {st st' : Build}, WeakIr p st0 st →
    (∀ d ∈ ds, d ∈ p.defines) → (∀ d c, mget d st0.aliases = some c → ∃ i, mget c st0.indices = some i) →
    definePass p st ds = .ok st' → (∀ j sig, CallMarked st j sig → CallMarked st' j sig) ∧
      ∀ d ∈ ds, ∀ c i sig, mget d.name st0.aliases = some c → mget c st0.indices = some i →
        .indirectCall sig ∈ d.stmts → CallMarked st' i sig := by
  induction ds with
  | nil =>
    intro st st' w _ _ h
    cases h
    exact ⟨fun _ _ h => h, fun _ h => by cases h⟩
  | cons d ds ih =>
    intro st st' w hds hcan h
    simp only [definePass] at h
    split at h
    · cases h
    · rename_i st1 h1
      have w1 := (w.defines [d] (by simpa using hds d List.mem_cons_self) hcan
        (st' := st1) (by simp only [definePass, h1])).1
      obtain ⟨a1, a2⟩ := ih w1 (fun d hd => hds d (List.mem_cons_of_mem _ hd)) hcan h
      have key : (∀ j sig, CallMarked st j sig → CallMarked st1 j sig) ∧
          ∀ c i sig, mget d.name st0.aliases = some c → mget c st0.indices = some i →
            .indirectCall sig ∈ d.stmts → CallMarked st1 i sig := by
        unfold defineStep at h1
        split at h1
        · rename_i hn
          rw [w.aliases] at hn
          cases h1
          exact ⟨fun _ _ h => h, fun c i sig hc => by rw [hn] at hc; cases hc⟩
        · rename_i canonical hcn
          rw [w.aliases] at hcn
          split at h1
          · cases h1
          · rename_i caller hcal
            obtain ⟨b1, b2⟩ := CallMarked.stmts d.stmts h1
            refine ⟨fun j sig hm => b1 j sig hm, ?_⟩
            intro c i sig hc hi hs
            rw [hcn] at hc
            cases hc
            rw [w.indices _ _ hi] at hcal
            cases hcal
            exact b2 sig hs
      refine ⟨fun j sig hm => a1 j sig (key.1 j sig hm), ?_⟩
      intro d' hd' c i sig hc hi hs
      rcases List.mem_cons.mp hd' with rfl | hd'
      · exact a1 i sig (key.2 c i sig hc hi hs)
      · exact a2 d' hd' c i sig hc hi hs

/-- Every statement of a function that is in the executable is processed at some time. -/
def Processed (p : Program) (st0 st : Build) (c : Str) (i : Nat) (s : Stmt) : Prop :=
  ∃ st1 st2, WeakIr p st0 st1 ∧ i < st1.g.nodes.length ∧ stmtStep p c i st1 s = .ok st2 ∧
    ∀ x ∈ st2.g.edges, x ∈ st.g.edges

theorem Processed.mono {p : Program} {st0 st st' : Build} {c : Str} {i : Nat} {s : Stmt}
    (h : Processed p st0 st c i s) (he : ∀ x ∈ st.g.edges, x ∈ st'.g.edges) : Processed p st0 st' c i s := by
  obtain ⟨st1, st2, h1, h2, h3, h4⟩ := h
  exact ⟨st1, st2, h1, h2, h3, fun x hx => he x (h4 x hx)⟩

theorem WeakIr.processedStmts {p : Program} {st0 st' : Build} {d : Define} (hd : d ∈ p.defines) {c : Str}
    (hal : mget d.name st0.aliases = some c) {i : Nat} (hix : NodeOfName st0 i) (ss : List Stmt) : ∀ {st : Build},
    WeakIr p st0 st → i < st.g.nodes.length → (∀ s ∈ ss, s ∈ d.stmts) → stmtsPass p c i st ss = .ok st' →
    ∀ s ∈ ss, Processed p st0 st' c i s := by
  induction ss with
  | nil => intro _ _ _ _ _ s hs; cases hs
  | cons s ss ih =>
    intro st w hi hss h
    simp only [stmtsPass] at h
    split at h
    · cases h
    · rename_i st1 h1
      obtain ⟨a1, a2, a3, a4⟩ := w.stmt hd hal hix hi (hss s List.mem_cons_self) h1
      have hi1 := Nat.lt_of_lt_of_le hi a3
      have hss1 : ∀ s ∈ ss, s ∈ d.stmts := fun s hs => hss s (List.mem_cons_of_mem _ hs)
      intro s' hs'
      rcases List.mem_cons.mp hs' with rfl | hs'
      · exact ⟨st, st1, w, hi, h1, (a1.stmts hd hal hix ss hi1 hss1 h).2.1⟩
      · exact ih a1 hi1 hss1 h s' hs'

theorem WeakIr.processed {p : Program} {st0 : Build} (ds : List Define) : ∀ {st st' : Build}, WeakIr p st0 st →
    (∀ d ∈ ds, d ∈ p.defines) → (∀ d c, mget d st0.aliases = some c → ∃ i, mget c st0.indices = some i) →
    definePass p st ds = .ok st' →
      ∀ d ∈ ds, ∀ c i s, mget d.name st0.aliases = some c → mget c st0.indices = some i →
        s ∈ d.stmts → Processed p st0 st' c i s := by
  induction ds with
  | nil => intro _ _ _ _ _ _ d hd; cases hd
  | cons d ds ih =>
    intro st st' w hds hcan h
    simp only [definePass] at h
    split at h
    · cases h
    · rename_i st1 h1
      have w1 := (w.defines [d] (by simpa using hds d List.mem_cons_self) hcan
        (st' := st1) (by simp only [definePass, h1])).1
      have hds1 : ∀ d ∈ ds, d ∈ p.defines := fun d hd => hds d (List.mem_cons_of_mem _ hd)
      intro d' hd' c i s hc hi hs
      rcases List.mem_cons.mp hd' with rfl | hd'
      · refine Processed.mono ?_ (w1.defines ds hds1 hcan h).2.1
        unfold defineStep at h1
        have hc' : mget d'.name st.aliases = some c := by rw [w.aliases]; exact hc
        simp only [hc', w.indices _ _ hi] at h1
        have w' : WeakIr p st0 { st with
            defined := sinsert c st.defined
            edges := mset i (st.seen i) st.edges } := { w with
          seen := by
            intro a b hb
            rw [seen_set st i a (st.seen i) _ rfl] at hb
            split at hb
            · rename_i ha
              exact ha ▸ w.seen _ b hb
            · exact w.seen a b hb
          defined := by
            intro c' hc'
            rcases (mem_sinsert _ _ _).mp hc' with rfl | hc'
            · exact ⟨d', hds d' List.mem_cons_self, hc⟩
            · exact w.defined c' hc' }
        exact w'.processedStmts (hds d' List.mem_cons_self) hc ⟨c, hi⟩ d'.stmts
          (w.lt _ _ (w.indices _ _ hi)) (fun _ h => h) h1 s hs
      · exact ih w1 hds1 hcan h d' hd' c i s hc hi hs

/-! ### The whole graph -/

/-- What is known of the graph of any program. -/
structure SharedFacts (demangle : Str → Str) (ord : HashOrder) (search : TagSearch) (p : Program) (elf : Elf)
    (cs : List Str) (st0 stIr st : Build) (g : Graph) : Prop where
  sym : SymInv demangle p p.defined cs st0
  last : LastNode st0
  ir : WeakIr p st0 stIr
  direct : ∀ d ∈ p.defines, ∀ c i f cf j, mget d.name st0.aliases = some c → mget c st0.indices = some i →
    .directCall f ∈ d.stmts → classify p.target.isThumb f = .plain → (f ∈ symbollessIntrinsics → mget f st0.indices ≠ none) →
    mget f st0.aliases = some cf → mget cf st0.indices = some j → (i, j) ∈ stIr.g.edges
  marked : ∀ d ∈ p.defines, ∀ c i sig, mget d.name st0.aliases = some c → mget c st0.indices = some i →
    .indirectCall sig ∈ d.stmts → CallMarked stIr i sig
  each : ∀ d ∈ p.defines, ∀ c i s, mget d.name st0.aliases = some c → mget c st0.indices = some i →
    s ∈ d.stmts → Processed p st0 stIr c i s
  machine : MachineInv stIr.g.nodes.length stIr st
  pass : machinePass search p elf stIr = .ok st
  loop : ∀ stext text, p.target.isThumb = true → elf.text = some (stext, text) →
    machineLoop search (p.target == .thumbv7m) (elfTags elf.symtab) stext text stIr p.defined = .ok st ∧
    MachineFacts stIr search (p.target == .thumbv7m) (elfTags elf.symtab) stext text p.defined stIr st
  symOk : symPass demangle p Build.empty p.defined = .ok st0
  definesOk : definePass p st0 p.defines = .ok stIr
  out : IndirectOut st.hasUntypedSymbols st.fmts
    (oneTrueVoid ((ord.perm _ 0 st.indirects).filterMap (fun e => maybeVoid e.1))) st.g
    (ord.perm _ 1 st.indirects) g

theorem WeakIr.init {demangle : Str → Str} {p : Program} {cs : List Str} {st0 : Build}
    (hs : SymInv demangle p p.defined cs st0) : WeakIr p st0 st0 where
  aliases := rfl
  fmts := rfl
  untyped := rfl
  addr := rfl
  indices := fun _ _ h => h
  lt := by
    intro n k hk
    rw [hs.nodes, List.length_map]
    exact (List.getElem?_eq_some_iff.mp (hs.indices_some n k hk)).1
  nodes := ⟨[], by simp⟩
  wf := by rw [hs.gedges]; simp
  seen := by
    intro i j h
    unfold Build.seen at h
    rw [hs.edges] at h
    simp [mget] at h
  asm := by rw [hs.asmFns]; simp
  sigs := rfl
  callers := by
    intro e he i hi
    have := hs.fresh e he
    simp_all
  src := by rw [hs.gedges]; simp
  callersSrc := by
    intro e he i hi
    have := hs.fresh e he
    simp_all
  defined := by rw [hs.defined]; simp
  fresh := fun _ _ h => .inl h
  ambiguous := rfl
  info := rfl
  named := by
    intro n k hk
    refine ⟨mkNode n (mget n p.stackSizes) false, ?_, rfl⟩
    rw [hs.nodes, List.getElem?_map, hs.indices_some n k hk]
    rfl

theorem callGraph_shared {demangle : Str → Str} {ord : HashOrder} {search : TagSearch} {p : Program}
    {elf : Elf} {st : Build} {g : Graph} (h : callGraph demangle ord search p elf = .ok (st, g)) :
    ∃ cs st0 stIr, SharedFacts demangle ord search p elf cs st0 stIr st g := by
  unfold callGraph at h
  split at h
  · simp at h
  · rename_i stIr hir
    unfold irGraph at hir
    split at hir
    · cases hir
    · rename_i st0 h0
      obtain ⟨cs, hs⟩ := symPass_inv p.defined (SymInv.empty demangle p) h0
      simp only [List.nil_append] at hs
      have hlast : LastNode st0 := symPass_last p.defined (fun c i hc => by cases hc) h0
      have hcan : ∀ d c, mget d st0.aliases = some c → ∃ i, mget c st0.indices = some i := by
        intro d c hc
        obtain ⟨i, e, _, h2, _⟩ := hs.aliases_some d c hc
        exact Option.ne_none_iff_exists'.mp (hs.indices_ne c (List.mem_of_getElem? h2))
      obtain ⟨w, _, hdir⟩ := (WeakIr.init hs).defines p.defines (fun _ h => h) hcan hir
      obtain ⟨_, hmark⟩ := (WeakIr.init hs).marked p.defines (fun _ h => h) hcan hir
      have heach := (WeakIr.init hs).processed p.defines (fun _ h => h) hcan hir
      split at h
      · simp at h
      · rename_i st' hm
        simp only [Except.ok.injEq, Prod.mk.injEq] at h
        obtain ⟨rfl, rfl⟩ := h
        have init := MachineInv.init rfl w.wf w.seen
        have hmach : MachineInv stIr.g.nodes.length stIr st' ∧
            (∀ stext text, p.target.isThumb = true → elf.text = some (stext, text) →
              machineLoop search (p.target == .thumbv7m) (elfTags elf.symtab) stext text stIr p.defined = .ok st' ∧
              MachineFacts stIr search (p.target == .thumbv7m) (elfTags elf.symtab) stext text p.defined stIr st') := by
          have hm' := hm
          unfold machinePass at hm'
          split at hm'
          · rename_i ht
            split at hm'
            · rename_i hx
              simp only [Except.ok.injEq] at hm'
              subst hm'
              exact ⟨init, fun _ _ _ h => by rw [hx] at h; cases h⟩
            · rename_i stext text hx
              obtain ⟨i1, i2⟩ := machineLoop_spec w.lt p.defined init hm'
              refine ⟨i1, fun a b _ h => ?_⟩
              rw [hx] at h
              cases h
              exact ⟨hm', i2⟩
          · rename_i ht
            simp only [Except.ok.injEq] at hm'
            subst hm'
            exact ⟨init, fun _ _ h => absurd h ht⟩
        have hle : p.defined.length ≤ stIr.g.nodes.length := by
          obtain ⟨ext, he⟩ := w.nodes
          rw [he, List.length_append, hs.nodes, List.length_map, hs.len]
          omega
        refine ⟨cs, st0, stIr, hs, hlast, w, hdir, hmark, heach, hmach.1, hm, hmach.2, h0, hir, ?_⟩
        unfold addIndirects
        refine indirectLoop_spec ord _ _ _ stIr.g.nodes.length ?_ _ _ 0 hmach.1.len ?_ ?_
        · intro i hi
          rw [hmach.1.fmts, w.fmts] at hi
          obtain ⟨e, _, h1, _⟩ := (hs.fmts i).mp hi
          have := (List.getElem?_eq_some_iff.mp h1).1
          omega
        · intro x hx
          have h1 := hmach.1.wf x hx
          have h2 := hmach.1.len
          omega
        · intro e he
          rw [(ord.isPerm _ _ _).mem_iff, hmach.1.indirects] at he
          refine ⟨w.callers e he, fun i hi => ?_⟩
          have hmem := List.mem_map_of_mem (f := fun e => (e.1, e.2.callees)) he
          rw [w.sigs] at hmem
          obtain ⟨e0, h1, h2⟩ := List.mem_map.mp hmem
          simp only [Prod.mk.injEq] at h2
          obtain ⟨e1, h3, _⟩ := (hs.callee e0.1 i).mp ⟨e0.2, h1, by rw [h2.2]; exact hi⟩
          have := (List.getElem?_eq_some_iff.mp h3).1
          omega

section

variable {demangle : Str → Str} {ord : HashOrder} {search : TagSearch} {p : Program} {elf : Elf}
  {cs : List Str} {st0 stIr st : Build} {g : Graph}

theorem SharedFacts.edge_machine (f : SharedFacts demangle ord search p elf cs st0 stIr st g) {x : Nat × Nat}
    (hx : x ∈ st.g.edges) : x ∈ g.edges := by
  obtain ⟨es, h2, _⟩ := f.out.edges
  rw [h2]
  simp [hx]

theorem SharedFacts.edge_ir (f : SharedFacts demangle ord search p elf cs st0 stIr st g) {x : Nat × Nat}
    (hx : x ∈ stIr.g.edges) : x ∈ g.edges := by
  obtain ⟨es, h1⟩ := f.machine.edges
  exact f.edge_machine (by rw [h1]; simp [hx])

theorem SharedFacts.wf (f : SharedFacts demangle ord search p elf cs st0 stIr st g) : g.WF := by
  obtain ⟨es, h1, h2⟩ := f.out.edges
  obtain ⟨ns, h3⟩ := f.out.nodes
  intro x hx
  rw [h1, List.mem_append] at hx
  rcases hx with hx | hx
  · have := f.machine.wf x hx
    have hm := f.machine.len
    rw [h3, List.length_append]
    omega
  · exact (h2 x hx).2

/-- Only nodes of names have outgoing edges, among those of functions. -/
theorem SharedFacts.src (f : SharedFacts demangle ord search p elf cs st0 stIr st g) {i b : Nat}
    (hi : i < p.defined.length) (h : (i, b) ∈ g.edges) : NodeOfName st0 i := by
  have hle : p.defined.length ≤ stIr.g.nodes.length := by
    obtain ⟨ext, he⟩ := f.ir.nodes
    rw [he, List.length_append, f.sym.nodes, List.length_map, f.sym.len]
    omega
  have hlen := f.machine.len
  have hst : (i, b) ∈ st.g.edges → NodeOfName st0 i := by
    intro hx
    have hpass := f.pass
    unfold machinePass at hpass
    split at hpass
    · rename_i ht
      split at hpass
      · cases hpass
        exact f.ir.src _ hx
      · rename_i stext text hxt
        rcases (f.loop stext text ht hxt).2.sound _ hx with hx | ⟨e, _, c, r, ⟨first, rest, _, h2, h3⟩, _⟩
        · exact f.ir.src _ hx
        · rw [f.ir.aliases] at h2
          obtain ⟨j, e', _, h4, _⟩ := f.sym.aliases_some first c h2
          obtain ⟨k, hk⟩ := Option.ne_none_iff_exists'.mp (f.sym.indices_ne c (List.mem_of_getElem? h4))
          have := f.ir.indices _ _ hk
          rw [h3] at this
          cases this
          exact ⟨c, hk⟩
    · cases hpass
      exact f.ir.src _ hx
  obtain ⟨es, h1, h2⟩ := f.out.edges
  have h' := h
  rw [h1, List.mem_append] at h'
  rcases h' with hx | hx
  · exact hst hx
  · obtain ⟨h3, h4, h5⟩ := h2 _ hx
    simp only at h3 h4 h5
    rcases f.out.new b (by omega) h5 with ⟨e, he, _, hd⟩ | ⟨_, _, _, k', _, h6, _, h7⟩
    · have := (hd.pred i).mp h
      rw [(ord.isPerm _ _ _).mem_iff, f.machine.indirects] at he
      exact f.ir.callersSrc e he i this
    · have := h7 i h
      omega

end

end CallStack
