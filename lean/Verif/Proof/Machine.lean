import Verif.Model.Machine
import Verif.Proof.Build
import Verif.Proof.Indirect

/-!
What the pass over the machine code may change.
-/

namespace CallStack

/-- State during the pass over the machine code, relative to the state `st0` before it, whose graph has
`m` nodes. -/
structure MachineInv (m : Nat) (st0 st : Build) : Prop where
  indices : st.indices = st0.indices
  indirects : st.indirects = st0.indirects
  fmts : st.fmts = st0.fmts
  aliases : st.aliases = st0.aliases
  ambiguous : st.ambiguous = st0.ambiguous
  info : st.hasStackUsageInfo = st0.hasStackUsageInfo
  untyped : st.hasUntypedSymbols = st0.hasUntypedSymbols
  addr : st.addr2name = st0.addr2name
  asmFns : st.asmFns = st0.asmFns
  defined : st.defined = st0.defined
  len : m ≤ st.g.nodes.length
  old : ∀ k, k < m → ∃ nd0 nd, st0.g.nodes[k]? = some nd0 ∧ st.g.nodes[k]? = some nd ∧
    nd = { nd0 with loc := nd.loc }
  new : ∀ k, m ≤ k → k < st.g.nodes.length → st.g.nodes[k]? = some questionNode
  edges : ∃ es, st.g.edges = st0.g.edges ++ es
  wf : ∀ x ∈ st.g.edges, x.1 < m ∧ x.2 < st.g.nodes.length
  seen : ∀ i j, j ∈ st.seen i → (i, j) ∈ st.g.edges
  single : ∀ a, Single st0 a → (∀ j, st.g.edges.count (a, j) ≤ 1) ∧
    ∀ j, j < m → (a, j) ∈ st.g.edges → j ∈ st.seen a

theorem MachineInv.init {m : Nat} {st0 : Build} (hm : st0.g.nodes.length = m)
    (hwf : ∀ x ∈ st0.g.edges, x.1 < m ∧ x.2 < m)
    (hs : ∀ i j, j ∈ st0.seen i → (i, j) ∈ st0.g.edges) : MachineInv m st0 st0 where
  indices := rfl
  indirects := rfl
  fmts := rfl
  aliases := rfl
  ambiguous := rfl
  info := rfl
  untyped := rfl
  addr := rfl
  asmFns := rfl
  defined := rfl
  len := by omega
  old := by
    intro k hk
    have : k < st0.g.nodes.length := by omega
    exact ⟨st0.g.nodes[k], st0.g.nodes[k], by simp [this], by simp [this], rfl⟩
  new := by
    intro k h1 h2
    omega
  edges := ⟨[], by simp⟩
  wf := hm ▸ hwf
  seen := hs
  single := fun a h => ⟨h.count, fun j _ => h.seen j⟩

theorem MachineInv.call {m : Nat} {st0 st : Build} (h : MachineInv m st0 st) {i j : Nat}
    (hi : i < m) (hj : j < m) : MachineInv m st0 (st.call i j) := by
  obtain ⟨f1, f2, f3, f4, f5, f6, f7, f8, f9, f10, f11⟩ := call_frame st i j
  have hl := h.len
  constructor
  · exact f2.trans h.indices
  · exact f3.trans h.indirects
  · exact f4.trans h.fmts
  · exact f5.trans h.aliases
  · exact f6.trans h.ambiguous
  · exact f7.trans h.info
  · exact f8.trans h.untyped
  · exact f9.trans h.addr
  · exact f10.trans h.asmFns
  · exact f11.trans h.defined
  · rw [f1]; exact h.len
  · rw [f1]; exact h.old
  · rw [f1]; exact h.new
  · obtain ⟨es, h1⟩ := h.edges
    unfold Build.call
    split
    · exact ⟨es, h1⟩
    · exact ⟨es ++ [(i, j)], by simp [Graph.addEdge, h1]⟩
  · intro x hx
    rw [f1]
    rcases (mem_call_edges (h.seen i j) x).mp hx with hx | hx
    · exact h.wf x hx
    · subst hx
      exact ⟨hi, by simp only; omega⟩
  · intro a b hb
    rw [mem_call_edges (h.seen i j)]
    rcases (mem_call_seen st i j a b).mp hb with hb | ⟨ha, hb⟩
    · exact Or.inl (h.seen a b hb)
    · right; rw [ha, hb]
  · intro a ha
    obtain ⟨h1, h2⟩ := h.single a ha
    constructor
    · intro b
      unfold Build.call
      split
      · exact h1 b
      · rename_i hc
        have hc' : j ∉ st.seen i := by simpa using hc
        simp only [Graph.addEdge, List.count_append, List.count_singleton]
        split
        · rename_i he
          simp only [beq_iff_eq, Prod.mk.injEq] at he
          obtain ⟨rfl, rfl⟩ := he
          rw [List.count_eq_zero_of_not_mem (fun hm => hc' (h2 _ hj hm))]
          exact Nat.le_refl _
        · exact h1 b
    · intro b hb hab
      rw [mem_call_seen]
      rcases (mem_call_edges (h.seen i j) _).mp hab with hab | hab
      · exact Or.inl (h2 b hb hab)
      · simp only [Prod.mk.injEq] at hab
        exact Or.inr hab

theorem setLocal_get (g : Graph) (i k : Nat) (l : Local) :
    (g.setLocal i l).nodes[k]? =
      if i = k then (g.nodes[k]?).map (fun nd => { nd with loc := l }) else g.nodes[k]? := by
  unfold Graph.setLocal
  simp only [List.getElem?_modify]
  split <;> simp

theorem setLocal_length (g : Graph) (i : Nat) (l : Local) :
    (g.setLocal i l).nodes.length = g.nodes.length := by
  simp [Graph.setLocal]

theorem MachineInv.setLocal {m : Nat} {st0 st : Build} (h : MachineInv m st0 st) {i : Nat}
    (hi : i < m) (l : Local) : MachineInv m st0 { st with g := st.g.setLocal i l } := by
  refine ⟨h.indices, h.indirects, h.fmts, h.aliases, h.ambiguous, h.info, h.untyped, h.addr, h.asmFns,
    h.defined, ?_, ?_, ?_, h.edges, ?_, h.seen, h.single⟩
  · simp only [setLocal_length]; exact h.len
  · intro k hk
    obtain ⟨nd0, nd, h1, h2, h3⟩ := h.old k hk
    simp only [setLocal_get]
    split
    · exact ⟨nd0, { nd with loc := l }, h1, by simp [h2], by rw [h3]⟩
    · exact ⟨nd0, nd, h1, h2, h3⟩
  · intro k h1 h2
    simp only [setLocal_length] at h2
    simp only [setLocal_get]
    rw [if_neg (by omega)]
    exact h.new k h1 h2
  · simp only [setLocal_length]
    exact h.wf

theorem MachineInv.unknownCallee {m : Nat} {st0 st : Build} (h : MachineInv m st0 st) {i : Nat}
    (hi : i < m) : MachineInv m st0 (st.unknownCallee i) := by
  have hl := h.len
  unfold Build.unknownCallee
  simp only [Graph.addNode, Graph.addEdge]
  obtain ⟨es, he1⟩ := h.edges
  refine ⟨h.indices, h.indirects, h.fmts, h.aliases, h.ambiguous, h.info, h.untyped, h.addr, h.asmFns,
    h.defined, ?_, ?_, ?_, ?_, ?_, ?_, ?_⟩
  · simp; omega
  · intro k hk
    obtain ⟨nd0, nd, h1, h2, h3⟩ := h.old k hk
    refine ⟨nd0, nd, h1, ?_, h3⟩
    simp only
    rw [List.getElem?_append_left (by omega)]
    exact h2
  · intro k h1 h2
    simp only [List.length_append, List.length_cons, List.length_nil] at h2
    simp only
    by_cases hk : k < st.g.nodes.length
    · rw [List.getElem?_append_left hk]
      exact h.new k h1 hk
    · have : k = st.g.nodes.length := by omega
      subst this
      simp [questionNode]
  · exact ⟨es ++ [(i, st.g.nodes.length)], by simp [he1]⟩
  · intro x hx
    rcases List.mem_append.mp hx with hx | hx
    · have := h.wf x hx
      simp only [List.length_append, List.length_cons, List.length_nil]
      omega
    · simp only [List.mem_singleton] at hx
      subst hx
      simp [hi]
  · intro a b hb
    exact List.mem_append.mpr (Or.inl (h.seen a b hb))
  · intro a ha
    obtain ⟨h1, h2⟩ := h.single a ha
    constructor
    · intro j
      simp only [List.count_append, List.count_singleton]
      split
      · rename_i he
        simp only [beq_iff_eq, Prod.mk.injEq] at he
        obtain ⟨rfl, rfl⟩ := he
        rw [List.count_eq_zero_of_not_mem]
        · exact Nat.le_refl _
        · intro hm
          exact Nat.lt_irrefl _ (h.wf _ hm).2
      · exact h1 j
    · intro j hj haj
      rcases List.mem_append.mp haj with haj | haj
      · exact h2 j hj haj
      · simp only [List.mem_singleton, Prod.mk.injEq] at haj
        omega

/-- The function found at an address. -/
def Resolves (st : Build) (addr j : Nat) : Prop :=
  ∃ name, mget addr st.addr2name = some name ∧ mget name st.indices = some j

/-- Call each of a list of addresses. -/
def callAddrs (caller : Nat) : Build → List Nat → Except Panic Build
  | st, [] => .ok st
  | st, addr :: rest =>
    match callAddr caller st addr with
    | .error e => .error e
    | .ok st' => callAddrs caller st' rest

/-- The addresses called by BL instructions. -/
def blAddrs (address : Nat) (offs : List Int) : List Nat :=
  offs.map (fun off => ((address + off) % 2 ^ 64).toNat)

/-- The addresses outside of the function to which B instructions jump. -/
def bAddrs (address size : Nat) (offs : List Int) : List Nat :=
  (offs.map (fun off => ((address + off) % 2 ^ 32).toNat)).filter
    (fun addr => ¬ (address ≤ addr ∧ addr < address + size))

theorem blLoop_eq (caller address : Nat) (offs : List Int) (st : Build) :
    blLoop caller address st offs = callAddrs caller st (blAddrs address offs) := by
  induction offs generalizing st with
  | nil => rfl
  | cons off offs ih =>
    simp only [blLoop, blAddrs, List.map_cons, callAddrs]
    cases callAddr caller st ((address + off) % 2 ^ 64).toNat with
    | error e => rfl
    | ok st' => exact ih st'

theorem bLoop_eq (caller address size : Nat) (offs : List Int) (st : Build) :
    bLoop caller address size st offs = callAddrs caller st (bAddrs address size offs) := by
  induction offs generalizing st with
  | nil => rfl
  | cons off offs ih =>
    simp only [bLoop, bAddrs, List.map_cons]
    split
    · rename_i h
      rw [List.filter_cons_of_neg (by simpa using h)]
      exact ih st
    · rename_i h
      rw [List.filter_cons, if_pos (decide_eq_true h)]
      simp only [callAddrs]
      cases callAddr caller st ((address + off) % 2 ^ 32).toNat with
      | error e => rfl
      | ok st' => exact ih st'

theorem callAddr_ok {caller addr : Nat} {st st' : Build} (h : callAddr caller st addr = .ok st') :
    ∃ j, Resolves st addr j ∧ st' = st.call caller j := by
  unfold callAddr at h
  split at h
  · simp at h
  · rename_i name h1
    split at h
    · simp at h
    · rename_i j h2
      simp only [Except.ok.injEq] at h
      exact ⟨j, ⟨name, h1, h2⟩, h.symm⟩

theorem Resolves.unique {st : Build} {addr j k : Nat} (hj : Resolves st addr j)
    (hk : Resolves st addr k) : j = k := by
  obtain ⟨n, h1, h2⟩ := hj
  obtain ⟨n', h3, h4⟩ := hk
  rw [h1] at h3
  rw [← Option.some.inj h3, h2] at h4
  exact Option.some.inj h4

theorem MachineInv.resolves {m : Nat} {st0 st : Build} (h : MachineInv m st0 st) (addr j : Nat) :
    Resolves st addr j ↔ Resolves st0 addr j := by
  unfold Resolves
  rw [h.addr, h.indices]

theorem callAddrs_spec {m : Nat} {st0 : Build} {i : Nat} (hi : i < m)
    (hidx : ∀ (n : Str) (k : Nat), mget n st0.indices = some k → k < m) (addrs : List Nat) :
    ∀ {st st' : Build}, MachineInv m st0 st → callAddrs i st addrs = .ok st' →
      MachineInv m st0 st' ∧ st'.g.nodes = st.g.nodes ∧
      (∀ addr ∈ addrs, ∃ j, Resolves st0 addr j) ∧
      ∀ x, x ∈ st'.g.edges ↔ x ∈ st.g.edges ∨ ∃ addr ∈ addrs, ∃ j, Resolves st0 addr j ∧ x = (i, j) := by
  induction addrs with
  | nil =>
    intro st st' inv h
    simp only [callAddrs, Except.ok.injEq] at h
    subst h
    exact ⟨inv, rfl, by simp, by simp⟩
  | cons addr addrs ih =>
    intro st st' inv h
    unfold callAddrs at h
    split at h
    · simp at h
    · rename_i st1 h1
      obtain ⟨j, hj, rfl⟩ := callAddr_ok h1
      rw [inv.resolves] at hj
      have hjm : j < m := by
        obtain ⟨n, _, h2⟩ := hj
        exact hidx n j h2
      obtain ⟨i1, i2, i3, i4⟩ := ih (inv.call hi hjm) h
      refine ⟨i1, i2.trans (call_frame st i j).1, ?_, ?_⟩
      · intro a ha
        rcases List.mem_cons.mp ha with rfl | ha
        · exact ⟨j, hj⟩
        · exact i3 a ha
      · intro x
        rw [i4, mem_call_edges (inv.seen i j)]
        constructor
        · rintro ((hx | hx) | ⟨a, ha, k, hk, hx⟩)
          · exact Or.inl hx
          · exact Or.inr ⟨addr, List.mem_cons_self, j, hj, hx⟩
          · exact Or.inr ⟨a, List.mem_cons_of_mem _ ha, k, hk, hx⟩
        · rintro (hx | ⟨a, ha, k, hk, hx⟩)
          · exact Or.inl (Or.inl hx)
          · rcases List.mem_cons.mp ha with rfl | ha
            · rw [hk.unique hj] at hx
              exact Or.inl (Or.inr hx)
            · exact Or.inr ⟨a, ha, k, hk, hx⟩

theorem MachineInv.touch {m : Nat} {st0 st : Build} (h : MachineInv m st0 st) (i : Nat) :
    MachineInv m st0 { st with edges := mset i (st.seen i) st.edges } := by
  have hseen : ∀ a, Build.seen { st with edges := mset i (st.seen i) st.edges } a = st.seen a := by
    intro a
    rw [seen_set st i a (st.seen i) _ rfl]
    split
    · rename_i h; rw [h]
    · rfl
  refine ⟨h.indices, h.indirects, h.fmts, h.aliases, h.ambiguous, h.info, h.untyped, h.addr, h.asmFns,
    h.defined, h.len, h.old, h.new, h.edges, h.wf, ?_, ?_⟩
  · intro a b hb
    rw [hseen] at hb
    exact h.seen a b hb
  · intro a ha
    obtain ⟨h1, h2⟩ := h.single a ha
    refine ⟨h1, ?_⟩
    intro j hj haj
    rw [hseen]
    exact h2 j hj haj

/-- The addresses called by the machine code of a function at `address`. -/
def calledAddrs (r : ThumbState) (address size : Nat) : List Nat :=
  blAddrs address r.bls ++ bAddrs address size r.bs

theorem callAddrs_append (i : Nat) (l1 l2 : List Nat) (st : Build) :
    callAddrs i st (l1 ++ l2) =
      match callAddrs i st l1 with
      | .error e => .error e
      | .ok st' => callAddrs i st' l2 := by
  induction l1 generalizing st with
  | nil => rfl
  | cons a l1 ih =>
    simp only [List.cons_append, callAddrs]
    cases callAddr i st a with
    | error e => rfl
    | ok st' => exact ih st'

/-- What one step does to the function with node `i`. -/
structure UseFacts (st0 : Build) (r : ThumbState) (canonical : Str) (address size i : Nat)
    (st st' : Build) : Prop where
  loc : ∃ nd nd', st.g.nodes[i]? = some nd ∧ st'.g.nodes[i]? = some nd' ∧
    overrideLocal nd.loc r.stack r.modifiesSp (st.asmFns.contains canonical) (isOutlined canonical)
      = .ok nd'.loc
  other : ∀ k, k ≠ i → k < st.g.nodes.length → st'.g.nodes[k]? = st.g.nodes[k]?
  resolved : ∀ addr ∈ calledAddrs r address size, ∃ j, Resolves st0 addr j
  edges : ∀ x, x ∈ st'.g.edges ↔ x ∈ st.g.edges ∨
    (∃ addr ∈ calledAddrs r address size, ∃ j, Resolves st0 addr j ∧ x = (i, j)) ∨
    (canonical ∉ st.defined ∧ r.indirect = true ∧ x = (i, st.g.nodes.length))
  question : canonical ∉ st.defined → r.indirect = true →
    st'.g.nodes[st.g.nodes.length]? = some questionNode

theorem useThumb_spec {m : Nat} {st0 st st' : Build} (inv : MachineInv m st0 st)
    (hidx : ∀ (n : Str) (k : Nat), mget n st0.indices = some k → k < m) {r : ThumbState}
    {canonical : Str} {address size : Nat} (h : useThumb r canonical address size st = .ok st') :
    MachineInv m st0 st' ∧ ∃ i, mget canonical st0.indices = some i ∧
      UseFacts st0 r canonical address size i st st' := by
  unfold useThumb at h
  split at h
  · simp at h
  · rename_i i hi
    rw [inv.indices] at hi
    have him := hidx canonical i hi
    split at h
    · simp at h
    · rename_i llvm hllvm
      split at h
      · simp at h
      · rename_i loc hloc
        have hnd : ∃ nd, st.g.nodes[i]? = some nd ∧ nd.loc = llvm := by
          unfold Graph.localAt at hllvm
          split at hllvm
          · rename_i nd hnd
            simp only [Except.ok.injEq] at hllvm
            exact ⟨nd, hnd, hllvm⟩
          · simp at hllvm
        obtain ⟨nd, hnd, rfl⟩ := hnd
        have hilt := (List.getElem?_eq_some_iff.mp hnd).1
        -- the state before the calls
        have key : ∀ st1 : Build, MachineInv m st0 st1 →
            (∃ nd', st1.g.nodes[i]? = some nd' ∧ nd'.loc = loc) →
            (∀ k, k ≠ i → k < st.g.nodes.length → st1.g.nodes[k]? = st.g.nodes[k]?) →
            (∀ x, x ∈ st1.g.edges ↔ x ∈ st.g.edges ∨
              (canonical ∉ st.defined ∧ r.indirect = true ∧ x = (i, st.g.nodes.length))) →
            (canonical ∉ st.defined → r.indirect = true →
              st1.g.nodes[st.g.nodes.length]? = some questionNode) →
            (match blLoop i address st1 r.bls with
              | .error e => Except.error e
              | .ok st => bLoop i address size st r.bs) = Except.ok st' →
            MachineInv m st0 st' ∧ UseFacts st0 r canonical address size i st st' := by
          intro st1 inv1 k1 k2 k3 k4 hcalls
          simp only [blLoop_eq, bLoop_eq] at hcalls
          have hcalls' : callAddrs i st1 (calledAddrs r address size) = .ok st' := by
            rw [calledAddrs, callAddrs_append]
            exact hcalls
          obtain ⟨c1, c2, c3, c4⟩ := callAddrs_spec him hidx _ inv1 hcalls'
          refine ⟨c1, ?_, ?_, c3, ?_, ?_⟩
          · obtain ⟨nd', h1, h2⟩ := k1
            exact ⟨nd, nd', hnd, by rw [c2]; exact h1, by rw [h2]; exact hloc⟩
          · intro k hk1 hk2
            rw [c2]; exact k2 k hk1 hk2
          · intro x
            rw [c4, k3, or_assoc]
            exact or_congr_right or_comm
          · intro h1 h2
            rw [c2]; exact k4 h1 h2
        have inv1 := inv.setLocal him loc
        generalize hst1 : ({ st with g := st.g.setLocal i loc } : Build) = st1 at *
        have hn1 : st1.g = st.g.setLocal i loc := by rw [← hst1]
        have hd1 : st1.defined = st.defined := by rw [← hst1]
        have hloc1 : ∃ nd', st1.g.nodes[i]? = some nd' ∧ nd'.loc = loc := by
          rw [hn1, setLocal_get, if_pos rfl, hnd]
          exact ⟨{ nd with loc := loc }, rfl, rfl⟩
        have hother1 : ∀ k, k ≠ i → k < st.g.nodes.length → st1.g.nodes[k]? = st.g.nodes[k]? := by
          intro k hk _
          rw [hn1, setLocal_get, if_neg (Ne.symm hk)]
        have he1 : st1.g.edges = st.g.edges := by rw [hn1]; rfl
        have hlen1 : st1.g.nodes.length = st.g.nodes.length := by rw [hn1, setLocal_length]
        by_cases hc : (!st1.defined.contains canonical && r.indirect) = true
        · simp only [hc, if_true] at h
          simp only [Bool.and_eq_true, Bool.not_eq_true', hd1] at hc
          have hc1 : canonical ∉ st.defined := by simpa using hc.1
          have inv2 := (inv1.unknownCallee him).touch i
          refine And.imp_right (fun hu => ⟨i, hi, hu⟩) (key _ inv2 ?_ ?_ ?_ ?_ h)
          · obtain ⟨nd', h1, h2⟩ := hloc1
            refine ⟨nd', ?_, h2⟩
            simp only [Build.unknownCallee, Graph.addNode, Graph.addEdge]
            rw [List.getElem?_append_left (by omega)]
            exact h1
          · intro k hk1 hk2
            simp only [Build.unknownCallee, Graph.addNode, Graph.addEdge]
            rw [List.getElem?_append_left (by omega)]
            exact hother1 k hk1 hk2
          · intro x
            simp only [Build.unknownCallee, Graph.addNode, Graph.addEdge, List.mem_append,
              List.mem_singleton, he1, hlen1]
            constructor
            · rintro (hx | hx)
              · exact Or.inl hx
              · exact Or.inr ⟨hc1, hc.2, hx⟩
            · rintro (hx | ⟨_, _, hx⟩)
              · exact Or.inl hx
              · exact Or.inr hx
          · intro _ _
            simp only [Build.unknownCallee, Graph.addNode, Graph.addEdge]
            rw [← hlen1]
            simp [questionNode]
        · simp only [hc, Bool.false_eq_true, if_false] at h
          simp only [Bool.and_eq_true, Bool.not_eq_true', hd1, not_and, Bool.not_eq_true] at hc
          have hc1 : canonical ∉ st.defined → r.indirect = true → False := by
            intro h1 h2
            have := hc (by simpa using h1)
            rw [this] at h2
            simp at h2
          refine And.imp_right (fun hu => ⟨i, hi, hu⟩) (key _ (inv1.touch i) hloc1 hother1 ?_ ?_ h)
          · intro x
            rw [he1]
            constructor
            · exact Or.inl
            · rintro (hx | ⟨h1, h2, _⟩)
              · exact hx
              · exact (hc1 h1 h2).elim
          · intro h1 h2
            exact (hc1 h1 h2).elim

/-- The canonical name and node of a symbol, as the pass finds them. -/
def NodeOf (st0 : Build) (e : Nat × Sym) (canonical : Str) (i : Nat) : Prop :=
  ∃ first rest, e.2.names = first :: rest ∧ mget first st0.aliases = some canonical ∧
    mget canonical st0.indices = some i

theorem NodeOf.unique {st0 : Build} {e : Nat × Sym} {c c' : Str} {i i' : Nat}
    (h : NodeOf st0 e c i) (h' : NodeOf st0 e c' i') : c = c' ∧ i = i' := by
  obtain ⟨f, r, h1, h2, h3⟩ := h
  obtain ⟨f', r', h1', h2', h3'⟩ := h'
  rw [h1] at h1'
  simp only [List.cons.injEq] at h1'
  rw [← h1'.1, h2] at h2'
  have hc := Option.some.inj h2'
  subst hc
  rw [h3] at h3'
  exact ⟨rfl, Option.some.inj h3'⟩

/-- The size used for a symbol. -/
def sizeOf' (search : TagSearch) (tags : List (Nat × Tag)) (e : Nat × Sym) : Nat :=
  symSize search tags (e.1 % 2 ^ 32) (e.2.size % 2 ^ 32)

/-- The result of the machine code analysis of a symbol. -/
def Analyzed (search : TagSearch) (v7 : Bool) (tags : List (Nat × Tag)) (stext : Nat) (text : List Nat)
    (e : Nat × Sym) (r : ThumbState) : Prop :=
  ∃ bytes, textSlice stext text (e.1 % 2 ^ 32) (sizeOf' search tags e) = .ok bytes ∧
    thumbAnalyze search bytes (e.1 % 2 ^ 32) v7 tags = .ok r

theorem Analyzed.unique {search : TagSearch} {v7 : Bool} {tags : List (Nat × Tag)} {stext : Nat}
    {text : List Nat} {e : Nat × Sym} {r r' : ThumbState}
    (h : Analyzed search v7 tags stext text e r) (h' : Analyzed search v7 tags stext text e r') :
    r = r' := by
  obtain ⟨b, h1, h2⟩ := h
  obtain ⟨b', h1', h2'⟩ := h'
  rw [h1] at h1'
  rw [← Except.ok.inj h1', h2] at h2'
  exact Except.ok.inj h2'

theorem machineStep_spec {m : Nat} {st0 st st' : Build} (inv : MachineInv m st0 st)
    (hidx : ∀ (n : Str) (k : Nat), mget n st0.indices = some k → k < m) {search : TagSearch}
    {v7 : Bool} {tags : List (Nat × Tag)} {stext : Nat} {text : List Nat} {e : Nat × Sym}
    (h : machineStep search v7 tags stext text st e = .ok st') :
    MachineInv m st0 st' ∧ ∃ c i r, NodeOf st0 e c i ∧ Analyzed search v7 tags stext text e r ∧
      UseFacts st0 r c (e.1 % 2 ^ 32) (sizeOf' search tags e) i st st' := by
  unfold machineStep at h
  split at h
  · simp at h
  · rename_i first rest hn
    split at h
    · simp at h
    · rename_i canonical hc
      rw [inv.aliases] at hc
      simp only at h
      split at h
      · simp at h
      · rename_i bytes hb
        split at h
        · simp at h
        · rename_i r hr
          obtain ⟨inv', i, hi, hu⟩ := useThumb_spec inv hidx h
          exact ⟨inv', canonical, i, r, ⟨first, rest, hn, hc, hi⟩, ⟨bytes, hb, hr⟩, hu⟩

/-- What is known after the symbols `es` have been processed, from `st` to `st'`. -/
structure MachineFacts (st0 : Build) (search : TagSearch) (v7 : Bool) (tags : List (Nat × Tag))
    (stext : Nat) (text : List Nat) (es : List (Nat × Sym)) (st st' : Build) : Prop where
  mono : ∀ x ∈ st.g.edges, x ∈ st'.g.edges
  len : st.g.nodes.length ≤ st'.g.nodes.length
  sound : ∀ x ∈ st'.g.edges, x ∈ st.g.edges ∨ ∃ e ∈ es, ∃ c r, NodeOf st0 e c x.1 ∧
    Analyzed search v7 tags stext text e r ∧
    ((∃ addr ∈ calledAddrs r (e.1 % 2 ^ 32) (sizeOf' search tags e), Resolves st0 addr x.2) ∨
     (c ∉ st0.defined ∧ r.indirect = true ∧ st'.g.nodes[x.2]? = some questionNode ∧
       st.g.nodes.length ≤ x.2))
  complete : ∀ e ∈ es, ∃ c i r, NodeOf st0 e c i ∧ Analyzed search v7 tags stext text e r ∧
    (∀ addr ∈ calledAddrs r (e.1 % 2 ^ 32) (sizeOf' search tags e),
      ∃ j, Resolves st0 addr j ∧ (i, j) ∈ st'.g.edges) ∧
    (c ∉ st0.defined → r.indirect = true →
      ∃ k, st.g.nodes.length ≤ k ∧ st'.g.nodes[k]? = some questionNode ∧ (i, k) ∈ st'.g.edges)
  other : ∀ k, k < st.g.nodes.length → (∀ e ∈ es, ∀ c i, NodeOf st0 e c i → i ≠ k) →
    st'.g.nodes[k]? = st.g.nodes[k]?
  loc : es.Pairwise (fun e e' => ∀ c i c' i', NodeOf st0 e c i → NodeOf st0 e' c' i' → i ≠ i') →
    ∀ e ∈ es, ∃ c i r nd nd', NodeOf st0 e c i ∧ Analyzed search v7 tags stext text e r ∧
      st.g.nodes[i]? = some nd ∧ st'.g.nodes[i]? = some nd' ∧
      overrideLocal nd.loc r.stack r.modifiesSp (st0.asmFns.contains c) (isOutlined c)
        = .ok nd'.loc

theorem machineLoop_spec {m : Nat} {st0 : Build} {search : TagSearch}
    {v7 : Bool} {tags : List (Nat × Tag)} {stext : Nat} {text : List Nat}
    (hidx : ∀ (n : Str) (k : Nat), mget n st0.indices = some k → k < m) (es : List (Nat × Sym)) :
    ∀ {st st' : Build}, MachineInv m st0 st →
      machineLoop search v7 tags stext text st es = .ok st' →
      MachineInv m st0 st' ∧ MachineFacts st0 search v7 tags stext text es st st' := by
  induction es with
  | nil =>
    intro st st' inv h
    simp only [machineLoop, Except.ok.injEq] at h
    subst h
    exact ⟨inv, ⟨fun _ h => h, Nat.le_refl _, fun _ h => Or.inl h, by simp, fun _ _ _ => rfl, by simp⟩⟩
  | cons e es ih =>
    intro st st' inv h
    unfold machineLoop at h
    split at h
    · simp at h
    · rename_i st1 h1
      obtain ⟨inv1, c, i, r, hno, han, hu⟩ := machineStep_spec inv hidx h1
      obtain ⟨inv2, f⟩ := ih inv1 h
      have him : i < m := by
        obtain ⟨_, _, _, _, h3⟩ := hno
        exact hidx c i h3
      have hlen1 : st.g.nodes.length ≤ st1.g.nodes.length := by
        by_cases hl : st.g.nodes.length ≤ m
        · exact Nat.le_trans hl inv1.len
        · -- the last node is untouched
          have hpos : st.g.nodes.length - 1 < st.g.nodes.length := by omega
          have := hu.other (st.g.nodes.length - 1) (by omega) hpos
          rw [List.getElem?_eq_getElem hpos] at this
          have := (List.getElem?_eq_some_iff.mp this).1
          omega
      -- nodes at or above m are untouched by later steps
      have hkeep : ∀ k, m ≤ k → k < st1.g.nodes.length → st'.g.nodes[k]? = some questionNode :=
        fun k h1 h2 => inv2.new k h1 (Nat.lt_of_lt_of_le h2 f.len)
      refine ⟨inv2, ?_, Nat.le_trans hlen1 f.len, ?_, ?_, ?_, ?_⟩
      · intro x hx
        exact f.mono x ((hu.edges x).mpr (Or.inl hx))
      · intro x hx
        rcases f.sound x hx with hx | ⟨e', he', hx⟩
        · rcases (hu.edges x).mp hx with hx | ⟨addr, ha, j, hj, hx⟩ | ⟨hd, hr, hx⟩
          · exact Or.inl hx
          · subst hx
            exact Or.inr ⟨e, List.mem_cons_self, c, r, hno, han, Or.inl ⟨addr, ha, hj⟩⟩
          · subst hx
            refine Or.inr ⟨e, List.mem_cons_self, c, r, hno, han, Or.inr ⟨?_, hr, ?_⟩⟩
            · rw [← inv.defined]; exact hd
            · have hq := (List.getElem?_eq_some_iff.mp (hu.question hd hr)).1
              exact ⟨hkeep _ inv.len hq, Nat.le_refl _⟩
        · obtain ⟨c', r', k1, k2, k3⟩ := hx
          refine Or.inr ⟨e', List.mem_cons_of_mem _ he', c', r', k1, k2, ?_⟩
          rcases k3 with k3 | ⟨k3, k4, k5, k6⟩
          · exact Or.inl k3
          · exact Or.inr ⟨k3, k4, k5, Nat.le_trans hlen1 k6⟩
      · intro e' he'
        rcases List.mem_cons.mp he' with rfl | he'
        · refine ⟨c, i, r, hno, han, ?_, ?_⟩
          · intro addr ha
            obtain ⟨j, hj⟩ := hu.resolved addr ha
            exact ⟨j, hj, f.mono _ ((hu.edges _).mpr (Or.inr (Or.inl ⟨addr, ha, j, hj, rfl⟩)))⟩
          · intro hd hr
            rw [← inv.defined] at hd
            have hq := (List.getElem?_eq_some_iff.mp (hu.question hd hr)).1
            exact ⟨st.g.nodes.length, Nat.le_refl _, hkeep _ inv.len hq,
              f.mono _ ((hu.edges _).mpr (Or.inr (Or.inr ⟨hd, hr, rfl⟩)))⟩
        · obtain ⟨c', i', r', k1, k2, k3, k4⟩ := f.complete e' he'
          refine ⟨c', i', r', k1, k2, k3, fun hd hr => ?_⟩
          obtain ⟨k, k5, k6⟩ := k4 hd hr
          exact ⟨k, Nat.le_trans hlen1 k5, k6⟩
      · intro k hk hne
        rw [f.other k (by omega) (fun e' he' => hne e' (List.mem_cons_of_mem _ he'))]
        exact hu.other k (Ne.symm (hne e List.mem_cons_self c i hno)) hk
      · intro hp e' he'
        rw [List.pairwise_cons] at hp
        rcases List.mem_cons.mp he' with rfl | he'
        · obtain ⟨nd, nd', l1, l2, l3⟩ := hu.loc
          rw [inv.asmFns] at l3
          refine ⟨c, i, r, nd, nd', hno, han, l1, ?_, l3⟩
          rw [f.other i (List.getElem?_eq_some_iff.mp l2).1 ?_]
          · exact l2
          · intro e'' he'' c'' i'' hno''
            exact Ne.symm (hp.1 e'' he'' c i c'' i'' hno hno'')
        · obtain ⟨c', i', r', nd, nd', n1, n2, n3, n4, n5⟩ := f.loc hp.2 e' he'
          have hne : i ≠ i' := hp.1 e' he' c i c' i' hno n1
          have him' : i' < m := by
            obtain ⟨_, _, _, _, h3⟩ := n1
            exact hidx c' i' h3
          refine ⟨c', i', r', nd, nd', n1, n2, ?_, n4, n5⟩
          rw [← hu.other i' (Ne.symm hne) (Nat.lt_of_lt_of_le him' inv.len)]
          exact n3

end CallStack
