import Verif.Proof.Chains

/-!
Properties C01-C12 and C17: the maximum stack usage analysis (main.rs:1135-1215).

`analyzeMax true g = .ok (g', cs)` is a run of the analysis on a graph with stack usage information:
`g'` is the graph that is printed, `cs` its clusters. Hypotheses: `g.WF` (edges connect existing
nodes, which petgraph enforces by panicking) and `g.LocalsU64` (local usages are `u64`s).
-/

namespace CallStack

/-- A graph used in examples: `main(8) → f(16)`, `f ↔ h(0)`, `main → k(unknown)`, `h → l(4)`. -/
def exGraph : Graph :=
  { nodes := [mkNode c!"main" (some 8) false, mkNode c!"f" (some 16) false,
      mkNode c!"h" (some 0) false, mkNode c!"k" none false, mkNode c!"l" (some 4) false]
    edges := [(0, 1), (1, 2), (2, 1), (0, 3), (2, 4)] }

/-- `main(8) → a(16) → b(0) ↺, main → c(24)`. -/
def exGraph2 : Graph :=
  { nodes := [mkNode c!"main" (some 8) false, mkNode c!"a" (some 16) false,
      mkNode c!"b" (some 0) false, mkNode c!"c" (some 24) false]
    edges := [(0, 1), (1, 2), (2, 2), (0, 3)] }

theorem exGraph_wf : exGraph.WF := by unfold Graph.WF; decide
theorem exGraph2_wf : exGraph2.WF := by unfold Graph.WF; decide
theorem exGraph_u64 : exGraph.LocalsU64 := localsU64_of_total (by decide)
theorem exGraph2_u64 : exGraph2.LocalsU64 := localsU64_of_total (by decide)

/-- What the analysis prints for the two graphs. -/
example : (analyzeMax true exGraph).toOption.map
    (fun r => (r.1.nodes.map (·.max), r.2)) =
    some ([some (.lowerBound 28), some (.lowerBound 20), some (.lowerBound 20),
      some (.lowerBound 0), some (.exact 4)], [[1, 2]]) := by decide

example : (analyzeMax true exGraph2).toOption.map
    (fun r => (r.1.nodes.map (·.max), r.2)) =
    some ([some (.exact 32), some (.exact 16), some (.exact 0), some (.exact 24)], [[2]]) := by decide

/-- **C01** An exact max bounds every call chain, however long. -/
theorem C01_exact_max_sound {g g' : Graph} {cs : List (List Nat)} (hwf : g.WF) (hu : g.LocalsU64)
    (h : analyzeMax true g = .ok (g', cs)) {v n : Nat} (hv : g'.maxOf? v = some (.exact n))
    {l : List Nat} (hl : CallChain g'.Calls v l) :
    (∀ u ∈ l, (g'.locOf u).Known) ∧ weight g'.locOf l ≤ n := by
  obtain ⟨⟨h1, h2⟩, _⟩ := analyzeMax_maxSpec hwf hu h hv
  have hb := h2.mp trivial
  refine ⟨fun u hu => (hb u (hl.reach u hu)).1, ?_⟩
  obtain ⟨us, hg, hw⟩ := hl.toGroup hb
  rw [← hw]
  exact h1.2 us hg

/-- **C02** An exact max is the weight of some call chain. -/
theorem C02_exact_max_attained {g g' : Graph} {cs : List (List Nat)} (hwf : g.WF) (hu : g.LocalsU64)
    (h : analyzeMax true g = .ok (g', cs)) {v n : Nat} (hv : g'.maxOf? v = some (.exact n)) :
    ∃ l, CallChain g'.Calls v l ∧ weight g'.locOf l = n := by
  obtain ⟨⟨⟨⟨us, hg, hw⟩, _⟩, _⟩, _⟩ := analyzeMax_maxSpec hwf hu h hv
  obtain ⟨l, h1, h2⟩ := hg.toCall (loc := g'.locOf)
  have := (C01_exact_max_sound hwf hu h hv h1).2
  simp only [Max.bytes] at hw
  exact ⟨l, h1, by omega⟩

/-- **C03** A lower bound is below the weight of some call chain. -/
theorem C03_lower_bound_genuine {g g' : Graph} {cs : List (List Nat)} (hwf : g.WF) (hu : g.LocalsU64)
    (h : analyzeMax true g = .ok (g', cs)) {v n : Nat} (hv : g'.maxOf? v = some (.lowerBound n)) :
    ∃ l, CallChain g'.Calls v l ∧ n ≤ weight g'.locOf l := by
  obtain ⟨⟨⟨⟨us, hg, hw⟩, _⟩, _⟩, _⟩ := analyzeMax_maxSpec hwf hu h hv
  obtain ⟨l, h1, h2⟩ := hg.toCall (loc := g'.locOf)
  simp only [Max.bytes] at hw
  exact ⟨l, h1, by omega⟩

/-- **C04** `=` is printed exactly when everything reachable is known and reachable recursion is
free. -/
theorem C04_exact_iff {g g' : Graph} {cs : List (List Nat)} (hwf : g.WF) (hu : g.LocalsU64)
    (h : analyzeMax true g = .ok (g', cs)) {v : Nat} {m : Max} (hv : g'.maxOf? v = some m) :
    (∃ n, m = .exact n) ↔
      ∀ u, Reach g'.Calls v u →
        (∃ n, g'.locOf u = .exact n) ∧ (Recursive g'.Calls u → g'.locOf u = .exact 0) := by
  have hm := (analyzeMax_maxSpec hwf hu h hv).1.2
  have h1 : (∃ n, m = .exact n) ↔ m.IsExact := by cases m <;> simp [Max.IsExact]
  rw [h1, hm]
  refine forall₂_congr fun u _ => ?_
  cases g'.locOf u <;> simp [Local.Known, Local.bytes]

/-- **C05** The printed number is the heaviest chain across distinct recursion groups. -/
theorem C05_heaviest {g g' : Graph} {cs : List (List Nat)} (hwf : g.WF) (hu : g.LocalsU64)
    (h : analyzeMax true g = .ok (g', cs)) {v : Nat} {m : Max} (hv : g'.maxOf? v = some m) :
    Heaviest g'.Calls g'.locOf v m.bytes :=
  (analyzeMax_maxSpec hwf hu h hv).1.1

/-- The hypotheses of C01-C05 are met by `exGraph2`, where `main` gets `max = 32`. -/
example : ∃ g' cs, analyzeMax true exGraph2 = .ok (g', cs) ∧ g'.maxOf? 0 = some (.exact 32) :=
  ⟨_, _, rfl, rfl⟩

/-- ... and by `exGraph`, where `main` gets `max >= 28`. -/
example : ∃ g' cs, analyzeMax true exGraph = .ok (g', cs) ∧ g'.maxOf? 0 = some (.lowerBound 28) :=
  ⟨_, _, rfl, rfl⟩

/-- **C06** The analysis never aborts, keeps everything but `max`, and covers every node. -/
theorem C06_total {g : Graph} (hwf : g.WF) (ht : g.totalKnown < 2 ^ 64) :
    ∃ g' cs, analyzeMax true g = .ok (g', cs) ∧ SameButMax g g' ∧
      ∀ v < g.nodes.length, ∃ m, g'.maxOf? v = some m := by
  rcases analyzeMax_spec hwf (localsU64_of_total ht) with ⟨_, hov⟩ | ⟨g', cs, e, h1, h2, _⟩
  · have := overflows_total hwf hov
    omega
  · exact ⟨g', cs, e, h1, fun v hv => let ⟨m, hm, _⟩ := h2 v hv; ⟨m, hm⟩⟩

/-- **C06** Even when sums do not fit in 64 bits, none of the `expect("UNREACHABLE")`s is hit: the
only possible abort is an arithmetic overflow. -/
theorem C06_only_overflow {g : Graph} (hwf : g.WF) (hu : g.LocalsU64) {e : Panic}
    (h : analyzeMax true g = .error e) : e = .overflow := by
  rcases analyzeMax_spec hwf hu with ⟨e', _⟩ | ⟨g', cs, e', _⟩
  · rw [h] at e'; simpa using e'
  · rw [h] at e'; simp at e'

/-- **C06** The analysis aborts exactly if the heaviest chain from some function does not fit in 64 bits. -/
theorem C06_abort_iff {g : Graph} (hwf : g.WF) (hu : g.LocalsU64) :
    (∃ e, analyzeMax true g = .error e) ↔
      ∃ v < g.nodes.length, ∃ k, 2 ^ 64 ≤ k ∧ Heaviest g.Calls g.locOf v k := by
  rcases analyzeMax_spec hwf hu with ⟨e, hov⟩ | ⟨g', cs, e, _, h2, _⟩
  · exact ⟨fun _ => hov, fun _ => ⟨_, e⟩⟩
  · constructor
    · rintro ⟨e', h⟩
      rw [e] at h
      simp at h
    · intro hov
      exact absurd hov (not_overflows_of_done h2)

/-- **C06** Whenever the analysis completes, it keeps everything but `max` and every node has a max. -/
theorem C06_covers {g g' : Graph} {cs : List (List Nat)} (hwf : g.WF) (hu : g.LocalsU64)
    (h : analyzeMax true g = .ok (g', cs)) :
    SameButMax g g' ∧ ∀ v < g.nodes.length, ∃ m, g'.maxOf? v = some m :=
  let ⟨h1, h2, _⟩ := analyzeMax_ok hwf hu h
  ⟨h1, fun v hv => let ⟨m, hm, _⟩ := h2 v hv; ⟨m, hm⟩⟩

/-- Two functions that use half of the address space each. -/
def exHuge : Graph :=
  ⟨[mkNode c!"f" (some (2 ^ 63)) false, mkNode c!"g" (some (2 ^ 63)) false], [(0, 1)]⟩

example : exHuge.LocalsU64 ∧ ∃ e, analyzeMax true exHuge = .error e := by
  refine ⟨fun i => ?_, _, rfl⟩
  match i with
  | 0 => decide
  | 1 => decide
  | _ + 2 => exact Nat.two_pow_pos 64

/-- **C06** Without stack usage information nothing is assigned and no cycle is reported. -/
theorem C06_no_info {g : Graph} (hnone : ∀ v, g.maxOf? v = none) :
    ∃ g' cs, analyzeMax false g = .ok (g', cs) ∧ SameButMax g g' ∧ (∀ v, g'.maxOf? v = none) ∧ cs = [] :=
  ⟨g, [], rfl, SameButMax.refl g, hnone, rfl⟩

example : exGraph.totalKnown < 2 ^ 64 := by decide

/-- **C07** Renumbering nodes and reordering edges does not change any max. -/
theorem C07_order_independent {g₁ g₂ g₁' g₂' : Graph} {cs₁ cs₂ : List (List Nat)} {π : Nat → Nat}
    (hwf₁ : g₁.WF) (hwf₂ : g₂.WF) (hu₁ : g₁.LocalsU64) (hu₂ : g₂.LocalsU64) (hπ : Renumber g₁ g₂ π)
    (h₁ : analyzeMax true g₁ = .ok (g₁', cs₁)) (h₂ : analyzeMax true g₂ = .ok (g₂', cs₂))
    {v : Nat} (hv : v < g₁.nodes.length) : g₂'.maxOf? (π v) = g₁'.maxOf? v := by
  obtain ⟨a1, a2, _⟩ := analyzeMax_ok hwf₁ hu₁ h₁
  obtain ⟨b1, b2, _⟩ := analyzeMax_ok hwf₂ hu₂ h₂
  obtain ⟨m, k1, _, k3⟩ := a2 v hv
  obtain ⟨m', l1, _, l3⟩ := b2 (π v) (hπ.lt v hv)
  rw [k1, l1, ((hπ.embed hwf₁ hwf₂).maxSpec hv k3).unique l3]

/-- `exGraph2` with the nodes in the opposite order and the edges shuffled. -/
def exGraph2r : Graph :=
  { nodes := exGraph2.nodes.reverse
    edges := [(3, 0), (1, 1), (3, 2), (2, 1)] }

example : Renumber exGraph2 exGraph2r (fun i => 3 - i) := by
  refine ⟨?_, ?_, ?_, ?_, ?_⟩
  · decide
  · decide
  · decide
  · decide
  · unfold Graph.Calls; decide

/-- **C08** The cyclic branch is taken exactly when some function is recursive. -/
theorem C08_branch {g : Graph} (hwf : g.WF) :
    ∃ b, isCyclic g.nodes.length g.out = some b ∧ (b = true ↔ ∃ v, Recursive g.Calls v) := by
  have := isCyclic_spec g.nodes.length g.out hwf.out_lt
  rwa [adjRel_out] at this

/-- **C08** Without recursion both algorithms give the same result. -/
theorem C08_agree {g : Graph} (hwf : g.WF) (hu : g.LocalsU64) (hac : ∀ v, ¬ Recursive g.Calls v) :
    analyzeCyclic g = (analyzeAcyclic g).map (fun g' => (g', [])) := by
  rcases analyzeCyclic_spec hwf hu with ⟨e, hov⟩ | ⟨sccs, g', cs, e, h1, h2, hsc, h3, h4⟩
  · rcases analyzeAcyclic_spec hwf hu hac with ⟨e', _⟩ | ⟨g'', _, _, k2⟩
    · rw [e, e']; rfl
    · exact absurd hov (not_overflows_of_done k2)
  · rcases analyzeAcyclic_spec hwf hu hac with ⟨_, hov⟩ | ⟨g'', e', k1, k2⟩
    · exact absurd hov (not_overflows_of_done h2)
    · rw [e, e']
      have hcs : cs = [] := by
        refine List.eq_nil_iff_forall_not_mem.mpr fun c hc => ?_
        obtain ⟨a, ha⟩ := List.exists_mem_of_ne_nil c (hsc.nonempty c (h3.subset hc))
        exact hac a ((h4 c (h3.subset hc)).mp hc a ha)
      have hg : g' = g'' := by
        refine SameButMax.eq_of_max (k1.symm.trans h1) fun v hv => ?_
        rw [k1.length] at hv
        obtain ⟨m, m1, _, m3⟩ := h2 v hv
        obtain ⟨m', n1, _, n3⟩ := k2 v hv
        rw [m1, n1, m3.unique n3]
      rw [hcs, hg]; rfl

/-- A graph without recursion: `main(8) → f(16) → k(4)`, `main → k`. -/
def exGraph3 : Graph :=
  { nodes := [mkNode c!"main" (some 8) false, mkNode c!"f" (some 16) false,
      mkNode c!"k" (some 4) false]
    edges := [(0, 1), (1, 2), (0, 2)] }

example : ∀ v, ¬ Recursive exGraph3.Calls v := by
  have hwf : exGraph3.WF := by unfold Graph.WF; decide
  obtain ⟨b, hb, hiff⟩ := C08_branch hwf
  have : isCyclic exGraph3.nodes.length exGraph3.out = some false := by decide
  rw [this] at hb
  simp only [Option.some.injEq] at hb
  subst hb
  intro v hv
  have := hiff.mpr ⟨v, hv⟩
  simp at this

/-- **C09** The clusters are exactly the recursion groups. -/
theorem C09_clusters {g g' : Graph} {cs : List (List Nat)} (hwf : g.WF) (hu : g.LocalsU64)
    (h : analyzeMax true g = .ok (g', cs)) :
    (∀ v, (∃ c ∈ cs, v ∈ c) ↔ Recursive g'.Calls v) ∧
    (∀ a b, Recursive g'.Calls a → ((∃ c ∈ cs, a ∈ c ∧ b ∈ c) ↔ SameGroup g'.Calls a b)) ∧
    cs.Pairwise (fun c d => ∀ x ∈ c, x ∉ d) ∧ cs.flatten.Nodup ∧ ∀ c ∈ cs, c ≠ [] := by
  obtain ⟨h1, _, h3, h4, h5, h6⟩ := analyzeMax_ok hwf hu h
  rw [h1.calls]
  refine ⟨fun v => (h6 v).symm, fun a b ha => ⟨?_, fun hab => ?_⟩, ?_, h4, h3⟩
  · rintro ⟨c, hc, hac, hbc⟩
    exact (h5 c hc a hac b).mp hbc
  · obtain ⟨c, hc, hac⟩ := (h6 a).mp ha
    exact ⟨c, hc, hac, (h5 c hc a hac b).mpr hab⟩
  · have := (List.nodup_flatten.mp h4).2
    refine this.imp ?_
    intro c d hcd x hx hx'
    exact hcd hx hx'

/-- In `exGraph` there is one cluster, `{f, h}`. -/
example : ∃ g', analyzeMax true exGraph = .ok (g', [[1, 2]]) := ⟨_, rfl⟩

/-- **C10** `max_of` of a permutation is the same. -/
theorem C10_perm {ms ms' : List Max} (h : ms.Perm ms') : maxOf ms = maxOf ms' := by
  cases hm : maxOf ms with
  | none =>
    have := maxOf_none.mp hm
    subst this
    rw [List.nil_perm.mp h]; rfl
  | some m =>
    have hne : ms' ≠ [] := by
      rintro rfl
      rw [List.perm_nil.mp h] at hm
      simp [maxOf] at hm
    obtain ⟨m', hm'⟩ := maxOf_ne_nil hne
    obtain ⟨⟨x, hx, hxe⟩, a2, a3⟩ := maxOf_some hm
    obtain ⟨⟨y, hy, hye⟩, b2, b3⟩ := maxOf_some hm'
    rw [hm', Option.some.injEq, Max.ext_iff, a3, b3]
    refine ⟨?_, forall_congr' fun z => by rw [h.mem_iff]⟩
    have := a2 y (h.mem_iff.mpr hy)
    have := b2 x (h.mem_iff.mp hx)
    omega

/-- **C10** `max_of` is the least upper bound, and exact only if all are. -/
theorem C10_max {ms : List Max} {m : Max} (h : maxOf ms = some m) :
    (∀ x ∈ ms, x.bytes ≤ m.bytes) ∧ (∃ x ∈ ms, x.bytes = m.bytes) ∧
      ((∃ n, m = .exact n) ↔ ∀ x ∈ ms, ∃ n, x = .exact n) := by
  obtain ⟨h1, h2, h3⟩ := maxOf_some h
  refine ⟨h2, h1, ?_⟩
  have hex : ∀ x : Max, (∃ n, x = .exact n) ↔ x.IsExact := by
    intro x; cases x <;> simp [Max.IsExact]
  simp only [hex, h3]

/-- The case of the v0.1.1 changelog: `>= 0` and `= 8` combine to `>= 8`. -/
example : maxOf [.lowerBound 0, .exact 8] = some (.lowerBound 8) := rfl

/-- **C11** If the sum of the known locals fits in 64 bits then no addition of the analysis overflows
and all results are below that sum. -/
theorem C11_no_overflow {g : Graph} (hwf : g.WF) (ht : g.totalKnown < 2 ^ 64) :
    ∃ g' cs, analyzeMax true g = .ok (g', cs) ∧
      ∀ v m, g'.maxOf? v = some m → m.bytes ≤ g.totalKnown := by
  obtain ⟨g', cs, e, hsame, _⟩ := C06_total hwf ht
  have hlen := hsame.length
  refine ⟨g', cs, e, fun v m hm => ?_⟩
  have hu := localsU64_of_total ht
  have hlt : v < g.nodes.length := by rw [← hlen]; exact maxOf?_lt hm
  obtain ⟨h1, h2, _⟩ := analyzeMax_ok hwf hu e
  obtain ⟨m', k1, _, k3⟩ := h2 v hlt
  rw [hm] at k1
  simp only [Option.some.injEq] at k1
  subst k1
  exact k3.1.le_total hwf hlt

/-- The bound is tight: two functions of 2⁶³ bytes overflow. -/
example : analyzeMax true
    { nodes := [mkNode c!"a" (some (2 ^ 63)) false, mkNode c!"b" (some (2 ^ 63)) false]
      edges := [(0, 1)] } = .error .overflow := rfl

/-- **C12** Growing local usages never shrinks a reported number. -/
theorem C12_monotone {g₁ g₂ g₁' g₂' : Graph} {cs₁ cs₂ : List (List Nat)}
    (hwf₁ : g₁.WF) (hwf₂ : g₂.WF) (hu₁ : g₁.LocalsU64) (hu₂ : g₂.LocalsU64)
    (hlen : g₁.nodes.length = g₂.nodes.length) (hcalls : ∀ a b, g₁.Calls a b ↔ g₂.Calls a b)
    (hle : ∀ i, (g₁.locOf i).bytes ≤ (g₂.locOf i).bytes)
    (h₁ : analyzeMax true g₁ = .ok (g₁', cs₁)) (h₂ : analyzeMax true g₂ = .ok (g₂', cs₂))
    {v : Nat} (hv : v < g₁.nodes.length) :
    ∃ m₁ m₂, g₁'.maxOf? v = some m₁ ∧ g₂'.maxOf? v = some m₂ ∧ m₁.bytes ≤ m₂.bytes := by
  obtain ⟨_, a2, _⟩ := analyzeMax_ok hwf₁ hu₁ h₁
  obtain ⟨_, b2, _⟩ := analyzeMax_ok hwf₂ hu₂ h₂
  obtain ⟨m₁, k1, _, k3⟩ := a2 v hv
  obtain ⟨m₂, l1, _, l3⟩ := b2 v (hlen ▸ hv)
  refine ⟨m₁, m₂, k1, l1, ?_⟩
  have hE : g₁.Calls = g₂.Calls := by funext a b; exact propext (hcalls a b)
  obtain ⟨⟨us, hg, hw⟩, _⟩ := k3.1
  rw [hE] at hg
  refine Nat.le_trans ?_ (l3.1.2 us hg)
  rw [← hw]
  clear hg hw
  induction us with
  | nil => simp [weight]
  | cons u us ih =>
    rw [weight_cons, weight_cons]
    have := hle u
    omega

/-- `exGraph2` with every local usage grown by one byte. -/
def exGraph2g : Graph :=
  ⟨exGraph2.nodes.map (fun nd => { nd with loc := .exact (nd.loc.bytes + 1) }), exGraph2.edges⟩

example : ∀ i, (exGraph2.locOf i).bytes ≤ (exGraph2g.locOf i).bytes := by
  intro i
  unfold Graph.locOf exGraph2g
  simp only [List.getElem?_map]
  cases exGraph2.nodes[i]? with
  | none => simp
  | some nd => simp [Local.bytes]

/-- **C12** The analogous claim for adding a call is false: with `a(8) → b(8)` the max of `a` is
`= 16`; adding the call `b → a` lowers the printed number to `>= 8`. -/
theorem C12_adding_a_call_can_lower :
    ∃ g g₂ g' g₂' : Graph, ∃ cs cs₂, g₂ = g.addEdge 1 0 ∧
      analyzeMax true g = .ok (g', cs) ∧ g'.maxOf? 0 = some (.exact 16) ∧
      analyzeMax true g₂ = .ok (g₂', cs₂) ∧ g₂'.maxOf? 0 = some (.lowerBound 8) :=
  ⟨{ nodes := [mkNode c!"a" (some 8) false, mkNode c!"b" (some 8) false], edges := [(0, 1)] },
    _, _, _, _, _, rfl, rfl, rfl, rfl, rfl⟩

/-- **C17** `kosaraju_scc` terminates and returns all recursion groups, callees first. -/
theorem C17_scc_order {g : Graph} (hwf : g.WF) :
    ∃ sccs, kosaraju g.nodes.length g.out g.inc = some sccs ∧
      SccOrder g.Calls g.nodes.length sccs := by
  have := kosaraju_spec g.nodes.length g.out g.inc hwf.out_lt
    (fun a b => by rw [Graph.mem_inc, Graph.mem_out])
  rwa [adjRel_out] at this

example : kosaraju exGraph.nodes.length exGraph.out exGraph.inc = some [[4], [3], [1, 2], [0]] := by
  decide

end CallStack
