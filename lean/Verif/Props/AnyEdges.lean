import Verif.Proof.AnyEdges
import Verif.Proof.Examples
import Verif.Props.Build

/-!
Property C125: exactly which nodes and edges the LLVM-IR gives, whatever the names of the functions (main.rs:460-763).
-/

namespace CallStack

/-- **C125** After the pass over the LLVM-IR there is a node of a name exactly if a live function is shown under this
name, or it is called through a bitcast, or it is an undefined symbol other than `memcmp` that is called directly. -/
theorem C125_nodes {demangle : Str → Str} {p : Program} {st : Build} (h : irGraph demangle p = .ok st) (n : Str) :
    (∃ (k : Nat) (nd : Node), st.g.nodes[k]? = some nd ∧ nd.name = n) ↔
      p.NodeAfter (fun s => ∃ i, p.Contains i s) n := by
  obtain ⟨cs, st0, st', g, f⟩ := irGraph_shared sameOrder linearSearch [] h
  rw [← f.nodeAfter_iff fun _ h => h]
  have hk := (HasKey.defines p.defines f.definesOk).2 n
  have hnode : (∃ (k : Nat) (nd : Node), st.g.nodes[k]? = some nd ∧ nd.name = n) ↔ HasKey st n := by
    constructor
    · rintro ⟨k, nd, h1, rfl⟩
      exact f.keyed nd (List.mem_of_getElem? h1)
    · intro h1
      obtain ⟨k, hk⟩ := Option.ne_none_iff_exists'.mp h1
      obtain ⟨nd, h2⟩ := f.ir.named n k hk
      exact ⟨k, nd, h2⟩
  rw [hnode, hk]
  refine or_congr Iff.rfl ?_
  simp only [f.live_iff]
  constructor
  · rintro ⟨d, h1, ⟨i, h2⟩, s, h3, h4⟩
    exact ⟨s, ⟨i, d, h1, h2, h3⟩, h4⟩
  · rintro ⟨s, ⟨i, d, h1, h2, h3⟩, h4⟩
    exact ⟨d, h1, ⟨i, h2⟩, s, h3, h4⟩

/-- **C125** After the pass over the LLVM-IR, a function has an edge to a node of a name exactly if a statement of a
definition that is taken for the function leads to that name, given the statements of live functions that were read
before it. -/
theorem C125_edges {demangle : Str → Str} {p : Program} {st : Build} (h : irGraph demangle p = .ok st) (i : Nat)
    (name : Str) : st.g.CallsName i name ↔ ∃ before s, p.TakenAt before i s ∧ p.AimsAt before s name := by
  obtain ⟨cs, st0, st', g, f⟩ := irGraph_shared sameOrder linearSearch [] h
  obtain ⟨aim, hall⟩ := f.any_edges
  rw [← hall]
  constructor
  · rintro ⟨k, nd, h1, h2, rfl⟩
    obtain ⟨n, hn⟩ := aim _ h1
    obtain ⟨nd', h3, rfl⟩ := f.ir.named n k hn
    rw [h2] at h3
    cases h3
    exact ⟨k, hn, h1⟩
  · rintro ⟨k, h1, h2⟩
    obtain ⟨nd, h3⟩ := f.ir.named name k h1
    exact ⟨k, nd, h2, h3⟩

/-- **C125** On a target without machine code analysis, there is an edge between two live functions in the finished
graph exactly if the second is the last one shown under a name to which a statement of a definition leads that is taken
for the first. -/
theorem C125_live_edges {demangle : Str → Str} {ord : HashOrder} {search : TagSearch} {p : Program} {elf : Elf}
    {st : Build} {g : Graph} (other : p.target = .other) (h : callGraph demangle ord search p elf = .ok (st, g))
    {i j : Nat} (hi : i < p.defined.length) (hj : j < p.defined.length) :
    g.Calls i j ↔ ∃ name before s, p.LastShown name j ∧ p.TakenAt before i s ∧ p.AimsAt before s name := by
  obtain ⟨cs, st0, stIr, f⟩ := callGraph_shared h
  obtain ⟨aim, hall⟩ := f.any_edges
  have hst : stIr = st := by
    have := f.pass
    unfold machinePass at this
    rw [other] at this
    exact Except.ok.inj this
  have hlen : p.defined.length ≤ st.g.nodes.length := by
    obtain ⟨ext, he⟩ := f.ir.nodes
    rw [← hst, he, f.sym.nodes, List.length_append, List.length_map, f.sym.len]
    omega
  have hir : g.Calls i j ↔ (i, j) ∈ stIr.g.edges := by
    refine ⟨fun hc => ?_, f.edge_ir⟩
    obtain ⟨es, h1, h2⟩ := f.out.edges
    unfold Graph.Calls at hc
    rw [h1, List.mem_append] at hc
    rcases hc with hc | hc
    · rw [hst]; exact hc
    · have := (h2 _ hc).1
      simp only at this
      omega
  rw [hir]
  constructor
  · intro hc
    obtain ⟨n, hn⟩ := aim _ hc
    obtain ⟨before, s, h1, h2⟩ := (hall i n).mp ⟨j, hn, hc⟩
    refine ⟨n, before, s, (f.lastShown_iff n j).mp ?_, h1, h2⟩
    rcases f.ir.fresh n j hn with h3 | h3
    · exact h3
    · rw [f.sym.nodes, List.length_map, f.sym.len] at h3
      omega
  · rintro ⟨n, before, s, h1, h2, h3⟩
    obtain ⟨k, h4, h5⟩ := (hall i n).mpr ⟨before, s, h2, h3⟩
    rw [f.ir.indices _ _ ((f.lastShown_iff n j).mpr h1)] at h4
    cases h4
    exact h5

/-- **C125** The node of a function that is not the last one shown under its name has no edges from or to other
functions, whatever it calls and by whichever name it is called. -/
theorem C125_hidden {demangle : Str → Str} {ord : HashOrder} {search : TagSearch} {p : Program} {elf : Elf}
    {st : Build} {g : Graph} (other : p.target = .other) (h : callGraph demangle ord search p elf = .ok (st, g))
    {i k : Nat} {c : Str} (hi : p.Principal i c) (hk : p.Principal k c) (hlt : i < k) {j : Nat}
    (hj : j < p.defined.length) : ¬ g.Calls i j ∧ ¬ g.Calls j i := by
  have hil : i < p.defined.length := by
    obtain ⟨a, s, _, _, he, _⟩ := hi
    exact (List.getElem?_eq_some_iff.mp he).1
  obtain ⟨cs, st0, stIr, f⟩ := callGraph_shared h
  have hid : ∀ n, ¬ p.LastShown n i := by
    rintro n ⟨h1, h2⟩
    rw [f.principal] at h1
    rw [f.principal.mp hi] at h1
    cases h1
    exact h2 k hlt hk
  rw [C125_live_edges other h hil hj, C125_live_edges other h hj hil]
  constructor
  · rintro ⟨_, _, _, _, ⟨_, _, _, _, _, c', _, _, h1, _⟩, _⟩
    exact hid c' h1
  · rintro ⟨n, _, _, h1, _⟩
    exact hid n h1

/-! ### Examples -/

/-- Two different functions have the name `swap`; the first is shown as `left`, the second as `right`. `main` calls
`swap`, and a function of this name that is defined in the LLVM-IR calls `leaf`. -/
def exHomonyms : Program :=
  { target := .other
    defined := [(8, ⟨[c!"main"], 4⟩), (16, ⟨[c!"swap", c!"left"], 8⟩), (24, ⟨[c!"swap", c!"right"], 8⟩),
      (32, ⟨[c!"leaf"], 4⟩)]
    undefined := []
    stackSizes := [(c!"main", 8), (c!"left", 4), (c!"right", 16), (c!"leaf", 0)]
    defines := [⟨c!"main", exSig, [.directCall c!"swap", .directCall c!"left"]⟩,
      ⟨c!"swap", exSig, [.directCall c!"leaf"]⟩]
    declares := [] }

/-- The names of its functions are not alike. -/
example : ¬ exHomonyms.NamesAlike := by
  intro h
  have := h 1 2 _ _ _ _ c!"swap" rfl rfl ⟨by decide, by rw [← isTag_iff]; decide⟩
    ⟨by decide, by rw [← isTag_iff]; decide⟩
  exact absurd this (by decide)

/-- The call of `swap` goes to the second function, and the call of `leaf` comes from it. -/
example (search : TagSearch) (elf : Elf) :
    ∃ st g, callGraph id sameOrder search exHomonyms elf = .ok (st, g) ∧ g.edges = [(0, 2), (0, 1), (2, 3)] :=
  callGraph_eval rfl search elf (fun _ g => g.edges = [(0, 2), (0, 1), (2, 3)]) (by decide +kernel)

/-- **C125** It does not follow from a call in the LLVM-IR under a name of a single live function that the node of the
calling function has an edge to the node of the called one, even if both are the last ones shown under their names: here
the call of `leaf` is in a definition that can be that of either function with the name `swap`, and only one of them
gets the edge. -/
theorem C125_call_lost (search : TagSearch) (elf : Elf) :
    exHomonyms.Contains 1 (.directCall c!"leaf") ∧ exHomonyms.LiveAt c!"leaf" 3 ∧
    (∀ k, exHomonyms.LiveAt c!"leaf" k → k = 3) ∧ exHomonyms.LastShown c!"left" 1 ∧
    exHomonyms.LastShown c!"leaf" 3 ∧
    ∃ st g, callGraph id sameOrder search exHomonyms elf = .ok (st, g) ∧ ¬ g.Calls 1 3 := by
  have pr : ∀ k n, exHomonyms.Principal k n → (k = 0 ∧ n = c!"main") ∨ (k = 1 ∧ n = c!"left") ∨
      (k = 2 ∧ n = c!"right") ∨ (k = 3 ∧ n = c!"leaf") := by
    intro k n hp
    obtain ⟨a, s, _, _, h, _⟩ := id hp
    have := (List.getElem?_eq_some_iff.mp h).1
    simp only [exHomonyms, List.length_cons, List.length_nil] at this
    have h0 := principal_iff (p := exHomonyms) (i := 0) (c := c!"main") rfl (by decide +kernel) n
    have h1 := principal_iff (p := exHomonyms) (i := 1) (c := c!"left") rfl (by decide +kernel) n
    have h2 := principal_iff (p := exHomonyms) (i := 2) (c := c!"right") rfl (by decide +kernel) n
    have h3 := principal_iff (p := exHomonyms) (i := 3) (c := c!"leaf") rfl (by decide +kernel) n
    obtain rfl | rfl | rfl | rfl : k = 0 ∨ k = 1 ∨ k = 2 ∨ k = 3 := by omega
    · exact .inl ⟨rfl, h0.mp hp⟩
    · exact .inr (.inl ⟨rfl, h1.mp hp⟩)
    · exact .inr (.inr (.inl ⟨rfl, h2.mp hp⟩))
    · exact .inr (.inr (.inr ⟨rfl, h3.mp hp⟩))
  have last : ∀ n i, exHomonyms.Principal i n → exHomonyms.LastShown n i := by
    intro n i hi
    refine ⟨hi, fun k hk hp => ?_⟩
    rcases pr i n hi with ⟨rfl, rfl⟩ | ⟨rfl, rfl⟩ | ⟨rfl, rfl⟩ | ⟨rfl, rfl⟩ <;>
      rcases pr k _ hp with ⟨rfl, h⟩ | ⟨rfl, h⟩ | ⟨rfl, h⟩ | ⟨rfl, h⟩ <;> first | omega | exact absurd h (by decide)
  refine ⟨⟨_, List.mem_cons_of_mem _ List.mem_cons_self, mem_live rfl (by decide) rfl, by decide⟩,
    mem_live rfl (by decide) rfl, ?_, last _ _ ?_, last _ _ ?_, ?_⟩
  · rintro k ⟨a, s, h, hn, _⟩
    have := (List.getElem?_eq_some_iff.mp h).1
    simp only [exHomonyms, List.length_cons, List.length_nil] at this
    obtain rfl | rfl | rfl | rfl : k = 0 ∨ k = 1 ∨ k = 2 ∨ k = 3 := by omega
    all_goals cases h
    · exact absurd hn (by decide)
    · exact absurd hn (by decide)
    · exact absurd hn (by decide)
    · rfl
  · exact (principal_iff (p := exHomonyms) (i := 1) (c := c!"left") rfl (by decide +kernel) _).mpr rfl
  · exact (principal_iff (p := exHomonyms) (i := 3) (c := c!"leaf") rfl (by decide +kernel) _).mpr rfl
  · obtain ⟨st, g, h1, h2⟩ := callGraph_eval (p := exHomonyms) rfl search elf
      (fun _ g => g.edges = [(0, 2), (0, 1), (2, 3)]) (by decide +kernel)
    exact ⟨st, g, h1, by unfold Graph.Calls; rw [h2]; decide⟩

/-- So say the theorems. -/
example (demangle : Str → Str) (ord : HashOrder) (search : TagSearch) (elf : Elf) (st : Build) (g : Graph)
    (h : callGraph demangle ord search exHomonyms elf = .ok (st, g)) : g.Calls 2 3 := by
  rw [C125_live_edges rfl h (by decide) (by decide)]
  have h2 := principal_iff (p := exHomonyms) (i := 2) (c := c!"right") rfl (by decide +kernel)
  have h3 := principal_iff (p := exHomonyms) (i := 3) (c := c!"leaf") rfl (by decide +kernel)
  have out : ∀ k n, 3 < k → ¬ exHomonyms.LiveAt n k := by
    rintro k n hk ⟨a, s, h, _⟩
    have := (List.getElem?_eq_some_iff.mp h).1
    simp only [exHomonyms, List.length_cons, List.length_nil] at this
    omega
  have live : ∀ {k n}, exHomonyms.Principal k n → exHomonyms.LiveAt n k := by
    rintro k n ⟨a, s, pre, post, h, hn, ht, _⟩
    exact ⟨a, s, h, by rw [hn]; simp, ht⟩
  have leaf : exHomonyms.LastShown c!"leaf" 3 :=
    ⟨(h3 _).mpr rfl, fun k hk hp => out k _ hk (live hp)⟩
  have right : exHomonyms.LastShown c!"right" 2 := by
    refine ⟨(h2 _).mpr rfl, fun k hk hp => ?_⟩
    rcases Nat.lt_or_ge 3 k with h | h
    · exact out k _ h (live hp)
    · obtain rfl : k = 3 := by omega
      exact absurd ((h3 _).mp hp) (by decide)
  have taken : exHomonyms.TakenFor c!"swap" c!"right" := by
    refine ⟨2, mem_live rfl (by decide) rfl, fun k hk hl => ?_, (h2 _).mpr rfl⟩
    rcases Nat.lt_or_ge 3 k with h | h
    · exact out k _ h hl
    · obtain rfl : k = 3 := by omega
      obtain ⟨a, s, h, hs, _⟩ := hl
      cases h
      exact absurd hs (by decide)
  refine ⟨c!"leaf", _, .directCall c!"leaf", leaf,
    ⟨[_], _, [], [], [], c!"right", rfl, taken, right, rfl, fun _ => Iff.rfl⟩, ?_⟩
  refine .live (by unfold IsIntrinsic; decide) ⟨3, live leaf.1, fun k hk => out k _ hk, leaf.1⟩ fun h => ?_
  exact absurd h (by decide)

/-- The first of two functions that are shown as `helper` calls `leaf` and is called by `main`. -/
def exHidden : Program :=
  { exHomonyms with
    defined := [(8, ⟨[c!"main"], 4⟩), (16, ⟨[c!"helper", c!"left"], 8⟩), (24, ⟨[c!"helper"], 8⟩), (32, ⟨[c!"leaf"], 4⟩)]
    stackSizes := [(c!"helper", 4)]
    defines := [⟨c!"main", exSig, [.directCall c!"left"]⟩, ⟨c!"left", exSig, [.directCall c!"leaf"]⟩] }

/-- Its node has no edges; both calls are taken for calls to and from the other one. -/
example (demangle : Str → Str) (ord : HashOrder) (search : TagSearch) (elf : Elf) (st : Build) (g : Graph)
    (h : callGraph demangle ord search exHidden elf = .ok (st, g)) : ¬ g.Calls 1 3 ∧ ¬ g.Calls 0 1 :=
  ⟨(C125_hidden rfl h (i := 1) (k := 2) (c := c!"helper")
      ((principal_iff rfl (by decide +kernel) _).mpr rfl) ((principal_iff rfl (by decide +kernel) _).mpr rfl)
      (by decide) (j := 3) (by decide)).1,
    (C125_hidden rfl h (i := 1) (k := 2) (c := c!"helper")
      ((principal_iff rfl (by decide +kernel) _).mpr rfl) ((principal_iff rfl (by decide +kernel) _).mpr rfl)
      (by decide) (j := 0) (by decide)).2⟩

example (search : TagSearch) (elf : Elf) :
    ∃ st g, callGraph id sameOrder search exHidden elf = .ok (st, g) ∧ g.edges = [(0, 2), (2, 3)] :=
  callGraph_eval rfl search elf (fun _ g => g.edges = [(0, 2), (2, 3)]) (by decide +kernel)

end CallStack
