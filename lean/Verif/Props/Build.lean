import Verif.Proof.Final
import Verif.Proof.IrWeak
import Verif.Proof.Order
import Verif.Proof.MachineRun
import Verif.Proof.Examples

/-!
Properties C29-C35 and C40: calls found in the LLVM-IR (main.rs:551-763).

The nodes `0, 1, ...` of the call graph are the live functions in address order (C28).
-/

namespace CallStack

/-! ### Example program -/

def exSig : FnSig := ⟨[], none⟩

/-- `main` calls `f` twice (once by an alias), an external function, an intrinsic and a function that
the linker dropped calls `main`. -/
def exCalls : Program :=
  { target := .other
    defined := [(8, ⟨[c!"main"], 4⟩), (16, ⟨[c!"f", c!"f_alias"], 8⟩), (32, ⟨[c!"memcpy"], 8⟩),
      (40, ⟨[c!"memcmp"], 8⟩)]
    undefined := [c!"ext"]
    stackSizes := [(c!"main", 8), (c!"f", 16), (c!"memcpy", 24)]
    defines :=
      [⟨c!"main", exSig, [.directCall c!"f", .directCall c!"f_alias", .directCall c!"ext",
        .directCall c!"llvm.memcpy.p0i8.p0i8.i32", .directCall c!"llvm.dbg.value"]⟩,
       ⟨c!"gone", exSig, [.directCall c!"main", .directCall c!"nowhere"]⟩,
       ⟨c!"f", exSig, [.directCall c!"memcmp"]⟩]
    declares := [] }

/-- Names are given once if no name is listed twice. -/
theorem namesOnce_of {p : Program} (h : (p.defined.flatMap (·.2.names)).Nodup) : p.NamesOnce := by
  rintro n i j ⟨a, s, h1, h2, _⟩ ⟨a', s', h3, h4, _⟩
  by_contra hne
  rw [List.nodup_flatMap] at h
  have hp := List.pairwise_iff_getElem.mp h.2
  obtain ⟨hi, e1⟩ := List.getElem?_eq_some_iff.mp h1
  obtain ⟨hj, e2⟩ := List.getElem?_eq_some_iff.mp h3
  rcases Nat.lt_or_gt_of_ne hne with hlt | hlt
  · have := hp i j hi hj hlt
    simp only [Function.onFun, e1, e2] at this
    exact this h2 h4
  · have := hp j i hj hi hlt
    simp only [Function.onFun, e1, e2] at this
    exact this h4 h2

theorem exCalls_once : exCalls.NamesOnce := namesOnce_of (by decide)

/-! ### C29 -/

/-- **C29** A direct call between live functions is an edge, under whatever name the callee is called.
Partial: if the callee is called as `memcmp`, that must be the name under which it is shown; see
`C29_memcmp_alias_dropped`. -/
theorem C29_direct_calls_partial {demangle : Str → Str} {ord : HashOrder} {search : TagSearch}
    {p : Program} {elf : Elf} {st : Build} {g : Graph} (once : p.NamesOnce)
    (h : callGraph demangle ord search p elf = .ok (st, g)) {i j : Nat} {f : Str}
    (hc : p.Contains i (.directCall f)) (hf : ¬ IsIntrinsic f) (hl : p.LiveAt f j)
    (hm : f = c!"memcmp" → p.Principal j f) : g.Calls i j := by
  obtain ⟨cs, ext, st0, stIr, r⟩ := callGraph_facts once h
  obtain ⟨c, h1, h2, h3⟩ := r.ir.canon_of_live hl
  have hns : ¬ (f ∈ symbollessIntrinsics ∧ f ∉ cs) := by
    rintro ⟨h6, h7⟩
    have : f = c!"memcmp" := by simpa [symbollessIntrinsics] using h6
    exact h7 (List.mem_of_getElem? (r.ir.principal.mp (hm this)))
  obtain ⟨j', h4, h5⟩ := r.ir.ir.complete i _ c hc (Or.inr ⟨classify_plain.mpr hf, hns, Or.inl h2⟩)
  rw [r.ir.inj h4 h3] at h5
  exact r.edges_ir h5

/-- `main` calls `memcmp`, which is another name of `bcmp`. -/
def exMemcmp : Program :=
  { target := .other
    defined := [(8, ⟨[c!"main"], 4⟩), (16, ⟨[c!"bcmp", c!"memcmp"], 8⟩)]
    undefined := []
    stackSizes := [(c!"main", 8), (c!"bcmp", 16)]
    defines := [⟨c!"main", exSig, [.directCall c!"memcmp"]⟩, ⟨c!"bcmp", exSig, []⟩]
    declares := [] }

theorem mem_live {p : Program} {n : Str} {i : Nat} {a : Nat} {s : Sym} (h : p.defined[i]? = some (a, s))
    (hn : n ∈ s.names) (ht : isTag n = false) : p.LiveAt n i :=
  ⟨a, s, h, hn, by rw [← isTag_iff]; simp [ht]⟩

/-- **C29** is false in general: a call of `memcmp` is dropped if the function has another name under
which it is shown, and `main` gets an exact max that is too small. -/
theorem C29_memcmp_alias_dropped (search : TagSearch) :
    ∃ (st : Build) (g g' : Graph) (cycles : List (List Nat)),
      callGraph id sameOrder search exMemcmp ⟨[], none⟩ = .ok (st, g) ∧
      exMemcmp.NamesOnce ∧
      exMemcmp.DirectCall 0 1 ∧ ¬ g.Calls 0 1 ∧
      finalGraph id sameOrder search exMemcmp ⟨[], none⟩ none = .ok (g', cycles) ∧
      g'.maxOf? 0 = some (.exact 8) := by
  refine ⟨_, _, _, _, rfl, namesOnce_of (by decide), ?_, by unfold Graph.Calls; decide, rfl, rfl⟩
  refine ⟨c!"memcmp", ⟨_, List.mem_cons_self, mem_live rfl List.mem_cons_self rfl, by simp⟩, ?_, ?_⟩
  · rw [← classify_plain (t := false)]; rfl
  · exact mem_live rfl (by simp) rfl

example (search : TagSearch) : ∃ st g, callGraph id sameOrder search exCalls ⟨[], none⟩ = .ok (st, g) ∧
    g.edges = [(0, 1), (0, 4), (0, 2), (1, 3)] := ⟨_, _, rfl, rfl⟩

/-! ### C30 -/

/-- **C30** Every edge in the graph built from the LLVM-IR comes from a statement of a live function
that names its target. -/
theorem C30_edges_justified {demangle : Str → Str} {p : Program} {st : Build} (once : p.NamesOnce)
    (h : irGraph demangle p = .ok st) {a b : Nat} (hab : st.g.Calls a b) :
    ∃ s nd, p.Contains a s ∧ st.g.nodes[b]? = some nd ∧ p.Justifies s b nd.name := by
  obtain ⟨cs, ext, st0, r⟩ := irGraph_facts once h
  obtain ⟨s, name, h1, h2, h3⟩ := r.ir.sound _ hab
  simp only at h1 h2
  have hlen := irFacts_length r
  have hb := (List.getElem?_eq_some_iff.mp h2).1
  have hnode : ∃ nd, st.g.nodes[b]? = some nd ∧ nd.name = name := by
    rw [r.ir.shape.nodes, r.sym.nodes]
    by_cases hc : b < cs.length
    · rw [List.getElem?_append_left (by simpa using hc)]
      rw [List.getElem?_append_left hc] at h2
      exact ⟨_, by rw [List.getElem?_map, h2]; rfl, rfl⟩
    · rw [List.getElem?_append_right (by simpa using hc)]
      rw [List.getElem?_append_right (by omega)] at h2
      exact ⟨_, by rw [List.length_map, List.getElem?_map, h2]; rfl, rfl⟩
  obtain ⟨nd, hnd, rfl⟩ := hnode
  refine ⟨s, nd, h1, hnd, ?_⟩
  unfold MayTarget at h3
  split at h3
  · subst h3
    exact .bitcast _ _
  · rename_i f
    rcases h3 with ⟨rs, h4, h5⟩ | ⟨h4, _, h5 | ⟨h5, h6, h7⟩⟩
    · rcases classify_memory h4 with ⟨h6, rfl⟩ | ⟨h6, rfl⟩
      · exact .copy _ h6 h5
      · exact .fill _ h6 h5
    · obtain ⟨k, e, _, hk, _⟩ := r.sym.aliases_some f _ h5
      have hk' : (cs ++ ext)[k]? = some nd.name := by
        rw [List.getElem?_append_left (List.getElem?_eq_some_iff.mp hk).1]; exact hk
      rw [r.inj h2 hk']
      exact .live _ (classify_plain.mp h4) ((r.live f _ k hk).mp h5)
    · rw [h7]
      exact .external _ (classify_plain.mp h4) ((r.dead f).mp h5) h6
  · exact h3.elim

/-- **C30** On a target without machine code analysis, the edges of the finished call graph are those
from the LLVM-IR and those from or to a fictitious (dashed) node. -/
theorem C30_finished_graph {demangle : Str → Str} {ord : HashOrder} {search : TagSearch}
    {p : Program} {elf : Elf} {st : Build} {g : Graph} (once : p.NamesOnce)
    (other : p.target = .other)
    (h : callGraph demangle ord search p elf = .ok (st, g)) {a b : Nat} (hab : g.Calls a b) :
    (∃ s nd, p.Contains a s ∧ g.nodes[b]? = some nd ∧ p.Justifies s b nd.name) ∨
    (∃ k nd, (k = a ∨ k = b) ∧ g.nodes[k]? = some nd ∧ nd.dashed = true) := by
  obtain ⟨cs, ext, st0, stIr, r⟩ := callGraph_facts once h
  have hq := r.quiet (by rw [other]; rfl)
  rcases r.edge_cases hab with h1 | ⟨k, void, e, _, _, _, h2, h3⟩
  · left
    rw [hq] at h1
    obtain ⟨s, nd, h4, h5, h6⟩ := C30_edges_justified once r.irOk h1
    refine ⟨s, nd, h4, ?_, h6⟩
    obtain ⟨void, out⟩ := r.void
    obtain ⟨ns, hn⟩ := out.nodes
    rw [hn, hq, List.getElem?_append_left (List.getElem?_eq_some_iff.mp h5).1]
    exact h5
  · exact Or.inr ⟨k, _, h2, h3.node, rfl⟩

/-! ### C31 -/

/-- **C31** A function without bitcast calls has at most one edge to each node, however many times it
calls it, and also after the machine code was read. -/
theorem C31_single_edge {demangle : Str → Str} {ord : HashOrder} {search : TagSearch}
    {p : Program} {elf : Elf} {st : Build} {g : Graph} (once : p.NamesOnce)
    (h : callGraph demangle ord search p elf = .ok (st, g)) {i j : Nat}
    (hi : ∀ x, ¬ p.Contains i (.bitcastCall x))
    (hd : ∀ k nd, (k = i ∨ k = j) → g.nodes[k]? = some nd → nd.dashed = false) :
    g.edges.count (i, j) ≤ 1 := by
  obtain ⟨cs, ext, st0, stIr, r⟩ := callGraph_facts once h
  have h1 := r.ir.ir.single i (by rintro s hs x rfl; exact hi x hs)
  have h2 := (r.machine.single i h1).1 j
  obtain ⟨void, out⟩ := r.void
  obtain ⟨es, h3, h4⟩ := out.edges
  rw [h3, List.count_append]
  have : es.count (i, j) = 0 := by
    rw [List.count_eq_zero]
    intro hm
    have hin : (i, j) ∈ g.edges := by rw [h3]; simp [hm]
    have hge := (h4 _ hm).1
    rcases r.edge_cases hin with h5 | ⟨k, void, e, _, _, _, h6, h7⟩
    · have h8 := r.machine.wf _ h5
      have h9 := r.machine.len
      simp only at hge h8
      omega
    · have := hd k _ (h6.imp (fun h => h) (fun h => h)) h7.node
      simp [dashedNode, mkNode] at this
  omega

/-- With bitcast calls there may be more than one edge. -/
theorem C31_bitcast_duplicates :
    ∃ st, irGraph id { exMemcmp with
        defines := [⟨c!"main", exSig, [.bitcastCall (some c!"bcmp"), .bitcastCall (some c!"bcmp")]⟩] } =
        .ok st ∧ st.g.edges = [(0, 1), (0, 1)] := ⟨_, rfl, rfl⟩

/-- A bitcast call does not resolve names: calling `bcmp` by its other name leads to a new node with
unknown usage. -/
theorem C31_bitcast_alias :
    ∃ st, irGraph id { exMemcmp with
        defines := [⟨c!"main", exSig, [.bitcastCall (some c!"memcmp")]⟩] } = .ok st ∧
      st.g.edges = [(0, 2)] ∧ st.g.nodes[2]? = some (mkNode c!"memcmp" none false) :=
  ⟨_, rfl, rfl, rfl⟩

/-! ### C32 -/

/-- **C32** Whatever definitions and declarations of functions that are not in the executable are
left out, the call graph is the same (and so is everything computed from it). -/
theorem C32_dropped_functions {demangle : Str → Str} {ord : HashOrder} {search : TagSearch}
    {p : Program} {elf : Elf} {keep : Define → Bool} {keepD : Declare → Bool}
    (hk : ∀ d ∈ p.defines, keep d = false → p.NotLive d.name)
    (hd : ∀ d ∈ p.declares, keepD d = false → p.NotLive d.name) :
    callGraph demangle ord search
        { p with defines := p.defines.filter keep, declares := p.declares.filter keepD } elf =
      callGraph demangle ord search p elf := by
  unfold callGraph
  have := irGraph_without (demangle := demangle) hk hd
  unfold Program.without at this
  rw [this]
  rfl

/-- In `exCalls` the function `gone` is not live, and its call of a function that does not exist is not
noticed. -/
example : exCalls.NotLive c!"gone" ∧ exCalls.NotLive c!"nowhere" ∧ c!"nowhere" ∉ exCalls.undefined := by
  refine ⟨?_, ?_, by decide⟩ <;>
  · rintro i ⟨a, s, h1, h2, _⟩
    have := List.mem_of_getElem? h1
    simp only [exCalls, List.mem_cons, List.not_mem_nil, or_false, Prod.mk.injEq] at this
    rcases this with ⟨_, rfl⟩ | ⟨_, rfl⟩ | ⟨_, rfl⟩ | ⟨_, rfl⟩ <;> revert h2 <;> decide

/-! ### C33 -/

/-- **C33** On a target without machine code analysis, an intrinsic called by a live function is one of
the documented ones, or the tool aborts. -/
theorem C33_known_or_abort {demangle : Str → Str} {p : Program} {st : Build}
    (other : p.target = .other) (h : irGraph demangle p = .ok st) {i : Nat} {f : Str}
    (hc : p.Contains i (.directCall f)) (hf : IsIntrinsic f) :
    NoCodeIntrinsic f ∨ InlineIntrinsic f ∨ MemoryIntrinsic f := by
  obtain ⟨cs, st0, _, hp, _⟩ := irGraph_weak h
  have h1 := ((hp i _ hc).2 f rfl).1
  have ht : p.target.isThumb = false := by rw [other]; rfl
  rw [ht] at h1
  cases hcl : classify false f with
  | ignored =>
    rcases classify_ignored.mp hcl with h | ⟨h, _⟩ | h
    · exact Or.inl h
    · simp at h
    · exact Or.inr (Or.inl h)
  | memory rs =>
    right; right
    rcases classify_memory hcl with ⟨h, _⟩ | ⟨h, _⟩
    · exact Or.inl h
    · exact Or.inr h
  | unhandled => exact absurd hcl h1
  | plain => exact absurd hf (classify_plain.mp hcl)

/-- **C33** Calls of intrinsics other than the memory ones have no effect: without them, the graph is
the same. The same holds for comments, labels and statements that are no calls. -/
theorem C33_no_effect {demangle : Str → Str} {ord : HashOrder} {search : TagSearch} {p : Program}
    {elf : Elf} {keep : Stmt → Bool}
    (hk : ∀ s, keep s = false → s = .comment ∨ s = .label ∨ s = .other ∨
      ∃ f, s = .directCall f ∧
        (NoCodeIntrinsic f ∨ InlineIntrinsic f ∨ (p.target ≠ .other ∧ IsIntrinsic f))) :
    callGraph demangle ord search
        { p with defines := p.defines.map (fun d => { d with stmts := d.stmts.filter keep }) } elf =
      callGraph demangle ord search p elf := by
  unfold callGraph
  have := irGraph_keep (demangle := demangle) (p := p) (keep := keep) ?_
  · unfold Program.keepStmts at this
    rw [this]
    rfl
  · intro s c i st hs
    rcases hk s hs with rfl | rfl | rfl | ⟨f, rfl, hf⟩
    · rfl
    · rfl
    · rfl
    · have : classify p.target.isThumb f = .ignored := by
        rw [classify_ignored]
        rcases hf with hf | hf | ⟨h1, h2⟩
        · exact Or.inl hf
        · exact Or.inr (Or.inr hf)
        · refine Or.inr (Or.inl ⟨?_, h2⟩)
          cases ht : p.target <;> simp_all [Target.isThumb]
      unfold stmtStep
      simp [this]

/-- **C33** No node is named after an intrinsic, unless the executable has a function of that name or
it is called through a bitcast. -/
theorem C33_no_node {demangle : Str → Str} {p : Program} {st : Build}
    (h : irGraph demangle p = .ok st) {k : Nat} {nd : Node} (hk : st.g.nodes[k]? = some nd)
    (hf : IsIntrinsic nd.name) :
    p.LiveAt nd.name k ∨ ∃ i, p.Contains i (.bitcastCall (some nd.name)) := by
  obtain ⟨cs, st0, r, _, hn⟩ := irGraph_weak h
  rcases hn k nd hk with ⟨c, h1, rfl⟩ | ⟨i, s, h1, rfl | ⟨rfl, h2⟩⟩
  · left
    have he := List.getElem?_eq_getElem (r.len ▸ (List.getElem?_eq_some_iff.mp h1).1 : k < p.defined.length)
    exact ⟨_, _, he, (mem_realNames _ _).mp (canonicalOf_spec (r.canon k _ _ he h1)).1⟩
  · exact .inr ⟨i, h1⟩
  · exact absurd hf (classify_plain.mp h2)

/-- An intrinsic that is not documented makes the tool abort. -/
example : irGraph id { exCalls with
    defines := [⟨c!"main", exSig, [.directCall c!"llvm.fma.f32"]⟩] } =
    .error (.unhandledIntrinsic c!"llvm.fma.f32") := rfl

/-! ### C34 -/

/-- **C34** On a target without machine code analysis, a function that uses a memory intrinsic has an
edge to each of the listed routines that is shown under that name. Partial: a routine that is shown
under another of its names gets no edge, and `llvm.memmove` is taken for a fill; see below. -/
theorem C34_memory_partial {demangle : Str → Str} {ord : HashOrder} {search : TagSearch}
    {p : Program} {elf : Elf} {st : Build} {g : Graph} (once : p.NamesOnce) (other : p.target = .other)
    (h : callGraph demangle ord search p elf = .ok (st, g)) {i j : Nat} {f r : Str}
    (hc : p.Contains i (.directCall f)) (hj : p.Principal j r)
    (hr : (c!"llvm.memcpy." <+: f ∧ r ∈ CopyRoutines) ∨
      ((c!"llvm.memset." <+: f ∨ c!"llvm.memmove." <+: f) ∧ r ∈ FillRoutines)) : g.Calls i j := by
  obtain ⟨cs, ext, st0, stIr, rf⟩ := callGraph_facts once h
  have ht : p.target.isThumb = false := by rw [other]; rfl
  have hcs := rf.ir.principal.mp hj
  have hmem := List.mem_of_getElem? hcs
  have hm : MustTarget p.target.isThumb st0.aliases cs (.directCall f) r := by
    rw [ht]
    rcases hr with ⟨h1, h2⟩ | ⟨h1, h2⟩
    · exact Or.inl ⟨_, classify_memcpy h1, h2, hmem⟩
    · exact Or.inl ⟨_, classify_memset h1, h2, hmem⟩
  obtain ⟨j', h4, h5⟩ := rf.ir.ir.complete i _ r hc hm
  have hj' : (cs ++ ext)[j]? = some r := by
    rw [List.getElem?_append_left (List.getElem?_eq_some_iff.mp hcs).1]; exact hcs
  rw [rf.ir.inj h4 hj'] at h5
  exact rf.edges_ir h5

/-- `exCalls` calls `llvm.memcpy` in `main`, and `memcpy` is the third function. -/
example : exCalls.Principal 2 c!"memcpy" := by
  refine ⟨32, _, [], [], rfl, rfl, ?_, Or.inl ⟨⟨24, rfl⟩, by simp⟩⟩
  rw [← isTag_iff]; decide

/-- **C34** is false in general: `memcpy` shown as `__aeabi_memcpy8` is not found. -/
theorem C34_alias_not_found (search : TagSearch) :
    ∃ (p : Program) (st : Build) (g : Graph), p.NamesOnce ∧ p.target = .other ∧
      callGraph id sameOrder search p ⟨[], none⟩ = .ok (st, g) ∧
      p.Contains 0 (.directCall c!"llvm.memcpy.p0.p0.i32") ∧ p.LiveAt c!"memcpy" 1 ∧
      ∀ x ∈ g.edges, x.1 ≠ 0 := by
  refine ⟨{ exMemcmp with
      defined := [(8, ⟨[c!"main"], 4⟩), (16, ⟨[c!"memcpy", c!"__aeabi_memcpy8"], 8⟩)]
      stackSizes := [(c!"main", 8), (c!"__aeabi_memcpy8", 16)]
      defines := [⟨c!"main", exSig, [.directCall c!"llvm.memcpy.p0.p0.i32"]⟩] },
    _, _, namesOnce_of (by decide), rfl, rfl, ?_, mem_live rfl (by simp) rfl, by decide⟩
  exact ⟨_, List.mem_cons_self, mem_live rfl List.mem_cons_self rfl, by simp⟩

/-- **C34** is false in general: a block move has no edge to `memmove`, but has one to `memset`. -/
theorem C34_memmove_is_a_fill (search : TagSearch) :
    ∃ (p : Program) (st : Build) (g : Graph), p.NamesOnce ∧ p.target = .other ∧
      callGraph id sameOrder search p ⟨[], none⟩ = .ok (st, g) ∧
      p.Contains 0 (.directCall c!"llvm.memmove.p0.p0.i32") ∧ p.Principal 1 c!"memmove" ∧
      p.Principal 2 c!"memset" ∧ ¬ g.Calls 0 1 ∧ g.Calls 0 2 := by
  refine ⟨{ exMemcmp with
      defined := [(8, ⟨[c!"main"], 4⟩), (16, ⟨[c!"memmove"], 8⟩), (24, ⟨[c!"memset"], 8⟩)]
      stackSizes := [(c!"main", 8), (c!"memmove", 16), (c!"memset", 16)]
      defines := [⟨c!"main", exSig, [.directCall c!"llvm.memmove.p0.p0.i32"]⟩] },
    _, _, namesOnce_of (by decide), rfl, rfl, ?_, ?_, ?_, ?_, ?_⟩
  · exact ⟨_, List.mem_cons_self, mem_live rfl List.mem_cons_self rfl, by simp⟩
  · refine ⟨16, _, [], [], rfl, rfl, ?_, Or.inl ⟨⟨16, rfl⟩, by simp⟩⟩
    rw [← isTag_iff]; decide
  · refine ⟨24, _, [], [], rfl, rfl, ?_, Or.inl ⟨⟨16, rfl⟩, by simp⟩⟩
    rw [← isTag_iff]; decide
  · unfold Graph.Calls; decide
  · unfold Graph.Calls; decide

/-! ### C35 -/

/-- **C35** A direct call of a function that is not in the executable (other than `memcmp`) is an edge
to a node of that name with unknown local usage. -/
theorem C35_external_edge_partial {demangle : Str → Str} {ord : HashOrder} {search : TagSearch}
    {p : Program} {elf : Elf} {st : Build} {g : Graph} (once : p.NamesOnce)
    (h : callGraph demangle ord search p elf = .ok (st, g)) {i : Nat} {f : Str}
    (hc : p.Contains i (.directCall f)) (hf : ¬ IsIntrinsic f) (hl : p.NotLive f)
    (hm : f ≠ c!"memcmp") :
    f ∈ p.undefined ∧ ∃ k nd, g.Calls i k ∧ g.nodes[k]? = some nd ∧ nd.name = f ∧ nd.loc = .unknown := by
  obtain ⟨cs, ext, st0, stIr, r⟩ := callGraph_facts once h
  have hcl : classify p.target.isThumb f = .plain := classify_plain.mpr hf
  have hal := (r.ir.dead f).mpr hl
  have hns : f ∉ symbollessIntrinsics := by simpa [symbollessIntrinsics] using hm
  refine ⟨r.ir.ir.known i f hc hcl hal hns, ?_⟩
  obtain ⟨k, h4, h5⟩ := r.ir.ir.complete i _ f hc
    (Or.inr ⟨hcl, fun h => hns h.1, Or.inr ⟨hal, rfl⟩⟩)
  have hk : cs.length ≤ k := by
    by_contra hlt
    rw [List.getElem?_append_left (by omega)] at h4
    exact hl k (r.ir.self f k h4)
  exact ⟨k, _, r.edges_ir h5, r.ext_unknown h4 hk, rfl, rfl⟩

/-- **C35** Neither such a function nor any of its transitive callers is printed with an exact max. -/
theorem C35_external_inexact_partial {demangle : Str → Str} {ord : HashOrder} {search : TagSearch}
    {p : Program} {elf : Elf} {g' : Graph} {cycles : List (List Nat)} (once : p.NamesOnce)
    (sizes : p.SizesU64) (fits : elf.Fits32)
    (h : finalGraph demangle ord search p elf none = .ok (g', cycles)) {i v : Nat} {f : Str}
    (hc : p.Contains i (.directCall f)) (hf : ¬ IsIntrinsic f) (hl : p.NotLive f)
    (hm : f ≠ c!"memcmp") (hv : Reach g'.Calls v i) (n : Nat) : g'.maxOf? v ≠ some (.exact n) := by
  obtain ⟨st, g, h1, h2⟩ := finalGraph_facts h
  obtain ⟨_, k, nd, h3, h4, _, h5⟩ := C35_external_edge_partial once h1 hc hf hl hm
  obtain ⟨cs, ext, st0, stIr, r⟩ := callGraph_facts once h1
  have hcalls := (h2.calls r.wf (r.u64 once sizes fits)).1
  refine h2.inexact r (r.u64 once sizes fits) (u := k) ?_ ?_ n
  · refine hv.trans (.step ?_ (.refl _))
    rw [hcalls]
    exact h3
  · unfold Graph.locOf
    rw [h4]
    exact h5

/-- **C35** is false for `memcmp`: `main` calls an external `memcmp` and gets an exact max. -/
theorem C35_external_memcmp (search : TagSearch) :
    ∃ (p : Program) (g' : Graph) (cycles : List (List Nat)), p.NamesOnce ∧
      p.Contains 0 (.directCall c!"memcmp") ∧ c!"memcmp" ∈ p.undefined ∧ p.NotLive c!"memcmp" ∧
      finalGraph id sameOrder search p ⟨[], none⟩ none = .ok (g', cycles) ∧
      g'.maxOf? 0 = some (.exact 8) := by
  refine ⟨{ exMemcmp with
      defined := [(8, ⟨[c!"main"], 4⟩)]
      undefined := [c!"memcmp"] }, _, _, namesOnce_of (by decide), ?_, by simp, ?_, rfl, rfl⟩
  · exact ⟨_, List.mem_cons_self, mem_live rfl List.mem_cons_self rfl, by simp⟩
  · rintro i ⟨a, s, h1, h2, _⟩
    have := List.mem_of_getElem? h1
    simp only [List.mem_cons, List.not_mem_nil, or_false, Prod.mk.injEq] at this
    obtain ⟨_, rfl⟩ := this
    revert h2
    decide

/-- In `exCalls`, `main` calls the external function `ext`, and gets `max >= 32`. -/
example (search : TagSearch) : ∃ g' cycles,
    finalGraph id sameOrder search exCalls ⟨[], none⟩ none = .ok (g', cycles) ∧
    g'.maxOf? 0 = some (.lowerBound 32) := ⟨_, _, rfl, rfl⟩

/-! ### C40 -/

/-- **C40** The edges, as pairs of a live function and a name, do not depend on the order of the
definitions. Partial: if a function uses a memory routine or `memcmp`, that must be shown under its name, or the
function itself must call it by name, or no function; see `C40_order_matters`. (`C40_order_iff` in `Props.Edges`
says that this is needed.) -/
theorem C40_order_independent_partial {demangle : Str → Str} {p : Program} {ds : List Define}
    {st st' : Build} (once : p.NamesOnce) (safe : p.OrderSafe) (hp : ds.Perm p.defines)
    (h : irGraph demangle p = .ok st) (h' : irGraph demangle { p with defines := ds } = .ok st')
    (i : Nat) (name : Str) : st'.g.CallsName i name ↔ st.g.CallsName i name := by
  have hcont : ∀ i s, Program.Contains { p with defines := ds } i s ↔ p.Contains i s := by
    intro i s
    unfold Program.Contains
    constructor
    · rintro ⟨d, h1, h2⟩
      exact ⟨d, hp.mem_iff.mp h1, h2⟩
    · rintro ⟨d, h1, h2⟩
      exact ⟨d, hp.mem_iff.mpr h1, h2⟩
  have safe' : Program.OrderSafe { p with defines := ds } := by
    unfold Program.OrderSafe
    simp only [hcont]
    intro i s r hs hn
    refine safe i s r hs ?_
    cases hn with
    | memcmp => exact .memcmp
    | copy h1 h2 h3 => exact .copy h1 h2 h3
    | fill h1 h2 h3 => exact .fill h1 h2 h3
  obtain ⟨cs, ext, st0, r⟩ := irGraph_facts once h
  obtain ⟨cs', ext', st0', r'⟩ := irGraph_facts (p := { p with defines := ds }) once h'
  rw [callsName_iff r safe, callsName_iff r' safe']
  have e1 : ∀ n, n ∈ cs' ↔ n ∈ cs := fun n => (r'.mem_cs n).trans (r.mem_cs n).symm
  have e2 : ∀ f, mget f st0'.aliases = mget f st0.aliases := by
    intro f
    apply Option.ext
    intro c
    exact (r'.alias_iff f c).trans (r.alias_iff f c).symm
  simp only [hcont, mustTarget_congr e1 e2]

/-- Two functions: one copies memory, the other one calls the external `memcpy`. -/
def exOrder : Program :=
  { target := .other
    defined := [(8, ⟨[c!"main"], 4⟩), (16, ⟨[c!"f"], 8⟩)]
    undefined := [c!"memcpy"]
    stackSizes := [(c!"main", 8), (c!"f", 16)]
    defines := [⟨c!"main", exSig, [.directCall c!"llvm.memcpy.p0.p0.i32"]⟩,
      ⟨c!"f", exSig, [.directCall c!"memcpy"]⟩]
    declares := [] }

/-- **C40** is false in general: the max printed for `main` depends on the order of the definitions,
that is, on the seed of a hash map. -/
theorem C40_order_matters (search : TagSearch) :
    ∃ (g g' : Graph) (cycles cycles' : List (List Nat)),
      exOrder.NamesOnce ∧ exOrder.DefinesOnce ∧
      finalGraph id sameOrder search exOrder ⟨[], none⟩ none = .ok (g, cycles) ∧
      finalGraph id sameOrder search { exOrder with defines := exOrder.defines.reverse } ⟨[], none⟩
        none = .ok (g', cycles') ∧
      g.maxOf? 0 = some (.exact 8) ∧ g'.maxOf? 0 = some (.lowerBound 8) :=
  ⟨_, _, _, _, namesOnce_of (by decide), by unfold Program.DefinesOnce; decide, rfl, rfl, rfl, rfl⟩

/-- `exCalls` is covered by the partial theorem. -/
example : exCalls.OrderSafe := by
  have hb : ∀ i x, ¬ exCalls.Contains i (.bitcastCall x) := by
    rintro i x ⟨d, h1, _, h2⟩
    simp only [exCalls, List.mem_cons, List.not_mem_nil, or_false] at h1
    rcases h1 with rfl | rfl | rfl <;> simp at h2
  refine orderSafe_of ⟨?_, Or.inr (fun i => hb i _)⟩
  intro r hr
  refine Or.inr ⟨fun i => hb i _, ?_⟩
  rintro hl i ⟨d, h1, _, h2⟩
  simp only [exCalls, List.mem_cons, List.not_mem_nil, or_false] at h1
  rcases h1 with rfl | rfl | rfl <;>
    simp only [List.mem_cons, List.not_mem_nil, or_false, Stmt.directCall.injEq] at h2 <;>
    · revert h2 hr
      clear hl
      revert r
      decide

/-! ### C69 -/

/-- **C69** If the pass over the LLVM-IR does not abort, every symbol has a name and the live functions
contain only statements that the tool knows how to handle. -/
theorem C69_no_abort_only_if {demangle : Str → Str} {p : Program} {st : Build} (once : p.NamesOnce)
    (h : irGraph demangle p = .ok st) :
    (∀ e ∈ p.defined, ∃ n, e.2.Named n) ∧ ∀ i s, p.Contains i s → p.Acceptable s := by
  obtain ⟨cs, ext, st0, r⟩ := irGraph_facts once h
  constructor
  · intro e he
    obtain ⟨j, hj⟩ := List.getElem?_of_mem he
    obtain ⟨c, hc⟩ := r.sym.idx_lt hj
    exact ⟨c, (mem_realNames e.2 c).mp (canonicalOf_spec (r.sym.canon j e c hj hc)).1⟩
  · intro i s hc
    unfold Program.Acceptable
    split
    · rintro rfl
      exact r.ir.named i hc
    · rename_i f
      constructor
      · intro hf
        cases ht : p.target with
        | other => exact Or.inr (C33_known_or_abort ht h hc hf)
        | thumbv6m => simp
        | thumbv7m => simp
      · intro hf
        by_cases hl : ∃ j, p.LiveAt f j
        · exact Or.inl hl
        · by_cases hm : f = c!"memcmp"
          · exact Or.inr (Or.inr hm)
          · refine Or.inr (Or.inl (r.ir.known i f hc (classify_plain.mpr hf) ?_ ?_))
            · exact (r.dead f).mpr (fun j hj => hl ⟨j, hj⟩)
            · simpa [symbollessIntrinsics] using hm
    · trivial

/-- **C69** Conversely these conditions suffice, unless a `memcmp` that exists nowhere is called both
directly and through a bitcast. -/
theorem C69_no_abort_if_partial {demangle : Str → Str} {p : Program} (once : p.NamesOnce)
    (named : ∀ e ∈ p.defined, ∃ n, e.2.Named n) (hacc : ∀ i s, p.Contains i s → p.Acceptable s)
    (hmem : (∃ i, p.Contains i (.directCall c!"memcmp")) →
      (∃ i, p.Contains i (.bitcastCall (some c!"memcmp"))) →
      (∃ j, p.LiveAt c!"memcmp" j) ∨ c!"memcmp" ∈ p.undefined) :
    ∃ st, irGraph demangle p = .ok st :=
  irGraph_ok once named hacc hmem

/-- **C69** Exactly: the pass over the LLVM-IR does not abort if and only if every symbol has a name, the live
functions contain only statements that the tool knows how to handle, and a `memcmp` that exists nowhere is not
called directly after it was called through a bitcast, in the order in which the definitions are read. -/
theorem C69_no_abort_iff {demangle : Str → Str} {p : Program} (once : p.NamesOnce) :
    (∃ st, irGraph demangle p = .ok st) ↔
      (∀ e ∈ p.defined, ∃ n, e.2.Named n) ∧ (∀ i s, p.Contains i s → p.Acceptable s) ∧
      (p.CallsAfterBitcast c!"memcmp" → (∃ j, p.LiveAt c!"memcmp" j) ∨ c!"memcmp" ∈ p.undefined) :=
  irGraph_ok_iff once

/-- A direct call of `memcmp` before one through a bitcast, in the same function, is accepted. -/
example : ∃ st, irGraph id { exOrder with defines :=
    [⟨c!"main", exSig, [.directCall c!"memcmp", .bitcastCall (some c!"memcmp")]⟩] } = .ok st := ⟨_, rfl⟩

/-- The other way around it is not. -/
example : irGraph id { exOrder with defines :=
    [⟨c!"main", exSig, [.bitcastCall (some c!"memcmp"), .directCall c!"memcmp"]⟩] } =
      .error (.unknownCallee c!"memcmp") := rfl

/-- The exception is real: with the two definitions in the other order the tool does not abort. -/
theorem C69_memcmp_abort :
    ∃ p : Program, p.NamesOnce ∧ irGraph id p = .error (.unknownCallee c!"memcmp") ∧
      ∃ st, irGraph id { p with defines := p.defines.reverse } = .ok st :=
  ⟨{ exOrder with
      defines := [⟨c!"main", exSig, [.bitcastCall (some c!"memcmp")]⟩,
        ⟨c!"f", exSig, [.directCall c!"memcmp"]⟩] },
    namesOnce_of (by decide), rfl, _, rfl⟩

end CallStack
