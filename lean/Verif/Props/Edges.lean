import Verif.Proof.Edges
import Verif.Props.Build

/-!
Property C103: exactly which nodes and edges the LLVM-IR gives (main.rs:551-763).
-/

namespace CallStack

/-- **C103** After the pass over the LLVM-IR there is a node of a name exactly if a live function is shown under
this name, or it is called through a bitcast, or it is an undefined symbol other than `memcmp` that is called
directly. -/
theorem C103_nodes {demangle : Str → Str} {p : Program} {st : Build} (once : p.NamesOnce)
    (h : irGraph demangle p = .ok st) (n : Str) :
    (∃ (k : Nat) (nd : Node), st.g.nodes[k]? = some nd ∧ nd.name = n) ↔
      p.NodeAfter (fun s => ∃ i, p.Contains i s) n := by
  obtain ⟨cs, ext, st0, r⟩ := irGraph_facts once h
  rw [← (irGraph_edges h r).1]
  constructor
  · rintro ⟨k, nd, h1⟩
    exact List.mem_of_getElem? ((r.name_at k n).mpr ⟨nd, h1⟩)
  · intro h1
    obtain ⟨k, hk⟩ := List.getElem?_of_mem h1
    obtain ⟨nd, h2⟩ := (r.name_at k n).mp hk
    exact ⟨k, nd, h2⟩

/-- **C103** After the pass over the LLVM-IR, a function has an edge to a node of a name exactly if one of its
statements leads to that name, given the statements of live functions that were read before it. -/
theorem C103_edges {demangle : Str → Str} {p : Program} {st : Build} (once : p.NamesOnce)
    (h : irGraph demangle p = .ok st) (i : Nat) (name : Str) :
    st.g.CallsName i name ↔ ∃ before s, p.StmtAt before i s ∧ p.LeadsTo before s name := by
  obtain ⟨cs, ext, st0, r⟩ := irGraph_facts once h
  rw [← (irGraph_edges h r).2]
  constructor
  · rintro ⟨k, nd, h1, h2⟩
    exact ⟨k, (r.name_at k name).mpr ⟨nd, h2⟩, h1⟩
  · rintro ⟨k, h1, h2⟩
    obtain ⟨nd, h3⟩ := (r.name_at k name).mp h1
    exact ⟨k, nd, h2, h3⟩

/-- **C103** On a target without machine code analysis, the edges between live functions in the finished graph
are exactly those to which their statements lead. -/
theorem C103_live_edges {demangle : Str → Str} {ord : HashOrder} {search : TagSearch}
    {p : Program} {elf : Elf} {st : Build} {g : Graph} (once : p.NamesOnce) (other : p.target = .other)
    (h : callGraph demangle ord search p elf = .ok (st, g)) {i j : Nat} {name : Str} (hi : i < p.defined.length)
    (hj : p.Principal j name) :
    g.Calls i j ↔ ∃ before s, p.StmtAt before i s ∧ p.LeadsTo before s name := by
  obtain ⟨cs, ext, st0, stIr, r⟩ := callGraph_facts once h
  rw [← (irGraph_edges r.irOk r.ir).2]
  have hst := r.quiet (by rw [other]; rfl)
  subst hst
  have hlen := irFacts_length r.ir
  rw [List.length_append] at hlen
  have hcs := r.ir.principal.mp hj
  have hjl := (List.getElem?_eq_some_iff.mp hcs).1
  have hj' : (cs ++ ext)[j]? = some name := by
    rw [List.getElem?_append_left hjl]; exact hcs
  rw [← r.ir.sym.len] at hi
  constructor
  · intro hc
    rcases r.edge_cases hc with h1 | ⟨k, _, _, _, _, h1, h2, _⟩
    · exact ⟨j, hj', h1⟩
    · omega
  · rintro ⟨k, h1, h2⟩
    rw [r.ir.inj h1 hj'] at h2
    exact r.edges_ir h2

/-- **C34** Exactly: a function that only calls intrinsics has an edge to a live function exactly if that function is
shown under the name of one of the routines that are listed for one of these intrinsics. -/
theorem C34_edge_iff {demangle : Str → Str} {ord : HashOrder} {search : TagSearch}
    {p : Program} {elf : Elf} {st : Build} {g : Graph} (once : p.NamesOnce) (other : p.target = .other)
    (h : callGraph demangle ord search p elf = .ok (st, g)) {i j : Nat} {name : Str} (hi : i < p.defined.length)
    (hj : p.Principal j name) (only : ∀ s, p.Contains i s → ∃ f, s = .directCall f ∧ IsIntrinsic f) :
    g.Calls i j ↔ ∃ f, p.Contains i (.directCall f) ∧
      ((c!"llvm.memcpy." <+: f ∧ name ∈ CopyRoutines) ∨
        ((c!"llvm.memset." <+: f ∨ c!"llvm.memmove." <+: f) ∧ name ∈ FillRoutines)) := by
  rw [C103_live_edges once other h hi hj]
  constructor
  · rintro ⟨before, s, h1, h2⟩
    have hc := (StmtAt.contains h1).1
    obtain ⟨f, rfl, hf⟩ := only s hc
    refine ⟨f, hc, ?_⟩
    cases h2 with
    | live h3 | external h3 => exact absurd hf h3
    | copy _ h3 h4 => exact .inl ⟨h3, h4⟩
    | fill _ h3 h4 => exact .inr ⟨h3, h4⟩
  · rintro ⟨f, hc, h2⟩
    obtain ⟨before, hb⟩ := Contains.stmtAt hc
    refine ⟨before, _, hb, ?_⟩
    rcases h2 with ⟨h3, h4⟩ | ⟨h3, h4⟩
    · exact .copy other h3 h4 (.inl ⟨j, hj⟩)
    · exact .fill other h3 h4 (.inl ⟨j, hj⟩)

/-- `main` only copies memory; there are a routine to copy and one to fill memory. -/
def exCopies : Program :=
  { target := .other
    defined := [(8, ⟨[c!"main"], 4⟩), (16, ⟨[c!"memcpy"], 8⟩), (24, ⟨[c!"memset"], 8⟩)]
    undefined := []
    stackSizes := [(c!"main", 8), (c!"memcpy", 4), (c!"memset", 4)]
    defines := [⟨c!"main", exSig, [.directCall c!"llvm.memcpy.p0.p0.i32"]⟩]
    declares := [] }

/-- It has an edge to the former, not to the latter. -/
example (demangle : Str → Str) (ord : HashOrder) (search : TagSearch) (elf : Elf) (st : Build) (g : Graph)
    (h : callGraph demangle ord search exCopies elf = .ok (st, g)) : g.Calls 0 1 ∧ ¬ g.Calls 0 2 := by
  have once : exCopies.NamesOnce := namesOnce_of (by decide)
  have only : ∀ s, exCopies.Contains 0 s → ∃ f, s = .directCall f ∧ IsIntrinsic f := by
    rintro s ⟨d, hd, _, hs⟩
    simp only [exCopies, List.mem_singleton] at hd
    subst hd
    simp only [List.mem_singleton] at hs
    exact ⟨_, hs, by unfold IsIntrinsic; decide⟩
  have hj1 : exCopies.Principal 1 c!"memcpy" := by
    refine ⟨_, _, [], [], rfl, rfl, by rw [← isTag_iff]; decide, .inl ⟨⟨4, rfl⟩, by simp⟩⟩
  have hj2 : exCopies.Principal 2 c!"memset" := by
    refine ⟨_, _, [], [], rfl, rfl, by rw [← isTag_iff]; decide, .inl ⟨⟨4, rfl⟩, by simp⟩⟩
  rw [C34_edge_iff once rfl h (by decide) hj1 only, C34_edge_iff once rfl h (by decide) hj2 only]
  constructor
  · refine ⟨c!"llvm.memcpy.p0.p0.i32", ⟨_, List.mem_cons_self, ?_, List.mem_cons_self⟩, .inl ⟨by decide, by decide⟩⟩
    exact mem_live rfl List.mem_cons_self rfl
  · rintro ⟨f, ⟨d, hd, _, hs⟩, h2⟩
    simp only [exCopies, List.mem_singleton] at hd
    subst hd
    simp only [List.mem_singleton, Stmt.directCall.injEq] at hs
    subst hs
    revert h2
    decide

/-- `memcmp` is called directly, then through a bitcast, then again; `memcpy` is called directly between two
copies. -/
def exEdges : Program :=
  { target := .other
    defined := [(8, ⟨[c!"a"], 4⟩), (16, ⟨[c!"b"], 8⟩), (24, ⟨[c!"c", c!"c_alias"], 8⟩), (32, ⟨[c!"d"], 8⟩)]
    undefined := [c!"memcmp", c!"memcpy"]
    stackSizes := [(c!"a", 8), (c!"b", 16)]
    defines :=
      [⟨c!"a", exSig, [.directCall c!"memcmp", .directCall c!"llvm.memcpy.p0.p0.i32"]⟩,
       ⟨c!"b", exSig, [.bitcastCall (some c!"memcmp"), .directCall c!"memcpy", .directCall c!"c_alias"]⟩,
       ⟨c!"gone", exSig, [.bitcastCall (some c!"x")]⟩,
       ⟨c!"c", exSig, [.directCall c!"memcmp"]⟩,
       ⟨c!"d", exSig, [.directCall c!"llvm.memcpy.p0.p0.i32", .directCall c!"memcpy"]⟩]
    declares := [] }

/-- Calls in `a` come too early to be found, those in `c` and `d` are found. -/
example : exEdges.NamesOnce ∧ ∃ st, irGraph id exEdges = .ok st ∧
    st.g.nodes.map (·.name) = [c!"a", c!"b", c!"c", c!"d", c!"memcmp", c!"memcpy"] ∧
    st.g.edges = [(1, 4), (1, 5), (1, 2), (2, 4), (3, 5)] :=
  ⟨namesOnce_of (by decide), _, rfl, rfl, rfl⟩

/-- The call of `memcmp` in `c` is an edge because of the bitcast in `b`. -/
example : ∃ before s, exEdges.StmtAt before 2 s ∧ exEdges.LeadsTo before s c!"memcmp" := by
  refine ⟨fun t => t ∈ ([] : List Stmt) ∨ ∃ d' ∈ exEdges.defines.take 3, (∃ j, exEdges.LiveAt d'.name j) ∧
      t ∈ d'.stmts, .directCall c!"memcmp",
    ⟨exEdges.defines.take 3, _, exEdges.defines.drop 4, [], [], rfl, mem_live rfl List.mem_cons_self rfl, rfl,
      fun t => Iff.rfl⟩, ?_⟩
  refine .external ?_ ?_ (by simp [exEdges]) fun _ =>
    Or.inr (Or.inl (Or.inr ⟨⟨c!"b", exSig, [.bitcastCall (some c!"memcmp"), .directCall c!"memcpy",
      .directCall c!"c_alias"]⟩, ?_, ⟨1, ?_⟩, ?_⟩))
  · rw [← classify_plain (t := false)]; rfl
  · rintro i ⟨a, s, h1, h2, _⟩
    have := List.mem_of_getElem? h1
    simp only [exEdges, List.mem_cons, List.not_mem_nil, or_false, Prod.mk.injEq] at this
    rcases this with ⟨_, rfl⟩ | ⟨_, rfl⟩ | ⟨_, rfl⟩ | ⟨_, rfl⟩ <;> · revert h2; decide
  · simp [exEdges]
  · exact mem_live rfl List.mem_cons_self rfl
  · simp

/-- **C103** If the order of the definitions does not matter, a function has an edge to a node of a name exactly
if one of its statements leads to that name, given all statements of live functions. -/
theorem C103_edges_unordered {demangle : Str → Str} {p : Program} {st : Build} (once : p.NamesOnce)
    (safe : p.OrderSafe)
    (h : irGraph demangle p = .ok st) (i : Nat) (name : Str) :
    st.g.CallsName i name ↔ ∃ s, p.Contains i s ∧ p.LeadsTo (fun t => ∃ k, p.Contains k t) s name := by
  rw [C103_edges once h, leads_orderSafe safe]

/-- **C40** The exact condition: the edges are the same for all orders of the definitions exactly if `OrderSafe`
holds. (`memcmp` must be shown under this name if it is in the executable, and known if it is called.) -/
theorem C40_order_iff {demangle : Str → Str} {p : Program} {st : Build} (once : p.NamesOnce)
    (hm : ∀ j, p.LiveAt c!"memcmp" j → p.Principal j c!"memcmp")
    (known : (∃ j, p.LiveAt c!"memcmp" j) ∨ c!"memcmp" ∈ p.undefined ∨
      ∀ i, ¬ p.Contains i (.directCall c!"memcmp"))
    (h : irGraph demangle p = .ok st) :
    (∀ ds st', ds.Perm p.defines → irGraph demangle { p with defines := ds } = .ok st' →
      ∀ i name, st'.g.CallsName i name ↔ st.g.CallsName i name) ↔ p.OrderSafe := by
  constructor
  · intro hsame i s r hs hn
    by_contra hno
    simp only [not_or, not_forall, Classical.not_not] at hno
    obtain ⟨h1, h2, k, s', hk, hcr⟩ := hno
    replace h2 : ¬ ∃ s', p.Contains i s' ∧ p.Creates s' r := by
      intro h3
      refine h2 ⟨h3, ?_⟩
      rintro rfl
      refine ⟨fun j hj => h1 ⟨j, hm j hj⟩, ?_⟩
      rcases known with ⟨j, hj⟩ | h6 | h6
      · exact absurd ⟨j, hm j hj⟩ h1
      · exact h6
      · cases hn with
        | memcmp => exact absurd hs (h6 i)
        | copy _ _ h7 => exact absurd h7 (by decide)
        | fill _ _ h7 => exact absurd h7 (by decide)
    obtain ⟨named, acc, _⟩ := (C69_no_abort_iff (demangle := demangle) once).mp ⟨st, h⟩
    have hok : ∀ ds, ds.Perm p.defines → ∃ st', irGraph demangle { p with defines := ds } = .ok st' := by
      intro ds hp
      refine (C69_no_abort_iff (p := { p with defines := ds }) once).mpr ⟨named, ?_, ?_⟩
      · intro i s hc
        exact acc i s ((contains_perm hp i s).mp hc)
      · rintro ⟨ds₁, d, ds₂, pre, post, h3, ⟨i, h4⟩, h5, _⟩
        rcases known with h6 | h6 | h6
        · exact Or.inl h6
        · exact Or.inr h6
        · refine absurd ((contains_perm hp i _).mp ⟨d, ?_, h4, ?_⟩) (h6 i)
          · rw [h3]; simp
          · rw [h5]; simp
    classical
    -- the definitions of the function first
    let f : Define → Bool := fun d => decide (p.LiveAt d.name i)
    have hp₁ : (p.defines.filter f ++ p.defines.filter (fun d => !f d)).Perm p.defines :=
      List.filter_append_perm f p.defines
    have hp₂ : (p.defines.filter (fun d => !f d) ++ p.defines.filter f).Perm p.defines :=
      List.perm_append_comm.trans hp₁
    obtain ⟨st₁, e₁⟩ := hok _ hp₁
    obtain ⟨st₂, e₂⟩ := hok _ hp₂
    have hno₁ : ¬ st₁.g.CallsName i r := by
      rw [C103_edges (p := { p with defines := p.defines.filter f ++ p.defines.filter (fun d => !f d) }) once e₁]
      rintro ⟨before, t, hat, hl⟩
      have ht := (contains_perm hp₁ i t).mp (StmtAt.contains hat).1
      refine not_leads ht ?_ h1 h2 (leadsTo_defines.mp hl)
      obtain ⟨ds₁, d, ds₂, pre, post, h3, h4, h5, h6⟩ := hat
      have h4' : p.LiveAt d.name i := h4
      intro u hu
      rcases (h6 u).mp hu with h7 | ⟨d', h7, _, h8⟩
      · refine ⟨d, hp₁.mem_iff.mp ?_, h4', by rw [h5]; simp [h7]⟩
        simp only at h3
        rw [h3]; simp
      · have h9 := split_filter h3 (by simpa [f] using h4') d' h7
        refine ⟨d', hp₁.mem_iff.mp ?_, by simpa [f] using h9, h8⟩
        simp only at h3
        rw [h3]; simp [h7]
    have hyes₂ : st₂.g.CallsName i r := by
      rw [C103_edges (p := { p with defines := p.defines.filter (fun d => !f d) ++ p.defines.filter f }) once e₂]
      obtain ⟨d', hd', hl', hs'⟩ := hk
      obtain ⟨d, hd, hl, hs0⟩ := hs
      have hne : f d' = false := by
        simp only [f, decide_eq_false_iff_not]
        exact fun hl0 => h2 ⟨s', ⟨d', hd', hl0, hs'⟩, hcr⟩
      have hyes : f d = true := by simpa [f] using hl
      obtain ⟨as, bs, e⟩ := List.append_of_mem (List.mem_filter.mpr ⟨hd, hyes⟩)
      obtain ⟨pre, post, e'⟩ := List.append_of_mem hs0
      refine ⟨_, s, ⟨p.defines.filter (fun d => !f d) ++ as, d, bs, pre, post, ?_, hl, e', fun t => Iff.rfl⟩, ?_⟩
      · simp only [e, List.append_assoc]
      · rw [leadsTo_defines]
        have hnode : p.NodeAfter (fun t => t ∈ pre ∨ ∃ d' ∈ p.defines.filter (fun d => !f d) ++ as,
            (∃ j, p.LiveAt d'.name j) ∧ t ∈ d'.stmts) r := by
          rw [nodeAfter_iff]
          refine Or.inr ⟨s', Or.inr ⟨d', ?_, ⟨k, hl'⟩, hs'⟩, hcr⟩
          exact List.mem_append.mpr (Or.inl (List.mem_filter.mpr ⟨hd', by simp [hne]⟩))
        cases hn with
        | memcmp =>
          refine .external ?_ ?_ ?_ fun _ => hnode
          · rw [← classify_plain (t := false)]; rfl
          · exact fun j hj => h1 ⟨j, hm j hj⟩
          · rcases known with ⟨j, hj⟩ | h6 | h6
            · exact absurd ⟨j, hm j hj⟩ h1
            · exact h6
            · exact absurd ⟨d, hd, hl, hs0⟩ (h6 i)
        | copy h3 h4 h5 => exact .copy h3 h4 h5 hnode
        | fill h3 h4 h5 => exact .fill h3 h4 h5 hnode
    exact hno₁ ((hsame _ st₁ hp₁ e₁ i r).mpr ((hsame _ st₂ hp₂ e₂ i r).mp hyes₂))
  · intro safe ds st' hp h' i name
    rw [C103_edges_unordered once safe h,
      C103_edges_unordered (p := { p with defines := ds }) once ((orderSafe_perm hp).mpr safe) h']
    simp only [contains_perm hp, leadsTo_defines]

/-- In `exOrder`, `main` copies memory and `f` calls the external `memcpy`. -/
example : ¬ exOrder.OrderSafe := by
  intro h
  have hl : ∀ i, ¬ exOrder.LiveAt c!"memcpy" i := by
    rintro i ⟨a, s, h1, h2, _⟩
    have := List.mem_of_getElem? h1
    simp only [exOrder, List.mem_cons, List.not_mem_nil, or_false, Prod.mk.injEq] at this
    rcases this with ⟨_, rfl⟩ | ⟨_, rfl⟩ <;> · revert h2; decide
  have hf : exOrder.Contains 1 (.directCall c!"memcpy") :=
    ⟨⟨c!"f", exSig, [.directCall c!"memcpy"]⟩, by simp [exOrder], mem_live rfl List.mem_cons_self rfl, by simp⟩
  have hcr : exOrder.Creates (.directCall c!"memcpy") c!"memcpy" :=
    Or.inr ⟨rfl, by rw [← classify_plain (t := false)]; rfl, by decide, hl, by simp [exOrder]⟩
  rcases h 0 (.directCall c!"llvm.memcpy.p0.p0.i32") c!"memcpy"
    ⟨_, List.mem_cons_self, mem_live rfl List.mem_cons_self rfl, by simp⟩
    (.copy rfl (by decide) (by simp [CopyRoutines])) with ⟨j, a, s, pre, post, h1, h2, h3, _⟩ | ⟨⟨s', h1, h2⟩, _⟩ | h1
  · exact hl j ⟨a, s, h1, by rw [h2]; simp, h3⟩
  · obtain ⟨d, h3, ⟨a, s, h4, h5, _⟩, h6⟩ := h1
    simp only [exOrder, List.mem_cons, List.not_mem_nil, or_false] at h3
    obtain ⟨rfl, rfl⟩ : 8 = a ∧ ⟨[c!"main"], 4⟩ = s := by simpa [exOrder] using h4
    rcases h3 with rfl | rfl
    · simp only [List.mem_cons, List.not_mem_nil, or_false] at h6
      subst h6
      simp [Program.Creates] at h2
    · revert h5; decide
  · exact h1 1 _ hf hcr

/-- `main` copies memory and calls the external `memcpy`, as `f` does: the order does not matter. -/
def exOwnCall : Program :=
  { exOrder with
    defines := [⟨c!"main", exSig, [.directCall c!"llvm.memcpy.p0.p0.i32", .directCall c!"memcpy"]⟩,
      ⟨c!"f", exSig, [.directCall c!"memcpy"]⟩] }

example : exOwnCall.NamesOnce ∧ exOwnCall.OrderSafe ∧ ∃ st, irGraph id exOwnCall = .ok st ∧
    st.g.CallsName 0 c!"memcpy" := by
  refine ⟨namesOnce_of (by decide), ?_, _, rfl, 2, _, by decide, rfl, rfl⟩
  have hl : ∀ i, ¬ exOwnCall.LiveAt c!"memcpy" i := by
    rintro i ⟨a, s, h1, h2, _⟩
    have := List.mem_of_getElem? h1
    simp only [exOwnCall, exOrder, List.mem_cons, List.not_mem_nil, or_false, Prod.mk.injEq] at this
    rcases this with ⟨_, rfl⟩ | ⟨_, rfl⟩ <;> · revert h2; decide
  have hno : ∀ i s, exOwnCall.Contains i s → s = .directCall c!"llvm.memcpy.p0.p0.i32" ∧
      exOwnCall.Contains i (.directCall c!"memcpy") ∨ s = .directCall c!"memcpy" := by
    rintro i s ⟨d, h1, h2, h3⟩
    simp only [exOwnCall, List.mem_cons, List.not_mem_nil, or_false] at h1
    rcases h1 with rfl | rfl <;> simp only [List.mem_cons, List.not_mem_nil, or_false] at h3
    · rcases h3 with rfl | rfl
      · exact Or.inl ⟨rfl, _, List.mem_cons_self, h2, by simp⟩
      · exact Or.inr rfl
    · exact Or.inr h3
  have hcr : exOwnCall.Creates (.directCall c!"memcpy") c!"memcpy" :=
    Or.inr ⟨rfl, by rw [← classify_plain (t := false)]; rfl, by decide, hl, by simp [exOwnCall, exOrder]⟩
  have hnone : ∀ r, r ≠ c!"memcpy" → ∀ k s', exOwnCall.Contains k s' → ¬ exOwnCall.Creates s' r := by
    rintro r hr k s' hk (rfl | ⟨rfl, h1, _, h2, h3⟩)
    · rcases hno _ _ hk with ⟨h, _⟩ | h <;> simp at h
    · rcases hno _ _ hk with ⟨h, _⟩ | h
      · simp only [Stmt.directCall.injEq] at h
        subst h
        revert h3
        decide
      · simp only [Stmt.directCall.injEq] at h
        exact hr h
  intro i s r hs hn
  by_cases hr : r = c!"memcpy"
  · subst hr
    rcases hno _ _ hs with ⟨rfl, h⟩ | rfl
    · exact Or.inr (Or.inl ⟨⟨_, h, hcr⟩, fun h => absurd h (by decide)⟩)
    · exact Or.inr (Or.inl ⟨⟨_, hs, hcr⟩, fun h => absurd h (by decide)⟩)
  · exact Or.inr (Or.inr (hnone r hr))

end CallStack
