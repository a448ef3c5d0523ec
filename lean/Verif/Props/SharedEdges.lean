import Verif.Proof.SharedSingle
import Verif.Props.Shared

/-!
Property C115: where the edges between functions come from, if several functions may have the same names.
-/

namespace CallStack

variable {demangle : Str → Str} {ord : HashOrder} {search : TagSearch} {p : Program} {elf : Elf}

/-- **C115** No edge is made up: each one comes from a statement of the LLVM-IR or from the machine code of one of the
functions with the names of the function it starts at. It ends at the last function with the names of the callee, or at
a node of its own for a function that is not in the executable; or it is one of those of an indirect call. -/
theorem C115_edges_justified (alike : p.NamesAlike) {st : Build} {g : Graph}
    (h : callGraph demangle ord search p elf = .ok (st, g)) {a b : Nat} (hab : g.Calls a b) :
    (∃ i s j nd, p.LastOf i a ∧ p.Contains i s ∧ g.nodes[b]? = some nd ∧ p.Justifies s j nd.name ∧
      (p.LastOf j b ∨ (j = b ∧ p.defined.length ≤ b))) ∨
    (∃ i address size r t j, p.LastOf i a ∧ p.Decoded search elf i address size r ∧ LeavesTo r address size t ∧
      p.StartsAt j t ∧ p.LastOf j b) ∨
    (∃ i address size r nd, p.LastOf i a ∧ p.Decoded search elf i address size r ∧ r.indirect = true ∧
      p.NoIr i ∧ p.defined.length ≤ b ∧ g.nodes[b]? = some nd ∧ nd.name = c!"?" ∧ nd.loc = .unknown) ∨
    (∃ k nd, (k = a ∨ k = b) ∧ g.nodes[k]? = some nd ∧ nd.dashed = true) := by
  obtain ⟨cs, st0, stIr, f⟩ := callGraph_shared h
  rcases f.edge_cases hab with h1 | ⟨k, e, _, _, h2, h3⟩
  · have hpass := f.pass
    unfold machinePass at hpass
    split at hpass
    · rename_i ht
      split at hpass
      · cases hpass
        exact .inl (f.ir_sound alike h1)
      · rename_i stext text hx
        obtain ⟨_, m⟩ := f.loop stext text ht hx
        rcases m.sound _ h1 with h2 | ⟨e, he, c, r, h3, h4, h5⟩
        · exact .inl (f.ir_sound alike h2)
        · obtain ⟨i, hi⟩ := List.getElem?_of_mem he
          obtain ⟨hc, hla⟩ := f.nodeOf alike hi h3
          have hd := decoded_of hi hx h4
          rcases h5 with ⟨t, h5, h6⟩ | ⟨h5, h6, h7, h8⟩
          · obtain ⟨j, hj, hlj⟩ := f.resolves_last alike h6
            exact .inr (.inl ⟨i, _, _, r, t, j, hla, hd, mem_calledAddrs.mp h5, hj, hlj⟩)
          · refine .inr (.inr (.inl ⟨i, _, _, r, questionNode, hla, hd, h6, ?_, ?_, ?_, rfl, rfl⟩))
            · rintro d hd1 ⟨_, _, hd2, hd3⟩
              rw [hi] at hd2
              cases hd2
              exact h5 ((definePass_defined_all p.defines f.definesOk).2 d hd1 c (f.alias alike hi hc hd3))
            · obtain ⟨ext, he⟩ := f.ir.nodes
              rw [he, List.length_append, f.sym.nodes, List.length_map, f.sym.len] at h8
              exact Nat.le_trans (Nat.le_add_right _ _) h8
            · obtain ⟨ns, hn⟩ := f.out.nodes
              rw [hn, List.getElem?_append_left (List.getElem?_eq_some_iff.mp h7).1]
              exact h7
    · cases hpass
      exact .inl (f.ir_sound alike h1)
  · exact .inr (.inr (.inr ⟨k, _, h2, h3.node, rfl⟩))

/-- **C115** So a function that is hidden by a later one with the same names is not the end of an edge, unless that of
an indirect call. -/
theorem C115_callee_last (alike : p.NamesAlike) {st : Build} {g : Graph}
    (h : callGraph demangle ord search p elf = .ok (st, g)) {a b : Nat} (hab : g.Calls a b) {nd : Node}
    (ha : g.nodes[a]? = some nd) (hd : nd.dashed = false) (hb : b < p.defined.length) : p.LastOf b b := by
  have last : ∀ {j : Nat}, p.LastOf j b → p.LastOf b b := by
    rintro j ⟨a, s, a', t, _, h2, h3, h4⟩
    exact ⟨a', t, a', t, h2, h2, rfl, fun k c u hk hu => h3 ▸ h4 k c u hk hu⟩
  obtain ⟨cs, st0, stIr, f⟩ := callGraph_shared h
  have hb' : b < cs.length := by rw [f.sym.len]; exact hb
  obtain ⟨ndb, hndb, _, hdb, _⟩ := f.live_node (List.getElem?_eq_getElem hb')
  rcases C115_edges_justified alike h hab with ⟨_, _, j, _, _, _, _, _, h1⟩ | ⟨_, _, _, _, _, j, _, _, _, _, h1⟩ |
    ⟨_, _, _, _, _, _, _, _, _, h1, _⟩ | ⟨k, nd', rfl | rfl, h1, h2⟩
  · rcases h1 with h1 | ⟨_, h1⟩
    · exact last h1
    · omega
  · exact last h1
  · omega
  · rw [ha] at h1
    cases h1
    rw [hd] at h2
    cases h2
  · rw [hndb] at h1
    cases h1
    rw [hdb] at h2
    cases h2

/-- **C115** The nodes of indirect calls: they start at the last function with the names of one that contains such a
call, and end at every function of that type, hidden ones included. -/
theorem C115_dashed_nodes (alike : p.NamesAlike) (declares : p.DeclaresOnce) {st : Build} {g : Graph}
    (h : callGraph demangle ord search p elf = .ok (st, g)) {k : Nat} {nd : Node} (hk : g.nodes[k]? = some nd)
    (hd : nd.dashed = true) :
    nd.loc = .exact 0 ∧ ∃ sig : FnSig,
      (nd.name = sig.show ++ c!"*" ∨ (sig.FmtShape ∧ nd.name = fmtLabel)) ∧
      (∃ a, g.Calls a k) ∧
      (∀ a, g.Calls a k ↔
        ∃ i sig', p.LastOf i a ∧ p.Contains i (.indirectCall sig') ∧ sig.Compatible sig') ∧
      (∀ j, g.Calls k j →
        p.DefinedSig j sig ∨ ((∀ sig', ¬ p.DefinedSig j sig') ∧ p.DeclaredSig j sig) ∨
        (sig.FmtShape ∧ ∃ sig', p.DefinedSig j sig' ∧ sig'.FmtShape) ∨
        (g.nodes[j]? = some (mkNode c!"?" none false) ∧ ∃ j', p.Untyped j')) ∧
      (¬ sig.FmtShape → ∀ j, p.TypedAs j sig → g.Calls k j) := by
  obtain ⟨cs, st0, stIr, f⟩ := callGraph_shared h
  obtain ⟨e, h1, h2, h3⟩ := f.of_dashed hk hd
  have hnd := h3.node
  rw [hk] at hnd
  obtain rfl := Option.some.inj hnd
  have hstep := EdgeStep.defines p.defines f.definesOk
  have hcall : ∀ a, g.Calls a k ↔
      ∃ i sig', p.LastOf i a ∧ p.Contains i (.indirectCall sig') ∧ e.1.Compatible sig' := by
    intro a
    unfold Graph.Calls
    rw [h3.pred a]
    constructor
    · intro ha
      rcases hstep.callers e h1 a ha with ⟨e0, k1, _, k2⟩ | ⟨sig, ⟨d, hd, hs, c, hc, hi⟩, k2⟩
      · rw [(f.sym.fresh e0 k1).2.1] at k2
        cases k2
      · rw [f.ir.aliases] at hc
        obtain ⟨i, hli, hla⟩ := f.alias_last alike hc hi
        exact ⟨i, sig, hla, ⟨d, hd, hli, hs⟩, (C39_signatures _ _).mp k2⟩
    · rintro ⟨i, sig', hla, ⟨d, hd, ⟨ai, si, hi, hni⟩, hs⟩, hco⟩
      obtain ⟨ci, hci, _⟩ := f.canon_at hi
      obtain ⟨m, hm, hlm⟩ := f.lookup alike hi hci
      obtain rfl := hla.unique hlm
      exact (f.marked d hd ci a sig' (f.alias alike hi hci hni) hm hs e h1 ((C39_signatures _ _).mpr hco)).2
  refine ⟨rfl, e.1, ?_, ?_, hcall, ?_, ?_⟩
  · unfold dashedNode labelSig
    simp only [mkNode]
    split
    · rename_i hf
      simp only [Bool.and_eq_true] at hf
      have hs := isFormatter_fmt hf.1
      refine .inr ⟨hs, ?_⟩
      obtain ⟨⟨t, hi⟩, ho⟩ := hs
      rw [hi, ho]
      rfl
    · exact .inl rfl
  · have := hstep.called (fun e0 k1 k2 => by rw [(f.sym.fresh e0 k1).1] at k2; cases k2) e h1 h2
    obtain ⟨i, hi⟩ := List.exists_mem_of_ne_nil _ this
    exact ⟨i, (h3.pred i).mpr hi⟩
  · intro j hj
    rcases (h3.succ j).mp hj with hj | ⟨hu, rfl⟩
    · unfold dashedCallees at hj
      split at hj
      · rename_i hf
        obtain ⟨e', d, h4, h5, h6⟩ := (f.fmt j).mp hj
        exact .inr (.inr (.inl ⟨isFormatter_fmt hf, d.sig, firstDefine_some h4 h5, h6⟩))
      · obtain ⟨s, h4, h5⟩ := (f.callees_iff h1 j).mp hj
        rcases symSig_some h4 h5 with h6 | h6
        · exact .inl h6
        · exact .inr (.inl h6)
    · refine .inr (.inr (.inr ⟨h3.extern hu, ?_⟩))
      rw [f.machine.untyped, f.ir.untyped, f.sym.untyped] at hu
      obtain ⟨j', e', c, k1, k2, k3, _⟩ := hu
      refine ⟨j', ⟨c, e'.1, e'.2, k1, (mem_realNames _ _).mp ?_⟩, (symSig_none declares k1).mp k3⟩
      obtain ⟨c', hc', _, hmem⟩ := f.canon_at k1
      rw [k2] at hc'
      cases hc'
      exact hmem
  · intro hf j hj
    obtain ⟨e', he, hs⟩ := symSig_typed declares hj
    refine (h3.succ j).mpr (.inl ?_)
    unfold dashedCallees
    split
    · rename_i hf'
      exact absurd (isFormatter_fmt hf') hf
    · exact (f.callees_iff h1 j).mpr ⟨e', he, hs⟩

/-- **C31** for functions of the same name: there is at most one edge, unless one of the functions with the names of the
caller contains a call through a bitcast. -/
theorem C31_single_edge_shared (alike : p.NamesAlike) {st : Build} {g : Graph}
    (h : callGraph demangle ord search p elf = .ok (st, g)) {a b : Nat}
    (hi : ∀ i, p.LastOf i a → ∀ x, ¬ p.Contains i (.bitcastCall x))
    (hd : ∀ k nd, (k = a ∨ k = b) → g.nodes[k]? = some nd → nd.dashed = false) :
    g.edges.count (a, b) ≤ 1 := by
  obtain ⟨cs, st0, stIr, f⟩ := callGraph_shared h
  have h2 := (f.machine.single a (f.single alike hi)).1 b
  obtain ⟨es, h3, h4⟩ := f.out.edges
  rw [h3, List.count_append]
  have : es.count (a, b) = 0 := by
    rw [List.count_eq_zero]
    intro hm
    have hin : (a, b) ∈ g.edges := by rw [h3]; simp [hm]
    have hge := (h4 _ hm).1
    rcases f.edge_cases hin with h5 | ⟨k, e, _, _, h6, h7⟩
    · have h8 := f.machine.wf _ h5
      have h9 := f.machine.len
      simp only at hge h8
      omega
    · cases hd k _ h6 h7.node
  omega

/-- Two local functions `helper` with the same type: the direct call leads to the last one, the indirect call to both. -/
example (search : TagSearch) : ∃ st g,
    callGraph id sameOrder search
      { target := .other
        defined := [(8, ⟨[c!"main"], 4⟩), (16, ⟨[c!"helper"], 8⟩), (24, ⟨[c!"helper"], 8⟩)]
        undefined := [c!"ext"]
        stackSizes := []
        defines := [⟨c!"main", exSig, [.directCall c!"helper", .indirectCall exBinSig, .directCall c!"ext"]⟩,
          ⟨c!"helper", exBinSig, [.directCall c!"main"]⟩]
        declares := [] } ⟨[], none⟩ = .ok (st, g) ∧
    g.nodes.map (fun nd => (nd.name, nd.dashed)) = [(c!"main", false), (c!"helper", false), (c!"helper", false),
      (c!"ext", false), (exBinSig.show ++ c!"*", true)] ∧
    g.edges = [(0, 2), (0, 3), (2, 0), (0, 4), (4, 1), (4, 2)] :=
  callGraph_eval rfl search _ (fun _ g => _ ∧ g.edges = _) (by decide +kernel)

end CallStack
