import Verif.Spec.SharedIndirect
import Verif.Proof.SharedFigures

/-!
The fictitious nodes described by the program alone, if several functions may have the same names.
-/

namespace CallStack

theorem callGraph_added {demangle : Str → Str} {ord : HashOrder} {search : TagSearch} {p : Program}
    {elf : Elf} {st : Build} {g : Graph} (h : callGraph demangle ord search p elf = .ok (st, g)) :
    g = addIndirects ord st := by
  unfold callGraph at h
  split at h
  · cases h
  · split at h
    · cases h
    · simp only [Except.ok.injEq, Prod.mk.injEq] at h
      obtain ⟨rfl, rfl⟩ := h
      rfl

section run

variable {demangle : Str → Str} {ord : HashOrder} {search : TagSearch} {p : Program} {elf : Elf}
  {cs : List Str} {st0 stIr st : Build} {g : Graph}

theorem SharedFacts.called_iff (f : SharedFacts demangle ord search p elf cs st0 stIr st g) (alike : p.NamesAlike)
    {e : FnSig × Indirect} (he : e ∈ stIr.indirects) : e.2.called = true ↔ p.Called e.1 := by
  unfold Program.Called
  constructor
  · intro h
    have hne := (EdgeStep.defines p.defines f.definesOk).called (fun e0 h0 h3 => by
      rw [(f.sym.fresh e0 h0).1] at h3
      simp at h3) e he h
    obtain ⟨i, hi⟩ := List.exists_mem_of_ne_nil _ hne
    obtain ⟨i', s, _, h1, h2⟩ := (f.callers_iff alike he i).mp hi
    exact ⟨i', s, h1, h2⟩
  · rintro ⟨i, s, h2, h3⟩
    obtain ⟨d, hd, ⟨ai, si, hi, hni⟩, hs⟩ := id h2
    obtain ⟨ci, hci, _⟩ := f.canon_at hi
    obtain ⟨m, hm, hlm⟩ := f.lookup alike hi hci
    exact (f.marked d hd ci m s (f.alias alike hi hci hni) hm hs _ he ((C39_signatures _ _).mpr h3)).1

/-- A fictitious node. -/
theorem SharedFacts.indirectNode (f : SharedFacts demangle ord search p elf cs st0 stIr st g) (alike : p.NamesAlike)
    (defs : p.DefinesOnce) (decls : p.DeclaresOnce) {e : FnSig × Indirect} {k : Nat}
    (he : e ∈ stIr.indirects) (hk : p.defined.length ≤ k)
    (hd : DashedFor st.hasUntypedSymbols st.fmts (voidOf ord st) e g k) :
    p.IndirectNodeShared (voidOf ord st) g k e.1 := by
  have hun := f.untyped decls
  have hcand := f.candidate_iff defs decls he
  have hlt : ∀ j ∈ dashedCallees st.fmts (voidOf ord st) e, j < p.defined.length := fun j hj => f.callees_live he hj
  refine ⟨⟨_, hd.node, rfl, rfl, labelOf_dashed _ _⟩, fun a => (hd.pred a).trans (f.callers_iff alike he a), ?_, ?_, ?_, ?_⟩
  · intro hf j hj
    unfold Graph.Calls
    rw [hd.succ j, hcand]
    unfold Program.Candidate
    simp only [hf, not_false_eq_true, true_and, false_and, or_false]
    refine ⟨fun h => h.resolve_right fun h => ?_, .inl⟩
    omega
  · intro hf j hj
    unfold Graph.Calls
    rw [hd.succ j, hcand]
    unfold Program.Candidate
    simp only [hf, not_true, true_and, false_and, false_or]
    refine ⟨fun h => h.resolve_right fun h => ?_, .inl⟩
    omega
  · intro j hj hc
    rcases (hd.succ j).mp hc with h1 | ⟨h1, rfl⟩
    · have := hlt j h1
      omega
    · exact ⟨rfl, hd.extern h1⟩
  · unfold Graph.Calls
    rw [hd.succ, ← hun]
    refine ⟨fun h => ?_, fun h => .inr ⟨h, rfl⟩⟩
    rcases h with h | ⟨h, _⟩
    · have := hlt _ h
      omega
    · exact h

theorem SharedFacts.dashed_ge (f : SharedFacts demangle ord search p elf cs st0 stIr st g) {k : Nat} {nd : Node}
    (hk : g.nodes[k]? = some nd) (hd : nd.dashed = true) : p.defined.length ≤ k := by
  by_contra hlt
  have he := List.getElem?_eq_getElem (l := p.defined) (show k < _ by omega)
  obtain ⟨c, hc, _⟩ := f.canon_at he
  obtain ⟨nd', h2, _, h3, _⟩ := f.live_node hc
  rw [hk] at h2
  obtain rfl := Option.some.inj h2
  rw [h3] at hd
  cases hd

theorem SharedFacts.sigKeys (f : SharedFacts demangle ord search p elf cs st0 stIr st g) :
    (st.indirects.map (·.1)).Nodup := by
  have h1 := congrArg (List.map (fun (x : FnSig × List Nat) => x.1)) f.ir.sigs
  simp only [List.map_map] at h1
  rw [f.machine.indirects, show (stIr.indirects.map (·.1)) = st0.indirects.map (·.1) from h1]
  exact f.sym.keys

/-- The dashed nodes, in order. -/
theorem SharedFacts.dashedNodes (f : SharedFacts demangle ord search p elf cs st0 stIr st g)
    (h : callGraph demangle ord search p elf = .ok (st, g)) :
    g.nodes.filter (·.dashed) =
      ((ord.perm _ 1 st.indirects).filter (fun e => e.2.called)).map (dashedNode (voidOf ord st)) := by
  have h0 : st.g.nodes.filter (·.dashed) = [] := by
    rw [List.filter_eq_nil_iff]
    intro nd hnd hd
    obtain ⟨k, hk⟩ := List.getElem?_of_mem hnd
    have hlt := (List.getElem?_eq_some_iff.mp hk).1
    obtain ⟨ns, hn⟩ := f.out.nodes
    have hk' : g.nodes[k]? = some nd := by rw [hn, List.getElem?_append_left hlt, hk]
    by_cases h1 : k < stIr.g.nodes.length
    · obtain ⟨nd', h2, _, h3, _⟩ := f.node (List.getElem?_eq_getElem h1)
      rw [hk'] at h2
      obtain rfl := Option.some.inj h2
      obtain ⟨ext, he⟩ := f.ir.nodes
      have hm := List.getElem_mem h1
      generalize stIr.g.nodes[k] = x at h3 hm
      rw [he, f.sym.nodes, List.mem_append] at hm
      rw [h3] at hd
      rcases hm with hm | hm <;>
      · obtain ⟨c, _, rfl⟩ := List.mem_map.mp hm
        cases hd
    · have h3 := f.machine.new k (by omega) hlt
      rw [hk] at h3
      obtain rfl := Option.some.inj h3
      cases hd
  rw [callGraph_added h]
  unfold addIndirects
  simp only
  rw [indirectLoop_nodes, List.filter_append, h0, filter_newNodes]
  rfl

end run

end CallStack
