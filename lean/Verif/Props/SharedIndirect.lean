import Verif.Proof.SharedIndirect
import Verif.Props.IndirectExact

/-!
Property C123: the nodes for indirect calls, exactly, if several functions may have the same names
(main.rs:514-542, 955-1065).
-/

namespace CallStack

section run

variable {demangle : Str → Str} {ord : HashOrder} {search : TagSearch} {p : Program} {elf : Elf} {st : Build} {g : Graph}

/-- **C123** There is exactly one dashed node for every type that some live function is taken to have and that
some indirect call may reach, as in C84. It is called by the last functions of the names with such a call, and it
calls all functions of the type, whether or not they are the last of their names. -/
theorem C123_indirect_nodes (alike : p.NamesAlike) (defs : p.DefinesOnce) (decls : p.DeclaresOnce)
    (hc : callGraph demangle ord search p elf = .ok (st, g)) :
    ∃ chosen, p.Chosen chosen ∧
      (∀ k nd, g.nodes[k]? = some nd → nd.dashed = true →
        ∃ sig, (∃ j, p.TakenAs j sig) ∧ p.Called sig ∧ p.IndirectNodeShared chosen g k sig) ∧
      (∀ sig, (∃ j, p.TakenAs j sig) → p.Called sig → ∃ k, p.defined.length ≤ k ∧ p.IndirectNodeShared chosen g k sig) ∧
      ∃ sigs : List FnSig, sigs.Nodup ∧ (∀ sig, sig ∈ sigs ↔ (∃ j, p.TakenAs j sig) ∧ p.Called sig) ∧
        List.Forall₂ (LabelOf chosen) sigs ((g.nodes.filter Node.dashed).map Node.name) := by
  obtain ⟨cs, st0, stIr, f⟩ := callGraph_shared hc
  refine ⟨voidOf ord st, f.chosen defs decls, ?_, ?_, ?_⟩
  · intro k nd hk hd
    obtain ⟨e, h1, h2, h3⟩ := f.of_dashed hk hd
    exact ⟨e.1, (f.registered defs decls e.1).mp ⟨_, h1⟩, (f.called_iff alike h1).mp h2,
      f.indirectNode alike defs decls h1 (f.dashed_ge hk hd) h3⟩
  · intro sig ht hs
    obtain ⟨i0, h1⟩ := (f.registered defs decls sig).mpr ht
    obtain ⟨k, h2, h3⟩ := f.out.called (sig, i0)
      (by rw [(ord.isPerm _ _ _).mem_iff, f.machine.indirects]; exact h1) ((f.called_iff alike h1).mpr hs)
    have := f.dashed_ge h3.node rfl
    exact ⟨k, this, f.indirectNode alike defs decls h1 this h3⟩
  · refine ⟨((ord.perm _ 1 st.indirects).filter (fun e => e.2.called)).map Prod.fst, ?_, ?_, ?_⟩
    · have hp : ((ord.perm _ 1 st.indirects).map Prod.fst).Nodup :=
        (((ord.isPerm _ _ _).map _).nodup_iff).mpr f.sigKeys
      exact hp.sublist (List.Sublist.map _ List.filter_sublist)
    · intro sig
      simp only [List.mem_map, List.mem_filter, (ord.isPerm _ _ _).mem_iff, f.machine.indirects]
      constructor
      · rintro ⟨e, ⟨h1, h2⟩, rfl⟩
        exact ⟨(f.registered defs decls e.1).mp ⟨_, h1⟩, (f.called_iff alike h1).mp h2⟩
      · rintro ⟨h1, h2⟩
        obtain ⟨i0, h3⟩ := (f.registered defs decls sig).mpr h1
        exact ⟨_, ⟨h3, (f.called_iff alike h3).mpr h2⟩, rfl⟩
    · rw [f.dashedNodes hc, List.map_map, List.forall₂_map_left_iff, List.forall₂_map_right_iff]
      exact List.forall₂_same.mpr (fun e _ => labelOf_dashed _ e)

/-- **C123** There is a path from one live function to another through a dashed node exactly if the former is the last
of a name with an indirect call compatible with a type for which the latter is a candidate (C36). -/
theorem C123_reached_iff (alike : p.NamesAlike) (defs : p.DefinesOnce) (decls : p.DeclaresOnce)
    (hc : callGraph demangle ord search p elf = .ok (st, g)) :
    ∃ chosen, p.Chosen chosen ∧ ∀ a j, j < p.defined.length →
      ((∃ (k : Nat) (nd : Node), g.nodes[k]? = some nd ∧ nd.dashed = true ∧ g.Calls a k ∧ g.Calls k j) ↔
        ∃ i sig, p.LastOf i a ∧ p.MayCallType i sig ∧ p.Candidate chosen sig j) := by
  obtain ⟨chosen, h1, h2, h3, _⟩ := C123_indirect_nodes alike defs decls hc
  refine ⟨chosen, h1, fun a j hj => ⟨?_, ?_⟩⟩
  · rintro ⟨k, nd, hk, hd, hik, hkj⟩
    obtain ⟨sig, ht, _, hn⟩ := h2 k nd hk hd
    obtain ⟨i, sig', hla, hs⟩ := (hn.callers a).mp hik
    refine ⟨i, sig, hla, ⟨ht, sig', hs⟩, ?_⟩
    by_cases hf : FormatsChosen chosen sig
    · exact Or.inr ⟨hf, (hn.formatting hf j hj).mp hkj⟩
    · exact Or.inl ⟨hf, (hn.callees hf j hj).mp hkj⟩
  · rintro ⟨i, sig, hla, ⟨ht, sig', hs, hcomp⟩, hcand⟩
    obtain ⟨k, _, hn⟩ := h3 sig ht ⟨i, sig', hs, hcomp⟩
    obtain ⟨nd, hk, hd, _⟩ := hn.node
    refine ⟨k, nd, hk, hd, (hn.callers a).mpr ⟨i, sig', hla, hs, hcomp⟩, ?_⟩
    rcases hcand with ⟨hf, h⟩ | ⟨hf, h⟩
    · exact (hn.callees hf j hj).mpr h
    · exact (hn.formatting hf j hj).mpr h

/-- **C123** An indirect call leads to an unknown function under the conditions of C38, in the node of the last function
of the name. -/
theorem C123_unknown_iff (alike : p.NamesAlike) (defs : p.DefinesOnce) (decls : p.DeclaresOnce)
    (hc : callGraph demangle ord search p elf = .ok (st, g)) (a : Nat) :
    (∃ (k q : Nat) (nd : Node), g.nodes[k]? = some nd ∧ nd.dashed = true ∧ p.defined.length ≤ q ∧
      g.Calls a k ∧ g.Calls k q) ↔
      (∃ i j sig sig', p.LastOf i a ∧ p.Contains i (.indirectCall sig) ∧ p.TakenAs j sig' ∧ sig'.Compatible sig) ∧
        ∃ j n, p.Untyped j ∧ p.Principal j n ∧ ¬ OutlinedName n := by
  obtain ⟨chosen, _, h2, h3, _⟩ := C123_indirect_nodes alike defs decls hc
  constructor
  · rintro ⟨k, q, nd, hk, hd, hq, hik, hkq⟩
    obtain ⟨sig, ⟨j, ht⟩, _, hn⟩ := h2 k nd hk hd
    obtain ⟨i, sig', hla, hs, hcomp⟩ := (hn.callers a).mp hik
    refine ⟨⟨i, j, sig', sig, hla, hs, ht, hcomp⟩, hn.unknown.mp ?_⟩
    rw [(hn.others q hq hkq).1] at hkq
    exact hkq
  · rintro ⟨⟨i, j, sig, sig', hla, hs, ht, hcomp⟩, hu⟩
    obtain ⟨k, hk0, hn⟩ := h3 sig' ⟨j, ht⟩ ⟨i, sig, hs, hcomp⟩
    obtain ⟨nd, hk, hd, _⟩ := hn.node
    exact ⟨k, k + 1, nd, hk, hd, by omega, (hn.callers a).mpr ⟨i, sig, hla, hs, hcomp⟩, hn.unknown.mpr hu⟩

end run

/-- `main` calls functions of the type of `f` indirectly; there are two functions `f` and two functions `main`. The type of
`asm` is unknown. -/
def exIndirectTwins : Program :=
  { target := .other
    defined := [(8, ⟨[c!"main"], 4⟩), (16, ⟨[c!"f"], 8⟩), (24, ⟨[c!"f"], 8⟩), (32, ⟨[c!"main"], 4⟩), (40, ⟨[c!"asm"], 4⟩)]
    undefined := []
    stackSizes := [(c!"main", 8), (c!"f", 16)]
    defines := [⟨c!"main", exBinSig, [.indirectCall exSig]⟩, ⟨c!"f", exSig, []⟩]
    declares := [] }

/-- Only the second `main` gets the call; it leads to both functions `f` and to the unknown function. -/
example (search : TagSearch) :
    ∃ st g, callGraph id sameOrder search exIndirectTwins ⟨[], none⟩ = .ok (st, g) ∧
      (g.nodes.drop 5).map (·.name) = [c!"void ()*", c!"?"] ∧
      g.edges = [(3, 5), (5, 6), (5, 1), (5, 2)] :=
  callGraph_eval (p := exIndirectTwins) rfl search _ (fun _ g => (g.nodes.drop 5).map (·.name) = _ ∧ g.edges = _)
    (by decide +kernel)

example : exIndirectTwins.NamesAlike ∧ exIndirectTwins.DefinesOnce ∧ exIndirectTwins.DeclaresOnce ∧
    exIndirectTwins.LastOf 0 3 ∧ exIndirectTwins.Contains 0 (.indirectCall exSig) := by
  refine ⟨?_, by unfold Program.DefinesOnce; decide, by unfold Program.DeclaresOnce; decide,
    ⟨_, _, _, _, rfl, rfl, rfl, ?_⟩, ⟨_, List.mem_cons_self, mem_live rfl List.mem_cons_self rfl, by simp⟩⟩
  · have key : ∀ x ∈ exIndirectTwins.defined, ∀ y ∈ exIndirectTwins.defined, ∀ n ∈ x.2.names, n ∈ y.2.names →
        x.2.names = y.2.names := by decide
    intro i j a s b t n hi hj hs ht
    exact key _ (List.mem_of_getElem? hi) _ (List.mem_of_getElem? hj) n hs.1 ht.1
  · intro k c u hk hu
    have hk' := (List.getElem?_eq_some_iff.mp hu).1
    obtain rfl : k = 4 := by simp [exIndirectTwins] at hk'; omega
    cases hu
    decide

end CallStack
