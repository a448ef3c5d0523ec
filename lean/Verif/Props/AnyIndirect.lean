import Verif.Proof.AnyIndirect
import Verif.Proof.Examples
import Verif.Props.AnyEdges
import Verif.Props.IndirectExact

/-!
Property C126: the nodes for indirect calls, exactly, whatever the names of the functions (main.rs:514-542, 955-1065).
-/

namespace CallStack

section run

variable {demangle : Str → Str} {ord : HashOrder} {search : TagSearch} {p : Program} {elf : Elf} {st : Build} {g : Graph}

/-- **C126** There is exactly one dashed node for every type that some live function is taken to have and that
some indirect call may reach, as in C84. It is called by the functions that definitions with such a call are taken
for (C125), and it calls all functions of the type. -/
theorem C126_indirect_nodes (defs : p.DefinesOnce) (decls : p.DeclaresOnce)
    (hc : callGraph demangle ord search p elf = .ok (st, g)) :
    ∃ chosen, p.Chosen chosen ∧
      (∀ k nd, g.nodes[k]? = some nd → nd.dashed = true →
        ∃ sig, (∃ j, p.TakenAs j sig) ∧ p.Called sig ∧ p.IndirectNodeAny chosen g k sig) ∧
      (∀ sig, (∃ j, p.TakenAs j sig) → p.Called sig → ∃ k, p.defined.length ≤ k ∧ p.IndirectNodeAny chosen g k sig) ∧
      ∃ sigs : List FnSig, sigs.Nodup ∧ (∀ sig, sig ∈ sigs ↔ (∃ j, p.TakenAs j sig) ∧ p.Called sig) ∧
        List.Forall₂ (LabelOf chosen) sigs ((g.nodes.filter Node.dashed).map Node.name) := by
  obtain ⟨cs, st0, stIr, f⟩ := callGraph_shared hc
  refine ⟨voidOf ord st, f.chosen defs decls, ?_, ?_, ?_⟩
  · intro k nd hk hd
    obtain ⟨e, h1, h2, h3⟩ := f.of_dashed hk hd
    exact ⟨e.1, (f.registered defs decls e.1).mp ⟨_, h1⟩, (f.called_any h1).mp h2,
      f.indirectNodeAny defs decls h1 (f.dashed_ge hk hd) h3⟩
  · intro sig ht hs
    obtain ⟨i0, h1⟩ := (f.registered defs decls sig).mpr ht
    obtain ⟨k, h2, h3⟩ := f.out.called (sig, i0)
      (by rw [(ord.isPerm _ _ _).mem_iff, f.machine.indirects]; exact h1) ((f.called_any h1).mpr hs)
    have := f.dashed_ge h3.node rfl
    exact ⟨k, this, f.indirectNodeAny defs decls h1 this h3⟩
  · refine ⟨((ord.perm _ 1 st.indirects).filter (fun e => e.2.called)).map Prod.fst, ?_, ?_, ?_⟩
    · have hp : ((ord.perm _ 1 st.indirects).map Prod.fst).Nodup :=
        (((ord.isPerm _ _ _).map _).nodup_iff).mpr f.sigKeys
      exact hp.sublist (List.Sublist.map _ List.filter_sublist)
    · intro sig
      simp only [List.mem_map, List.mem_filter, (ord.isPerm _ _ _).mem_iff, f.machine.indirects]
      constructor
      · rintro ⟨e, ⟨h1, h2⟩, rfl⟩
        exact ⟨(f.registered defs decls e.1).mp ⟨_, h1⟩, (f.called_any h1).mp h2⟩
      · rintro ⟨h1, h2⟩
        obtain ⟨i0, h3⟩ := (f.registered defs decls sig).mpr h1
        exact ⟨_, ⟨h3, (f.called_any h3).mpr h2⟩, rfl⟩
    · rw [f.dashedNodes hc, List.map_map, List.forall₂_map_left_iff, List.forall₂_map_right_iff]
      exact List.forall₂_same.mpr (fun e _ => labelOf_dashed _ e)

/-- **C126** There is a path from one live function to another through a dashed node exactly if a definition with an
indirect call compatible with a type for which the latter is a candidate (C36) is taken for the former. -/
theorem C126_reached_iff (defs : p.DefinesOnce) (decls : p.DeclaresOnce)
    (hc : callGraph demangle ord search p elf = .ok (st, g)) :
    ∃ chosen, p.Chosen chosen ∧ ∀ a j, j < p.defined.length →
      ((∃ (k : Nat) (nd : Node), g.nodes[k]? = some nd ∧ nd.dashed = true ∧ g.Calls a k ∧ g.Calls k j) ↔
        ∃ sig sig', p.TakenIn a (.indirectCall sig') ∧ sig.Compatible sig' ∧ (∃ j, p.TakenAs j sig) ∧
          p.Candidate chosen sig j) := by
  obtain ⟨chosen, h1, h2, h3, _⟩ := C126_indirect_nodes defs decls hc
  obtain ⟨cs, st0, stIr, f⟩ := callGraph_shared hc
  refine ⟨chosen, h1, fun a j hj => ⟨?_, ?_⟩⟩
  · rintro ⟨k, nd, hk, hd, hik, hkj⟩
    obtain ⟨sig, ht, _, hn⟩ := h2 k nd hk hd
    obtain ⟨sig', hs, hco⟩ := (hn.callers a).mp hik
    refine ⟨sig, sig', hs, hco, ht, ?_⟩
    by_cases hf : FormatsChosen chosen sig
    · exact Or.inr ⟨hf, (hn.formatting hf j hj).mp hkj⟩
    · exact Or.inl ⟨hf, (hn.callees hf j hj).mp hkj⟩
  · rintro ⟨sig, sig', hs, hcomp, ht, hcand⟩
    obtain ⟨i, hi⟩ := (f.contains_taken _).mpr ⟨a, hs⟩
    obtain ⟨k, _, hn⟩ := h3 sig ht ⟨i, sig', hi, hcomp⟩
    obtain ⟨nd, hk, hd, _⟩ := hn.node
    refine ⟨k, nd, hk, hd, (hn.callers a).mpr ⟨sig', hs, hcomp⟩, ?_⟩
    rcases hcand with ⟨hf, h⟩ | ⟨hf, h⟩
    · exact (hn.callees hf j hj).mpr h
    · exact (hn.formatting hf j hj).mpr h

/-- **C126** An indirect call leads to an unknown function under the conditions of C38, in the node of the function that
its definition is taken for. -/
theorem C126_unknown_iff (defs : p.DefinesOnce) (decls : p.DeclaresOnce)
    (hc : callGraph demangle ord search p elf = .ok (st, g)) (a : Nat) :
    (∃ (k q : Nat) (nd : Node), g.nodes[k]? = some nd ∧ nd.dashed = true ∧ p.defined.length ≤ q ∧
      g.Calls a k ∧ g.Calls k q) ↔
      (∃ j sig sig', p.TakenIn a (.indirectCall sig) ∧ p.TakenAs j sig' ∧ sig'.Compatible sig) ∧
        ∃ j n, p.Untyped j ∧ p.Principal j n ∧ ¬ OutlinedName n := by
  obtain ⟨chosen, _, h2, h3, _⟩ := C126_indirect_nodes defs decls hc
  obtain ⟨cs, st0, stIr, f⟩ := callGraph_shared hc
  constructor
  · rintro ⟨k, q, nd, hk, hd, hq, hik, hkq⟩
    obtain ⟨sig, ⟨j, ht⟩, _, hn⟩ := h2 k nd hk hd
    obtain ⟨sig', hs, hcomp⟩ := (hn.callers a).mp hik
    refine ⟨⟨j, sig', sig, hs, ht, hcomp⟩, hn.unknown.mp ?_⟩
    rw [(hn.others q hq hkq).1] at hkq
    exact hkq
  · rintro ⟨⟨j, sig, sig', hs, ht, hcomp⟩, hu⟩
    obtain ⟨i, hi⟩ := (f.contains_taken _).mpr ⟨a, hs⟩
    obtain ⟨k, hk0, hn⟩ := h3 sig' ⟨j, ht⟩ ⟨i, sig, hi, hcomp⟩
    obtain ⟨nd, hk, hd, _⟩ := hn.node
    exact ⟨k, k + 1, nd, hk, hd, by omega, (hn.callers a).mpr ⟨sig, hs, hcomp⟩, hn.unknown.mpr hu⟩

end run

/-- As `exHomonyms`; the function that is defined as `swap` makes an indirect call of the type of `leaf`. -/
def exHomonymsIndirect : Program :=
  { exHomonyms with
    defines := [⟨c!"main", exBinSig, [.directCall c!"swap"]⟩, ⟨c!"swap", exBinSig, [.indirectCall exSig]⟩,
      ⟨c!"leaf", exSig, []⟩] }

/-- The indirect call comes from the second function with this name. -/
example (search : TagSearch) (elf : Elf) :
    ∃ st g, callGraph id sameOrder search exHomonymsIndirect elf = .ok (st, g) ∧
      (g.nodes.drop 4).map (·.name) = [c!"void ()*"] ∧ g.edges = [(0, 2), (2, 4), (4, 3)] :=
  callGraph_eval (p := exHomonymsIndirect) rfl search _ (fun _ g => (g.nodes.drop 4).map (·.name) = _ ∧ g.edges = _)
    (by decide +kernel)

example : exHomonymsIndirect.DefinesOnce ∧ exHomonymsIndirect.DeclaresOnce ∧ ¬ exHomonymsIndirect.NamesAlike := by
  refine ⟨by unfold Program.DefinesOnce; decide, by unfold Program.DeclaresOnce; decide, fun h => ?_⟩
  have := h 1 2 _ _ _ _ c!"swap" rfl rfl ⟨by decide, by rw [← isTag_iff]; decide⟩
    ⟨by decide, by rw [← isTag_iff]; decide⟩
  exact absurd this (by decide)

end CallStack
