import Verif.Spec.Figures
import Verif.Props.IndirectExact

/-!
Properties C36 and C38: the exact conditions.
-/

namespace CallStack

/-- **C36** The exact condition: there is a path from one live function to another through a dashed node exactly
if the former contains an indirect call that is compatible with a type for which the latter is a candidate: the
type it is taken to have, or that of formatting functions of the chosen type, for which all defined formatting
functions are candidates. -/
theorem C36_reached_iff {demangle : Str → Str} {ord : HashOrder} {search : TagSearch} {p : Program}
    {elf : Elf} {st : Build} {g : Graph} (once : p.NamesOnce) (defs : p.DefinesOnce)
    (decls : p.DeclaresOnce) (hc : callGraph demangle ord search p elf = .ok (st, g)) :
    ∃ chosen, p.Chosen chosen ∧ ∀ i j, j < p.defined.length →
      ((∃ (k : Nat) (nd : Node), g.nodes[k]? = some nd ∧ nd.dashed = true ∧ g.Calls i k ∧ g.Calls k j) ↔
        ∃ sig, p.MayCallType i sig ∧ p.Candidate chosen sig j) := by
  obtain ⟨chosen, h1, h2, h3, _⟩ := C84_indirect_nodes once defs decls hc
  refine ⟨chosen, h1, fun i j hj => ⟨?_, ?_⟩⟩
  · rintro ⟨k, nd, hk, hd, hik, hkj⟩
    obtain ⟨sig, ht, _, hn⟩ := h2 k nd hk hd
    refine ⟨sig, ⟨ht, (hn.callers i).mp hik⟩, ?_⟩
    by_cases hf : FormatsChosen chosen sig
    · exact Or.inr ⟨hf, (hn.formatting hf j hj).mp hkj⟩
    · exact Or.inl ⟨hf, (hn.callees hf j hj).mp hkj⟩
  · rintro ⟨sig, ⟨ht, sig', hs, hcomp⟩, hcand⟩
    obtain ⟨k, hn⟩ := h3 sig ht ⟨i, sig', hs, hcomp⟩
    obtain ⟨nd, hk, hd, _⟩ := hn.node
    refine ⟨k, nd, hk, hd, (hn.callers i).mpr ⟨sig', hs, hcomp⟩, ?_⟩
    rcases hcand with ⟨hf, h⟩ | ⟨hf, h⟩
    · exact (hn.callees hf j hj).mpr h
    · exact (hn.formatting hf j hj).mpr h

/-- **C38** The exact condition: an indirect call of a live function leads to an unknown function exactly if some
live function has a compatible type, and some live function has no type and is not an outlined one. -/
theorem C38_unknown_iff {demangle : Str → Str} {ord : HashOrder} {search : TagSearch} {p : Program}
    {elf : Elf} {st : Build} {g : Graph} (once : p.NamesOnce) (defs : p.DefinesOnce)
    (decls : p.DeclaresOnce) (hc : callGraph demangle ord search p elf = .ok (st, g)) (i : Nat) :
    (∃ (k q : Nat) (nd : Node), g.nodes[k]? = some nd ∧ nd.dashed = true ∧ p.defined.length ≤ q ∧
      g.Calls i k ∧ g.Calls k q) ↔
      (∃ j sig sig', p.Contains i (.indirectCall sig) ∧ p.TakenAs j sig' ∧ sig'.Compatible sig) ∧
        ∃ j n, p.Untyped j ∧ p.Principal j n ∧ ¬ OutlinedName n := by
  obtain ⟨chosen, _, h2, h3, _⟩ := C84_indirect_nodes once defs decls hc
  constructor
  · rintro ⟨k, q, nd, hk, hd, hq, hik, hkq⟩
    obtain ⟨sig, ⟨j, ht⟩, _, hn⟩ := h2 k nd hk hd
    obtain ⟨sig', hs, hcomp⟩ := (hn.callers i).mp hik
    refine ⟨⟨j, sig', sig, hs, ht, hcomp⟩, hn.unknown.mp ?_⟩
    rw [(hn.others q hq hkq).1] at hkq
    exact hkq
  · rintro ⟨⟨j, sig, sig', hs, ht, hcomp⟩, hu⟩
    obtain ⟨k, hn⟩ := h3 sig' ⟨j, ht⟩ ⟨i, sig, hs, hcomp⟩
    obtain ⟨nd, hk, hd, _⟩ := hn.node
    refine ⟨k, k + 1, nd, hk, hd, ?_, (hn.callers i).mpr ⟨sig, hs, hcomp⟩, hn.unknown.mpr hu⟩
    by_contra hlt
    obtain ⟨cs, ext, st0, stIr, r⟩ := callGraph_facts once hc
    -- dashed nodes come after the live functions
    have hlt' : k < cs.length := by rw [r.live_length]; omega
    have hk' : (cs ++ ext)[k]? = some cs[k] := by
      rw [List.getElem?_append_left hlt']; exact List.getElem?_eq_getElem hlt'
    obtain ⟨nd', h4, _, h5, _⟩ := r.node hk'
    rw [hk] at h4
    rw [Option.some.inj h4, h5] at hd
    simp at hd

/-- In `exFormatters` the call of the formatting functions for the chosen type may reach `f`, which formats
another. -/
example : ∃ sig, (exFormatters c!"S" c!"core::fmt::Void.1").MayCallType 0 sig ∧
    (exFormatters c!"S" c!"core::fmt::Void.1").Candidate (some c!"core::fmt::Void.1") sig 1 := by
  have hself : (exFmtSig (.alias c!"core::fmt::Void.1")).Compatible (exFmtSig (.alias c!"core::fmt::Void.1")) :=
    (C39_signatures _ _).mp (C39_reflexive_symmetric _ (exFmtSig (.alias c!"core::fmt::Void.1"))).1
  refine ⟨exFmtSig (.alias c!"core::fmt::Void.1"), ⟨⟨2, .inl ?_⟩, _, ?_, hself⟩, Or.inr ⟨⟨_, rfl, ?_⟩, exFmtSig (.alias c!"S"), ?_, ?_⟩⟩
  · exact ⟨_, _, [], [], ⟨c!"g", exFmtSig (.alias c!"core::fmt::Void.1"), []⟩, rfl, rfl,
      by rw [← isTag_iff]; decide, by simp [exFormatters], rfl, by simp⟩
  · exact ⟨_, List.mem_cons_self, mem_live rfl List.mem_cons_self rfl, by simp⟩
  · simp [FnSig.Formats, exFmtSig]
  · exact ⟨_, _, [], [], ⟨c!"f", exFmtSig (.alias c!"S"), []⟩, rfl, rfl, by rw [← isTag_iff]; decide,
      by simp [exFormatters], rfl, by simp⟩
  · simp [FnSig.FmtShape, exFmtSig]

end CallStack
