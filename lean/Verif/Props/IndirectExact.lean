import Verif.Proof.IndirectExact
import Verif.Props.Indirect

/-!
Property C84: the nodes for indirect calls, exactly (main.rs:514-542, 955-1065).
-/

namespace CallStack

/-- **C84** There is exactly one dashed node for every type that some live function is taken to have and that
some indirect call may reach. Its label, its callers and its callees are determined by the program and the type
that was chosen to stand for "any type" in calls of formatting functions. -/
theorem C84_indirect_nodes {demangle : Str → Str} {ord : HashOrder} {search : TagSearch} {p : Program}
    {elf : Elf} {st : Build} {g : Graph} (once : p.NamesOnce) (defs : p.DefinesOnce)
    (decls : p.DeclaresOnce) (hc : callGraph demangle ord search p elf = .ok (st, g)) :
    ∃ chosen, p.Chosen chosen ∧
      (∀ k nd, g.nodes[k]? = some nd → nd.dashed = true →
        ∃ sig, (∃ j, p.TakenAs j sig) ∧ p.Called sig ∧ p.IndirectNode chosen g k sig) ∧
      (∀ sig, (∃ j, p.TakenAs j sig) → p.Called sig → ∃ k, p.IndirectNode chosen g k sig) ∧
      ∃ sigs : List FnSig, sigs.Nodup ∧ (∀ sig, sig ∈ sigs ↔ (∃ j, p.TakenAs j sig) ∧ p.Called sig) ∧
        List.Forall₂ (LabelOf chosen) sigs ((g.nodes.filter Node.dashed).map Node.name) := by
  obtain ⟨cs, ext, st0, stIr, r⟩ := callGraph_facts once hc
  have hcalled : ∀ e ∈ st.indirects, e.2.called = true ↔ p.Called e.1 := by
    intro e he
    have he' : e ∈ stIr.indirects := by rw [← r.machine.indirects]; exact he
    rw [r.ir.ir.called e he']
    unfold Program.Called
    constructor
    · intro h
      obtain ⟨i, hi⟩ := List.exists_mem_of_ne_nil _ h
      obtain ⟨s, h1, h2⟩ := (r.ir.ir.callers e he' i).mp hi
      exact ⟨i, s, h1, (C39_signatures _ _).mp h2⟩
    · rintro ⟨i, s, h1, h2⟩
      exact List.ne_nil_of_mem ((r.ir.ir.callers e he' i).mpr ⟨s, h1, (C39_signatures _ _).mpr h2⟩)
  refine ⟨voidOf ord st, r.chosen defs decls, ?_, ?_, ?_⟩
  · intro k nd hk hd
    have hlt := (List.getElem?_eq_some_iff.mp hk).1
    have hge : st.g.nodes.length ≤ k := by
      by_contra hlt'
      by_cases hm : k < (cs ++ ext).length
      · obtain ⟨nd', h2, _, h3, _⟩ := r.node (List.getElem?_eq_getElem hm)
        rw [hk] at h2
        have := Option.some.inj h2
        subst this
        rw [h3] at hd
        simp at hd
      · have h3 := r.machine.new k (by omega) (by omega)
        obtain ⟨ns, hn⟩ := r.out.nodes
        rw [hn, List.getElem?_append_left (by omega), h3] at hk
        have := Option.some.inj hk
        subst this
        simp [questionNode, mkNode] at hd
    rcases r.out.new k hge hlt with ⟨e, h3, h4, h5⟩ | ⟨_, h3, _⟩
    · rw [(ord.isPerm _ _ _).mem_iff] at h3
      exact ⟨e.1, (r.registered defs decls e.1).mp ⟨_, h3⟩, (hcalled e h3).mp h4,
        r.indirectNode defs decls h3 hge h5⟩
    · rw [hk] at h3
      have := Option.some.inj h3
      subst this
      simp [questionNode, mkNode] at hd
  · intro sig ht hs
    obtain ⟨i0, h1⟩ := (r.registered defs decls sig).mpr ht
    obtain ⟨k, h2, h3⟩ := r.out.called (sig, i0) (by rw [(ord.isPerm _ _ _).mem_iff]; exact h1)
      ((hcalled _ h1).mpr hs)
    exact ⟨k, r.indirectNode defs decls h1 h2 h3⟩
  · refine ⟨((ord.perm _ 1 st.indirects).filter (fun e => e.2.called)).map Prod.fst, ?_, ?_, ?_⟩
    · have hp : ((ord.perm _ 1 st.indirects).map Prod.fst).Nodup :=
        (((ord.isPerm _ _ _).map _).nodup_iff).mpr r.keys
      exact hp.sublist (List.Sublist.map _ List.filter_sublist)
    · intro sig
      simp only [List.mem_map, List.mem_filter, (ord.isPerm _ _ _).mem_iff]
      constructor
      · rintro ⟨e, ⟨h1, h2⟩, rfl⟩
        exact ⟨(r.registered defs decls e.1).mp ⟨_, h1⟩, (hcalled e h1).mp h2⟩
      · rintro ⟨h1, h2⟩
        obtain ⟨i0, h3⟩ := (r.registered defs decls sig).mpr h1
        exact ⟨_, ⟨h3, (hcalled _ h3).mpr h2⟩, rfl⟩
    · rw [r.dashedNodes, List.map_map, List.forall₂_map_left_iff, List.forall₂_map_right_iff]
      exact List.forall₂_same.mpr (fun e _ => labelOf_dashed _ e)

/-- `main` calls formatting functions for `v` and for `w`. -/
def exFormatters (v w : Str) : Program :=
  { target := .other
    defined := [(8, ⟨[c!"main"], 4⟩), (16, ⟨[c!"f"], 8⟩), (24, ⟨[c!"g"], 8⟩)]
    undefined := []
    stackSizes := [(c!"main", 8), (c!"f", 16), (c!"g", 24)]
    defines := [⟨c!"main", exSig, [.indirectCall (exFmtSig (.alias v)), .indirectCall (exFmtSig (.alias w))]⟩,
      ⟨c!"f", exFmtSig (.alias v), []⟩, ⟨c!"g", exFmtSig (.alias w), []⟩]
    declares := [] }

/-- If one of the types is `fmt::Void` calls of its formatting functions may reach all, and the label is the type
itself. If its name begins with `core::fmt::Void` the label is the fixed one. If there is no such type the calls
are kept apart. -/
example (search : TagSearch) :
    (∃ st g, callGraph id sameOrder search (exFormatters c!"fmt::Void" c!"T") ⟨[], none⟩ = .ok (st, g) ∧
      (g.nodes.drop 3).map (·.name) = [c!"i1 (%\"fmt::Void\"*, %\"core::fmt::Formatter\"*)*",
        c!"i1 (%\"T\"*, %\"core::fmt::Formatter\"*)*"] ∧
      g.edges = [(0, 3), (3, 1), (3, 2), (0, 4), (4, 2)]) ∧
    (∃ st g, callGraph id sameOrder search (exFormatters c!"S" c!"core::fmt::Void.1") ⟨[], none⟩ = .ok (st, g) ∧
      (g.nodes.drop 3).map (·.name) = [c!"i1 (%\"S\"*, %\"core::fmt::Formatter\"*)*", fmtLabel] ∧
      g.edges = [(0, 3), (3, 1), (0, 4), (4, 1), (4, 2)]) ∧
    (∃ st g, callGraph id sameOrder search (exFormatters c!"S" c!"T") ⟨[], none⟩ = .ok (st, g) ∧
      (g.nodes.drop 3).map (·.name) = [c!"i1 (%\"S\"*, %\"core::fmt::Formatter\"*)*",
        c!"i1 (%\"T\"*, %\"core::fmt::Formatter\"*)*"] ∧
      g.edges = [(0, 3), (3, 1), (0, 4), (4, 2)]) :=
  ⟨callGraph_eval rfl search _ (fun _ g => _ ∧ g.edges = _) (by decide +kernel),
    callGraph_eval rfl search _ (fun _ g => _ ∧ g.edges = _) (by decide +kernel),
    callGraph_eval rfl search _ (fun _ g => _ ∧ g.edges = _) (by decide +kernel)⟩

example : (exFormatters c!"S" c!"core::fmt::Void.1").NamesOnce ∧
    (exFormatters c!"S" c!"core::fmt::Void.1").DefinesOnce ∧
    (exFormatters c!"S" c!"core::fmt::Void.1").TakenAs 1 (exFmtSig (.alias c!"S")) := by
  refine ⟨namesOnce_of (by decide), by unfold Program.DefinesOnce; decide, .inl ?_⟩
  exact ⟨_, _, [], [], ⟨c!"f", exFmtSig (.alias c!"S"), []⟩, rfl, rfl, by rw [← isTag_iff]; decide,
    by simp [exFormatters], rfl, by simp⟩

end CallStack
