import Verif.Spec.AnyIndirect
import Verif.Proof.AnyEdges
import Verif.Proof.SharedIndirect

/-!
The fictitious nodes described by the program alone, whatever the names of the functions.
-/

namespace CallStack

section run

variable {demangle : Str → Str} {ord : HashOrder} {search : TagSearch} {p : Program} {elf : Elf}
  {cs : List Str} {st0 stIr st : Build} {g : Graph}

theorem SharedFacts.callers_taken (f : SharedFacts demangle ord search p elf cs st0 stIr st g)
    {e : FnSig × Indirect} (he : e ∈ stIr.indirects) (a : Nat) :
    a ∈ e.2.callers ↔ ∃ sig', p.TakenIn a (.indirectCall sig') ∧ e.1.Compatible sig' := by
  constructor
  · intro ha
    rcases (EdgeStep.defines p.defines f.definesOk).callers e he a ha with ⟨e0, k1, _, k2⟩ |
      ⟨sig, ⟨d, hd, hs, c, hc, hi⟩, k2⟩
    · rw [(f.sym.fresh e0 k1).2.1] at k2
      cases k2
    · rw [f.ir.aliases] at hc
      obtain ⟨i, e', _, h2, _⟩ := f.sym.aliases_some d.name c hc
      obtain ⟨m, hm⟩ := Option.ne_none_iff_exists'.mp (f.sym.indices_ne c (List.mem_of_getElem? h2))
      rw [f.ir.indices _ _ hm] at hi
      cases hi
      exact ⟨sig, ⟨d, c, hd, (f.taken_iff _ _).mp hc, (f.lastShown_iff _ _).mp hm, hs⟩, (C39_signatures _ _).mp k2⟩
  · rintro ⟨sig', ⟨d, c, hd, hc, hi, hs⟩, hco⟩
    exact (f.marked d hd c a sig' ((f.taken_iff _ _).mpr hc) ((f.lastShown_iff _ _).mpr hi) hs e he
      ((C39_signatures _ _).mpr hco)).2

/-- Every statement of a live function is in a definition that is taken for one. -/
theorem SharedFacts.contains_taken (f : SharedFacts demangle ord search p elf cs st0 stIr st g) (s : Stmt) :
    (∃ i, p.Contains i s) ↔ ∃ a, p.TakenIn a s := by
  constructor
  · rintro ⟨i, d, hd, hl, hs⟩
    obtain ⟨c, hc⟩ := Option.ne_none_iff_exists'.mp ((f.live_iff d.name).mpr ⟨i, hl⟩)
    obtain ⟨j, e', _, h2, _⟩ := f.sym.aliases_some d.name c hc
    obtain ⟨m, hm⟩ := Option.ne_none_iff_exists'.mp (f.sym.indices_ne c (List.mem_of_getElem? h2))
    exact ⟨m, d, c, hd, (f.taken_iff _ _).mp hc, (f.lastShown_iff _ _).mp hm, hs⟩
  · rintro ⟨a, d, c, hd, ⟨j, hj, _⟩, _, hs⟩
    exact ⟨j, d, hd, hj, hs⟩

theorem SharedFacts.called_any (f : SharedFacts demangle ord search p elf cs st0 stIr st g)
    {e : FnSig × Indirect} (he : e ∈ stIr.indirects) : e.2.called = true ↔ p.Called e.1 := by
  unfold Program.Called
  constructor
  · intro h
    have hne := (EdgeStep.defines p.defines f.definesOk).called (fun e0 h0 h3 => by
      rw [(f.sym.fresh e0 h0).1] at h3
      simp at h3) e he h
    obtain ⟨a, ha⟩ := List.exists_mem_of_ne_nil _ hne
    obtain ⟨s, h1, h2⟩ := (f.callers_taken he a).mp ha
    obtain ⟨i, hi⟩ := (f.contains_taken _).mpr ⟨a, h1⟩
    exact ⟨i, s, hi, h2⟩
  · rintro ⟨i, s, h2, h3⟩
    obtain ⟨a, d, c, hd, hc, hi, hs⟩ := (f.contains_taken _).mp ⟨i, h2⟩
    exact (f.marked d hd c a s ((f.taken_iff _ _).mpr hc) ((f.lastShown_iff _ _).mpr hi) hs _ he
      ((C39_signatures _ _).mpr h3)).1

/-- A fictitious node. -/
theorem SharedFacts.indirectNodeAny (f : SharedFacts demangle ord search p elf cs st0 stIr st g)
    (defs : p.DefinesOnce) (decls : p.DeclaresOnce) {e : FnSig × Indirect} {k : Nat}
    (he : e ∈ stIr.indirects) (hk : p.defined.length ≤ k)
    (hd : DashedFor st.hasUntypedSymbols st.fmts (voidOf ord st) e g k) :
    p.IndirectNodeAny (voidOf ord st) g k e.1 := by
  have hun := f.untyped decls
  have hcand := f.candidate_iff defs decls he
  have hlt : ∀ j ∈ dashedCallees st.fmts (voidOf ord st) e, j < p.defined.length := fun j hj => f.callees_live he hj
  refine ⟨⟨_, hd.node, rfl, rfl, labelOf_dashed _ _⟩, fun a => (hd.pred a).trans (f.callers_taken he a), ?_, ?_, ?_, ?_⟩
  · intro hf j hj
    unfold Graph.Calls
    rw [hd.succ j, hcand]
    unfold Program.Candidate
    simp only [hf, not_false_eq_true, true_and, false_and, or_false]
    refine ⟨fun h => h.resolve_right fun h => ?_, .inl⟩
    omega
  · intro hf j hj
    unfold Graph.Calls
    rw [hd.succ j, hcand]
    unfold Program.Candidate
    simp only [hf, not_true, true_and, false_and, false_or]
    refine ⟨fun h => h.resolve_right fun h => ?_, .inl⟩
    omega
  · intro j hj hc
    rcases (hd.succ j).mp hc with h1 | ⟨h1, rfl⟩
    · have := hlt j h1
      omega
    · exact ⟨rfl, hd.extern h1⟩
  · unfold Graph.Calls
    rw [hd.succ, ← hun]
    refine ⟨fun h => ?_, fun h => .inr ⟨h, rfl⟩⟩
    rcases h with h | ⟨h, _⟩
    · have := hlt _ h
      omega
    · exact h

end run

end CallStack
