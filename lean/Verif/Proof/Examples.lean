import Verif.Model.Run

/-!
Helpers for evaluating the model on concrete programs.
-/

namespace CallStack

/-- Iteration of hash maps in the order of their lists. -/
def sameOrder : HashOrder := ⟨fun _ _ l => l, fun _ _ l => List.Perm.refl l⟩

/-- Linear search for a tag. -/
def linearSearch : TagSearch where
  find l a := l.findIdx? (fun e => e.1 == a)
  sound := by
    intro l a i h
    rw [List.findIdx?_eq_some_iff_getElem] at h
    obtain ⟨h1, h2, _⟩ := h
    refine ⟨l[i].2, ?_⟩
    rw [List.getElem?_eq_getElem h1, ← beq_iff_eq.mp h2]
  complete := by
    intro l a _ h e he
    rw [List.findIdx?_eq_none_iff] at h
    simpa using h e he

/-- Without machine code analysis neither the ELF file nor the search for tags matter. -/
theorem callGraph_other {demangle : Str → Str} {ord : HashOrder} {p : Program}
    (ht : p.target.isThumb = false) (search search' : TagSearch) (elf elf' : Elf) :
    callGraph demangle ord search p elf = callGraph demangle ord search' p elf' := by
  unfold callGraph machinePass
  simp [ht]

theorem finalGraph_other {demangle : Str → Str} {ord : HashOrder} {p : Program}
    (ht : p.target.isThumb = false) (search search' : TagSearch) (elf elf' : Elf)
    (start : Option Str) :
    finalGraph demangle ord search p elf start = finalGraph demangle ord search' p elf' start := by
  unfold finalGraph
  rw [callGraph_other ht search search' elf elf']

/-- Evaluation of the call graph. -/
theorem callGraph_eval {p : Program} (ht : p.target.isThumb = false) (search : TagSearch) (elf : Elf)
    (P : Build → Graph → Prop) [∀ st g, Decidable (P st g)]
    (h : (match callGraph id sameOrder linearSearch p ⟨[], none⟩ with
      | .ok (st, g) => decide (P st g)
      | .error _ => false) = true) :
    ∃ st g, callGraph id sameOrder search p elf = .ok (st, g) ∧ P st g := by
  rw [callGraph_other ht search linearSearch elf ⟨[], none⟩]
  split at h
  · rename_i st g hg
    exact ⟨st, g, hg, by simpa using h⟩
  · simp at h

/-- Evaluation of the printed graph. -/
theorem finalGraph_eval {p : Program} (ht : p.target.isThumb = false) (search : TagSearch) (elf : Elf)
    (start : Option Str) (P : Graph → List (List Nat) → Prop) [∀ g cs, Decidable (P g cs)]
    (h : (match finalGraph id sameOrder linearSearch p ⟨[], none⟩ start with
      | .ok (g, cs) => decide (P g cs)
      | .error _ => false) = true) :
    ∃ g cs, finalGraph id sameOrder search p elf start = .ok (g, cs) ∧ P g cs := by
  rw [finalGraph_other ht search linearSearch elf ⟨[], none⟩]
  split at h
  · rename_i g cs hg
    exact ⟨g, cs, hg, by simpa using h⟩
  · simp at h

end CallStack
