import Verif.Spec.Graph

namespace CallStack

variable {E : Nat → Nat → Prop}

theorem Reach.trans {a b c : Nat} (h : Reach E a b) (h' : Reach E b c) : Reach E a c := by
  induction h with
  | refl => exact h'
  | step e _ ih => exact .step e (ih h')

theorem Reach.single {a b : Nat} (h : E a b) : Reach E a b := .step h (.refl b)

theorem Reach.tail {a b c : Nat} (h : Reach E a b) (h' : E b c) : Reach E a c :=
  h.trans (.single h')

theorem Reach.mono {E' : Nat → Nat → Prop} (hm : ∀ a b, E a b → E' a b) {a b : Nat}
    (h : Reach E a b) : Reach E' a b := by
  induction h with
  | refl => exact .refl _
  | step e _ ih => exact .step (hm _ _ e) ih

theorem Reach.flip {a b : Nat} (h : Reach E a b) : Reach (fun x y => E y x) b a := by
  induction h with
  | refl => exact .refl _
  | step e _ ih => exact ih.tail e

theorem reach_flip_iff {a b : Nat} : Reach (fun x y => E y x) a b ↔ Reach E b a :=
  ⟨fun h => h.flip, fun h => h.flip⟩

/-- A closed set containing the start contains everything reachable. -/
theorem Reach.closed {S : Nat → Prop} (hS : ∀ a b, S a → E a b → S b) {a b : Nat}
    (h : Reach E a b) (ha : S a) : S b := by
  induction h with
  | refl => exact ha
  | step e _ ih => exact ih (hS _ _ ha e)

theorem Reach.cases_tail {a b : Nat} (h : Reach E a b) : a = b ∨ ∃ c, E a c ∧ Reach E c b := by
  cases h with
  | refl => exact .inl rfl
  | step e h => exact .inr ⟨_, e, h⟩

/-- Leaving a set: a path from inside to outside crosses an edge at the border. -/
theorem Reach.exit {S : Nat → Prop} {a b : Nat} (h : Reach E a b) (ha : S a) (hb : ¬ S b) :
    ∃ u w, S u ∧ Reach E a u ∧ E u w ∧ ¬ S w ∧ Reach E w b := by
  induction h with
  | refl => exact absurd ha hb
  | @step x y z e h ih =>
    by_cases hy : S y
    · obtain ⟨u, w, h1, h2, h3, h4, h5⟩ := ih hy hb
      exact ⟨u, w, h1, .step e h2, h3, h4, h5⟩
    · exact ⟨x, y, ha, .refl _, e, hy, h⟩

theorem SameGroup.refl (a : Nat) : SameGroup E a a := ⟨.refl a, .refl a⟩
theorem SameGroup.symm {a b : Nat} (h : SameGroup E a b) : SameGroup E b a := ⟨h.2, h.1⟩
theorem SameGroup.trans {a b c : Nat} (h : SameGroup E a b) (h' : SameGroup E b c) :
    SameGroup E a c := ⟨h.1.trans h'.1, h'.2.trans h.2⟩

/-! ### neighbours of a graph -/

theorem Graph.mem_out {g : Graph} {a b : Nat} : b ∈ g.out a ↔ g.Calls a b := by
  simp only [Graph.out, List.mem_reverse, List.mem_map, List.mem_filter, Graph.Calls]
  constructor
  · rintro ⟨⟨x, y⟩, ⟨h, h1⟩, rfl⟩
    simp only [beq_iff_eq] at h1
    subst h1; exact h
  · intro h
    exact ⟨(a, b), ⟨h, by simp⟩, rfl⟩

theorem Graph.mem_inc {g : Graph} {a b : Nat} : b ∈ g.inc a ↔ g.Calls b a := by
  simp only [Graph.inc, List.mem_reverse, List.mem_map, List.mem_filter, Graph.Calls]
  constructor
  · rintro ⟨⟨x, y⟩, ⟨h, h1⟩, rfl⟩
    simp only [beq_iff_eq] at h1
    subst h1; exact h
  · intro h
    exact ⟨(b, a), ⟨h, by simp⟩, rfl⟩

end CallStack
