import Verif.Spec.Types

/-!
Property C39: loose equality of signatures (src/ir.rs:29-42, src/ir/ty.rs:54-73).
-/

namespace CallStack

/-- **C39** on types. -/
theorem C39_types (a b : Ty) : a.looselyEqual b = true ↔ a.Compatible b := by
  unfold Ty.Compatible Ty.IsPointer
  cases a <;> cases b <;> simp [Ty.looselyEqual, Ty.discriminant]

theorem looselyEqualOutput_iff (a b : Option Ty) :
    looselyEqualOutput a b = true ↔ Ty.CompatibleOutput a b := by
  cases a <;> cases b <;> simp only [looselyEqualOutput]
  · simp [Ty.CompatibleOutput.void]
  · constructor
    · simp
    · rintro ⟨⟩
  · constructor
    · simp
    · rintro ⟨⟩
  · rw [C39_types]
    constructor
    · exact .some
    · rintro ⟨⟩
      assumption

theorem all_zip_iff (l m : List Ty) :
    (l.length = m.length ∧ (l.zip m).all (fun p => p.1.looselyEqual p.2) = true) ↔
      List.Forall₂ Ty.Compatible l m := by
  induction l generalizing m with
  | nil => cases m <;> simp
  | cons a l ih =>
    cases m with
    | nil => simp
    | cons b m =>
      simp only [List.length_cons, Nat.add_right_cancel_iff, List.zip_cons_cons, List.all_cons,
        Bool.and_eq_true, List.forall₂_cons, ← ih, C39_types]
      tauto

/-- **C39** Loose equality of signatures is exactly compatibility. -/
theorem C39_signatures (s t : FnSig) : s.looselyEqual t = true ↔ s.Compatible t := by
  unfold FnSig.looselyEqual FnSig.Compatible
  rw [Bool.and_eq_true, Bool.and_eq_true, looselyEqualOutput_iff, beq_iff_eq, all_zip_iff]

theorem Ty.Compatible.symm {a b : Ty} (h : a.Compatible b) : b.Compatible a := by
  rcases h with h | ⟨h1, h2, h3⟩
  · exact Or.inl h.symm
  · exact Or.inr ⟨h2, h1, h3.symm⟩

theorem Ty.CompatibleOutput.symm {a b : Option Ty} (h : Ty.CompatibleOutput a b) :
    Ty.CompatibleOutput b a := by
  cases h with
  | void => exact .void
  | some h => exact .some (Ty.Compatible.symm h)

/-- **C39** Loose equality is reflexive and symmetric and requires the same number of inputs. -/
theorem C39_reflexive_symmetric (s t : FnSig) :
    s.looselyEqual s = true ∧ (s.looselyEqual t = true → t.looselyEqual s = true) ∧
    (s.looselyEqual t = true → s.inputs.length = t.inputs.length) := by
  simp only [C39_signatures]
  refine ⟨⟨?_, ?_⟩, ?_, fun h => h.1.length_eq⟩
  · exact List.forall₂_same.mpr (fun _ _ => Or.inl rfl)
  · cases s.output with
    | none => exact .void
    | some o => exact .some (Or.inl rfl)
  · rintro ⟨h1, h2⟩
    refine ⟨?_, ?_⟩
    · exact h1.flip.imp (fun _ _ h => Ty.Compatible.symm h)
    · exact h2.symm

/-- Loose equality is not transitive, so compatible functions do not form classes. -/
theorem C39_not_transitive :
    ∃ a b c : FnSig, a.looselyEqual b = true ∧ b.looselyEqual c = true ∧ a.looselyEqual c = false :=
  ⟨⟨[.pointer (.integer 8)], none⟩, ⟨[.opaquePointer], none⟩, ⟨[.pointer (.integer 16)], none⟩,
    by decide, by decide, by decide⟩

/-- Below the top level of a parameter, an opaque pointer is different from a typed one. -/
theorem C39_nested_pointers_differ :
    Ty.looselyEqual (.pointer .opaquePointer) (.pointer (.pointer (.integer 8))) = false := by decide

example : FnSig.looselyEqual
    ⟨[.pointer (.struct [.integer 8, .opaquePointer]), .integer 32], some .opaquePointer⟩
    ⟨[.opaquePointer, .integer 32], some (.pointer (.integer 8))⟩ = true := by decide

example : FnSig.looselyEqual ⟨[.integer 8], none⟩ ⟨[.integer 8, .integer 8], none⟩ = false := by decide

end CallStack
