import Verif.Spec.Figures

/-!
Two versions of a program that differ in the bodies and frame sizes of functions.
-/

namespace CallStack

/-- The programs have the same functions, of the same types, and the compiler reports sizes for the same names.
Bodies and sizes may differ. -/
structure Program.SameShape (p p' : Program) : Prop where
  target : p'.target = p.target
  defined : p'.defined = p.defined
  undefined : p'.undefined = p.undefined
  declares : p'.declares = p.declares
  defines : List.Forall₂ (fun d d' => d'.name = d.name ∧ d'.sig = d.sig) p.defines p'.defines
  reported : ∀ n, (∃ k, p'.Reported n k) ↔ ∃ k, p.Reported n k

/-- The body of the `i`-th live function is the same. -/
def Program.SameBody (p p' : Program) (i : Nat) : Prop := ∀ s, p'.Contains i s ↔ p.Contains i s

/-- The reported size of the `i`-th live function is the same. -/
def Program.SameFrame (p p' : Program) (i : Nat) : Prop := ∀ k, p'.Frame i k ↔ p.Frame i k

end CallStack
