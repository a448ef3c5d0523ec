import Verif.Model.Types
import Mathlib.Data.List.Forall2

/-!
Specification vocabulary for types: which signatures may be those of one function.
-/

namespace CallStack

/-- A pointer type, typed or opaque. -/
def Ty.IsPointer (t : Ty) : Prop := t = .opaquePointer ∨ ∃ u, t = .pointer u

/-- Types that the tool must not tell apart: equal, or two pointers one of which is opaque. -/
def Ty.Compatible (a b : Ty) : Prop :=
  a = b ∨ (a.IsPointer ∧ b.IsPointer ∧ (a = .opaquePointer ∨ b = .opaquePointer))

/-- Compatible return types; `none` is `void`. -/
inductive Ty.CompatibleOutput : Option Ty → Option Ty → Prop
  | void : CompatibleOutput none none
  | some {a b : Ty} : a.Compatible b → CompatibleOutput (some a) (some b)

/-- Compatible signatures: same number of inputs, compatible one by one, and compatible outputs. -/
def FnSig.Compatible (s t : FnSig) : Prop :=
  List.Forall₂ Ty.Compatible s.inputs t.inputs ∧ Ty.CompatibleOutput s.output t.output

/-- The shape of `fn(&T, &mut core::fmt::Formatter) -> core::fmt::Result`. -/
def FnSig.FmtShape (s : FnSig) : Prop :=
  (∃ t, s.inputs = [.pointer t, .pointer (.alias c!"core::fmt::Formatter")]) ∧
    s.output = some (.integer 1)

end CallStack
