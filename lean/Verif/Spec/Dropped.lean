import Verif.Spec.IrExec

/-!
The calls that can be missing from the graph, one constructor per reason. See C29, C34 and C36 for programs in which
they are missing.
-/

namespace CallStack

/-- The type of the `j`-th live function may be `sig`: it is defined, or only declared with this type. -/
def Program.TypeOf (p : Program) (j : Nat) (sig : FnSig) : Prop :=
  p.DefinedSig j sig ∨ ((∀ s, ¬ p.DefinedSig j s) ∧ p.DeclaredSig j sig)

/-- A call of the `j`-th live function by the `i`-th one that may be missing from the graph. -/
inductive Program.Dropped (p : Program) (i j : Nat) : Prop
  /-- `memcmp` is shown under another name -/
  | memcmp : p.Contains i (.directCall c!"memcmp") → p.LiveAt c!"memcmp" j → ¬ p.Principal j c!"memcmp" →
      p.Dropped i j
  /-- a call through a pointer to a function with two types -/
  | twoTypes {sig sig' sig'' : FnSig} : p.Contains i (.indirectCall sig) → p.TypeOf j sig' →
      sig'.Compatible sig → p.TypeOf j sig'' → sig'' ≠ sig' → p.Dropped i j
  /-- a call through a pointer to a formatting function that is only declared -/
  | formatter {sig sig' : FnSig} : p.Contains i (.indirectCall sig) → sig'.Compatible sig →
      (∀ s, ¬ p.DefinedSig j s) → p.DeclaredSig j sig' → sig'.FmtShape → p.Dropped i j

/-- A copy, move or fill by the `i`-th live function that is compiled to a call of the `j`-th one, which the tool
does not look for under the name it has. -/
def Program.DroppedMemory (p : Program) (i j : Nat) : Prop :=
  ∃ f r, p.Contains i (.directCall f) ∧ CompiledTo f r ∧ p.LiveAt r j ∧
    ∀ r', p.Principal j r' → ¬ (c!"llvm.memcpy." <+: f ∧ r' ∈ CopyRoutines) ∧
      ¬ ((c!"llvm.memset." <+: f ∨ c!"llvm.memmove." <+: f) ∧ r' ∈ FillRoutines)

end CallStack
