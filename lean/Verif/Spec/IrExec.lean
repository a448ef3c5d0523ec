import Verif.Spec.Program

/-!
Executions of a program on a target without machine code analysis, at the level of the LLVM-IR: which functions
are active. Inline assembly, unwinding and interrupts are left out.
-/

namespace CallStack

/-- The routines to which compilers turn copies (the C library, and the run-time ABI for the ARM architecture). -/
def CopyNames : List Str := [c!"memcpy", c!"__aeabi_memcpy", c!"__aeabi_memcpy4", c!"__aeabi_memcpy8"]

/-- The same for moves. -/
def MoveNames : List Str := [c!"memmove", c!"__aeabi_memmove", c!"__aeabi_memmove4", c!"__aeabi_memmove8"]

/-- The same for fills. -/
def FillNames : List Str :=
  [c!"memset", c!"__aeabi_memset", c!"__aeabi_memset4", c!"__aeabi_memset8", c!"memclr", c!"__aeabi_memclr",
    c!"__aeabi_memclr4", c!"__aeabi_memclr8"]

/-- The intrinsic `f` may be compiled to a call of the routine `r`. -/
def CompiledTo (f r : Str) : Prop :=
  (c!"llvm.memcpy." <+: f ∧ r ∈ CopyNames) ∨ (c!"llvm.memmove." <+: f ∧ r ∈ MoveNames) ∨
    (c!"llvm.memset." <+: f ∧ r ∈ FillNames)

/-- The `i`-th live function may call the `j`-th one when the program runs. -/
inductive Program.RunsInto (p : Program) (i j : Nat) : Prop
  | direct {f : Str} : p.Contains i (.directCall f) → ¬ IsIntrinsic f → p.LiveAt f j → p.RunsInto i j
  | bitcast {f : Str} : p.Contains i (.bitcastCall (some f)) → p.LiveAt f j → p.RunsInto i j
  | memory {f r : Str} : p.Contains i (.directCall f) → CompiledTo f r → p.LiveAt r j → p.RunsInto i j
  | pointer : p.IndirectCall i j → p.RunsInto i j

/-- One step, the innermost active function first. -/
inductive IrStep (p : Program) : List Nat → List Nat → Prop
  | call {i j : Nat} {rest : List Nat} : p.RunsInto i j → IrStep p (i :: rest) (j :: i :: rest)
  /-- a call in tail position: the caller gives up its frame -/
  | tail {i j : Nat} {rest : List Nat} : p.RunsInto i j → IrStep p (i :: rest) (j :: rest)
  | ret {i : Nat} {rest : List Nat} : IrStep p (i :: rest) rest

/-- A call of the `i`-th live function can lead to these active functions. -/
inductive IrExecution (p : Program) (i : Nat) : List Nat → Prop
  | entry : IrExecution p i [i]
  | step {acts acts' : List Nat} : IrExecution p i acts → IrStep p acts acts' → IrExecution p i acts'

/-- The routines that memory intrinsics are compiled to are among those that the tool looks for, under the names
it looks for. -/
def Program.RoutinesFound (p : Program) : Prop :=
  ∀ i f r j, p.Contains i (.directCall f) → CompiledTo f r → p.LiveAt r j →
    ∃ r', p.Principal j r' ∧ ((c!"llvm.memcpy." <+: f ∧ r' ∈ CopyRoutines) ∨
      ((c!"llvm.memset." <+: f ∨ c!"llvm.memmove." <+: f) ∧ r' ∈ FillRoutines))

/-- The function directly calls something that is not in the executable. -/
def Program.CallsOutside (p : Program) (i : Nat) : Prop :=
  ∃ f, p.NotLive f ∧ (p.Contains i (.bitcastCall (some f)) ∨
    (p.Contains i (.directCall f) ∧ ¬ IsIntrinsic f ∧ f ≠ c!"memcmp"))

end CallStack
