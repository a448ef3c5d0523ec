import Verif.Spec.Indirect

/-!
What the figures of a program are, said without the call graph: which live function may call which, which may
leave the executable, and what the local usage of each is. (For programs that satisfy `OrderSafe`.)
-/

namespace CallStack

/-- The statement leads to the `j`-th live function. -/
inductive Program.StmtCalls (p : Program) : Stmt → Nat → Prop
  /-- a call through a bitcast finds functions by the name they are shown under -/
  | bitcast {n : Str} {j : Nat} : p.Principal j n → p.StmtCalls (.bitcastCall (some n)) j
  /-- a direct call finds functions by any name; `memcmp` only by the name it is shown under -/
  | direct {f : Str} {j : Nat} : ¬ IsIntrinsic f → p.LiveAt f j →
      (f = c!"memcmp" → p.Principal j f) → p.StmtCalls (.directCall f) j
  /-- memory intrinsics, on targets without machine code analysis, lead to all routines that may implement
  them, found by the name they are shown under -/
  | copy {f r : Str} {j : Nat} : p.target.isThumb = false → c!"llvm.memcpy." <+: f → r ∈ CopyRoutines →
      p.Principal j r → p.StmtCalls (.directCall f) j
  | fill {f r : Str} {j : Nat} : p.target.isThumb = false →
      c!"llvm.memset." <+: f ∨ c!"llvm.memmove." <+: f → r ∈ FillRoutines → p.Principal j r →
      p.StmtCalls (.directCall f) j

/-- The statement leads to a function that is not in the executable. -/
inductive Program.StmtLeaves (p : Program) : Stmt → Prop
  | bitcast {n : Str} : (∀ j, ¬ p.Principal j n) → p.StmtLeaves (.bitcastCall (some n))
  | direct {f : Str} : ¬ IsIntrinsic f → p.NotLive f → f ≠ c!"memcmp" → p.StmtLeaves (.directCall f)

/-- The machine code of the `i`-th live function jumps to the `j`-th one. -/
def Program.CodeCalls (p : Program) (search : TagSearch) (elf : Elf) (i j : Nat) : Prop :=
  p.target.isThumb = true ∧ ∃ address size r t, p.Decoded search elf i address size r ∧
    LeavesTo r address size t ∧ p.StartsAt j t

/-- The machine code of the `i`-th live function, which has no LLVM-IR, contains an indirect call. -/
def Program.CodeLeaves (p : Program) (search : TagSearch) (elf : Elf) (i : Nat) : Prop :=
  p.target.isThumb = true ∧ p.NoIr i ∧ ∃ address size r, p.Decoded search elf i address size r ∧
    r.indirect = true

/-- The `i`-th live function contains an indirect call that may reach functions of type `sig`, and there are
such functions. -/
def Program.MayCallType (p : Program) (i : Nat) (sig : FnSig) : Prop :=
  (∃ j, p.TakenAs j sig) ∧ ∃ sig', p.Contains i (.indirectCall sig') ∧ sig.Compatible sig'

/-- The `j`-th live function is a candidate for indirect calls of type `sig`. -/
def Program.Candidate (p : Program) (chosen : Option Str) (sig : FnSig) (j : Nat) : Prop :=
  (¬ FormatsChosen chosen sig ∧ p.TakenAs j sig) ∨
  (FormatsChosen chosen sig ∧ ∃ s, p.FirstDefined j s ∧ s.FmtShape)

/-- The `i`-th live function may call the `j`-th one. -/
def Program.MayCall (p : Program) (search : TagSearch) (elf : Elf) (chosen : Option Str) (i j : Nat) : Prop :=
  (∃ s, p.Contains i s ∧ p.StmtCalls s j) ∨ p.CodeCalls search elf i j ∨
  ∃ sig, p.MayCallType i sig ∧ p.Candidate chosen sig j

/-- The `i`-th live function may call something of which nothing is known. -/
def Program.MayLeave (p : Program) (search : TagSearch) (elf : Elf) (i : Nat) : Prop :=
  (∃ s, p.Contains i s ∧ p.StmtLeaves s) ∨ p.CodeLeaves search elf i ∨
  ((∃ sig, p.MayCallType i sig) ∧ ∃ j n, p.Untyped j ∧ p.Principal j n ∧ ¬ OutlinedName n)

/-- The local usage of the `i`-th live function. -/
inductive Program.LocalIs (p : Program) (search : TagSearch) (elf : Elf) (i : Nat) : Local → Prop
  /-- the machine code is analysed -/
  | code {address size : Nat} {r : ThumbState} {llvm : Option Nat} {name : Str} {l : Local} :
      p.target.isThumb = true → p.Decoded search elf i address size r → p.FrameOpt i llvm →
      p.Principal i name →
      LocalPolicy (r.modifiesSp = true) (∃ x, p.Contains i (.asm x)) (OutlinedName name) llvm r.stack l →
      p.LocalIs search elf i l
  /-- it is not, and the compiler reports the usage -/
  | frame {k : Nat} : p.target.isThumb = false ∨ elf.text = none → p.Frame i k →
      p.LocalIs search elf i (.exact k)
  /-- or does not -/
  | none : p.target.isThumb = false ∨ elf.text = none → (∀ k, ¬ p.Frame i k) →
      p.LocalIs search elf i .unknown

end CallStack
