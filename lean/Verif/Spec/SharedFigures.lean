import Verif.Spec.Figures
import Verif.Spec.Shared

/-!
What the figures of a program are if several functions may have the same names: those functions share the node of the
last one.
-/

namespace CallStack

/-- One of the functions that share the node of the `a`-th live function may call one that shares the node of the
`b`-th one. Indirect calls reach every function by itself. -/
def Program.MayCallShared (p : Program) (search : TagSearch) (elf : Elf) (chosen : Option Str) (a b : Nat) : Prop :=
  ∃ i, p.LastOf i a ∧ ((∃ s j, p.Contains i s ∧ p.StmtCalls s j ∧ p.LastOf j b) ∨
    (∃ j, p.CodeCalls search elf i j ∧ p.LastOf j b) ∨
    ∃ sig, p.MayCallType i sig ∧ p.Candidate chosen sig b)

/-- One of the functions that share the node of the `a`-th live function may call something of which nothing is
known. -/
def Program.MayLeaveShared (p : Program) (search : TagSearch) (elf : Elf) (a : Nat) : Prop :=
  ∃ i, p.LastOf i a ∧ p.MayLeave search elf i

/-- The local usage that a figure stands for. -/
def figureLocal : Option Nat → Local
  | some n => .exact n
  | none => .unknown

/-- The local usage at the node of the `m`-th live function once the machine code of the first `k` functions has been
compared with it: each of them that shares the node is compared with what the one before left. -/
inductive Program.LocalAfter (p : Program) (search : TagSearch) (elf : Elf) (m : Nat) : Nat → Local → Prop
  /-- the figure of the compiler, which is that of the names -/
  | compiler {llvm : Option Nat} : p.FrameOpt m llvm → p.LocalAfter search elf m 0 (figureLocal llvm)
  /-- a function that shares the node -/
  | code {k : Nat} {known : Option Nat} {address size : Nat} {r : ThumbState} {name : Str} {l : Local} :
      p.LocalAfter search elf m k (figureLocal known) → p.LastOf k m → p.Decoded search elf k address size r →
      p.Principal m name →
      LocalPolicy (r.modifiesSp = true) (∃ x, p.Contains m (.asm x)) (OutlinedName name) known r.stack l →
      p.LocalAfter search elf m (k + 1) l
  /-- another function -/
  | other {k : Nat} {l : Local} : p.LocalAfter search elf m k l → ¬ p.LastOf k m →
      p.LocalAfter search elf m (k + 1) l

/-- The local usage at the node of the `m`-th live function. -/
inductive Program.LocalShared (p : Program) (search : TagSearch) (elf : Elf) (m : Nat) : Local → Prop
  /-- the machine code is analysed -/
  | code {l : Local} : p.target.isThumb = true → elf.text ≠ none →
      p.LocalAfter search elf m p.defined.length l → p.LocalShared search elf m l
  /-- it is not -/
  | compiler {llvm : Option Nat} : p.target.isThumb = false ∨ elf.text = none → p.FrameOpt m llvm →
      p.LocalShared search elf m (figureLocal llvm)

end CallStack
