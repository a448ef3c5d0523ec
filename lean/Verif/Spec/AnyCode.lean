import Verif.Spec.AnyFigures
import Verif.Spec.SharedFigures

/-!
What the figures are made of whatever the names of the functions, with the machine code.
-/

namespace CallStack

/-- The machine code of the `i`-th live function counts for the `m`-th one: the first symbol name of the former is taken
for a function that is shown as `c`, and the latter is the last one that is. -/
def Program.CodeFor (p : Program) (i : Nat) (c : Str) (m : Nat) : Prop :=
  ∃ a s first rest, p.defined[i]? = some (a, s) ∧ s.names = first :: rest ∧ p.TakenFor first c ∧ p.LastShown c m

/-- Machine code that counts for the `a`-th live function calls or jumps to a function that is shown as the `b`-th one
is, which is the last one. -/
def Program.JumpsTo (p : Program) (search : TagSearch) (elf : Elf) (a b : Nat) : Prop :=
  ∃ i j c n, p.CodeFor i c a ∧ p.CodeCalls search elf i j ∧ p.Principal j n ∧ p.LastShown n b

/-- Machine code that counts for the `a`-th live function contains an indirect call, and no definition is taken for a
function that is shown as this one. -/
def Program.JumpsOut (p : Program) (search : TagSearch) (elf : Elf) (a : Nat) : Prop :=
  p.target.isThumb = true ∧ ∃ i c address size r, p.CodeFor i c a ∧ (∀ d ∈ p.defines, ¬ p.TakenFor d.name c) ∧
    p.Decoded search elf i address size r ∧ r.indirect = true

/-- What counts for the `a`-th live function calls the `b`-th one. -/
def Program.MayCallNode (p : Program) (search : TagSearch) (elf : Elf) (chosen : Option Str) (a b : Nat) : Prop :=
  p.MayCallAny chosen a b ∨ p.JumpsTo search elf a b

/-- What counts for the `a`-th live function calls something of which nothing is known. -/
def Program.MayLeaveNode (p : Program) (search : TagSearch) (elf : Elf) (a : Nat) : Prop :=
  p.MayLeaveAny a ∨ p.JumpsOut search elf a

/-- The local usage of the `m`-th live function once the machine code of the first `k` functions has been compared with
it: what counts for it is compared with what was left before. -/
inductive Program.LocalNodeAfter (p : Program) (search : TagSearch) (elf : Elf) (m : Nat) : Nat → Local → Prop
  /-- the figure of the compiler -/
  | compiler {llvm : Option Nat} : p.FrameOpt m llvm → p.LocalNodeAfter search elf m 0 (figureLocal llvm)
  /-- a function whose machine code counts for it -/
  | code {k : Nat} {known : Option Nat} {address size : Nat} {r : ThumbState} {c : Str} {l : Local} :
      p.LocalNodeAfter search elf m k (figureLocal known) → p.CodeFor k c m → p.Decoded search elf k address size r →
      LocalPolicy (r.modifiesSp = true) (∃ x, p.TakenIn m (.asm x)) (OutlinedName c) known r.stack l →
      p.LocalNodeAfter search elf m (k + 1) l
  /-- another function -/
  | other {k : Nat} {l : Local} : p.LocalNodeAfter search elf m k l → (∀ c, ¬ p.CodeFor k c m) →
      p.LocalNodeAfter search elf m (k + 1) l

/-- The local usage of the `m`-th live function. -/
inductive Program.LocalNode (p : Program) (search : TagSearch) (elf : Elf) (m : Nat) : Local → Prop
  /-- the machine code is analysed -/
  | code {l : Local} : p.target.isThumb = true → elf.text ≠ none →
      p.LocalNodeAfter search elf m p.defined.length l → p.LocalNode search elf m l
  /-- it is not -/
  | compiler {llvm : Option Nat} : p.target.isThumb = false ∨ elf.text = none → p.FrameOpt m llvm →
      p.LocalNode search elf m (figureLocal llvm)

end CallStack
