import Verif.Spec.Report
import Verif.Spec.SharedFigures

/-!
When what the message of a panic says is the case, if several functions may have the same names.
-/

namespace CallStack

/-- What the tool says when it panics, with what is the case then. For most panics this is as for functions with names
of their own. -/
inductive Program.SaysShared (p : Program) (demangle : Str → Str) (ord : HashOrder) (search : TagSearch) (elf : Elf)
    (start : Option Str) : Panic → Option Str → Prop
  | same {e : Panic} {text : Option Str} : e ≠ .llvmVsOurs → e ≠ .llvmVsSp →
      p.Says demangle ord search elf start e text → p.SaysShared demangle ord search elf start e text
  /-- the figure left at the node by the compiler and the functions before this one, which is shown, is not the one
  found in the code -/
  | llvmVsOurs (i m address size n k : Nat) (r : ThumbState) (name figure : Str) : p.target.isThumb = true →
      p.Decoded search elf i address size r → p.Principal i name → p.LastOf i m →
      p.LocalAfter search elf m i (.exact n) →
      r.stack = some k → n ≠ k → (∀ x, ¬ p.Contains i (.asm x)) → ¬ OutlinedName name → IsDecimal figure n →
      p.SaysShared demangle ord search elf start .llvmVsOurs
        (some (c!"BUG: LLVM reported that `" ++ name ++ c!"` uses " ++ figure ++
          c!" bytes of stack but this doesn't match our analysis"))
  /-- that figure does not go with whether the code modifies SP; the code has no figure of its own, or it has no
  influence since the function was outlined -/
  | llvmVsSp (i m address size n : Nat) (r : ThumbState) (name figure : Str) : p.target.isThumb = true →
      p.Decoded search elf i address size r → p.Principal i name → p.LastOf i m →
      p.LocalAfter search elf m i (.exact n) →
      ¬ (n ≠ 0 ↔ r.modifiesSp = true) →
      r.stack = none ∨ (r.stack = some 0 ∧ n ≠ 0 ∧ OutlinedName name ∧ ∀ x, ¬ p.Contains i (.asm x)) →
      IsDecimal figure n →
      p.SaysShared demangle ord search elf start .llvmVsSp
        (some (c!"BUG: LLVM reported that `" ++ name ++ c!"` uses " ++ figure ++
          c!" bytes of stack but this doesn't match our analysis"))

end CallStack
