import Verif.Spec.Report
import Verif.Spec.AnyCode

/-!
When what the message of a panic says is the case, whatever the names of the functions.
-/

namespace CallStack

/-- What the tool says when it panics, with what is the case then. The messages about machine code name the function that
the code counts for. -/
inductive Program.SaysNode (p : Program) (demangle : Str → Str) (ord : HashOrder) (search : TagSearch) (elf : Elf)
    (start : Option Str) : Panic → Option Str → Prop
  | same {e : Panic} {text : Option Str} : e ≠ .llvmVsOurs → e ≠ .llvmVsSp → e ≠ .stackVsSp →
      p.Says demangle ord search elf start e text → p.SaysNode demangle ord search elf start e text
  /-- the code modifies SP, but by nothing in total -/
  | stackVsSp (i m address size : Nat) (r : ThumbState) (name : Str) : p.target.isThumb = true →
      p.Decoded search elf i address size r → p.CodeFor i name m → r.stack = some 0 → r.modifiesSp = true →
      p.SaysNode demangle ord search elf start .stackVsSp
        (some (c!"BUG: our analysis reported that `" ++ name ++
          c!"` both uses 0 bytes of stack and it does modify SP"))
  /-- the figure left by the compiler and the functions before this one, which is shown, is not the one found in the
  code -/
  | llvmVsOurs (i m address size n k : Nat) (r : ThumbState) (name figure : Str) : p.target.isThumb = true →
      p.Decoded search elf i address size r → p.CodeFor i name m →
      p.LocalNodeAfter search elf m i (.exact n) →
      r.stack = some k → n ≠ k → (∀ x, ¬ p.TakenIn m (.asm x)) → ¬ OutlinedName name → IsDecimal figure n →
      p.SaysNode demangle ord search elf start .llvmVsOurs
        (some (c!"BUG: LLVM reported that `" ++ name ++ c!"` uses " ++ figure ++
          c!" bytes of stack but this doesn't match our analysis"))
  /-- that figure does not go with whether the code modifies SP; the code has no figure of its own, or it has no
  influence since the function was outlined -/
  | llvmVsSp (i m address size n : Nat) (r : ThumbState) (name figure : Str) : p.target.isThumb = true →
      p.Decoded search elf i address size r → p.CodeFor i name m →
      p.LocalNodeAfter search elf m i (.exact n) →
      ¬ (n ≠ 0 ↔ r.modifiesSp = true) →
      r.stack = none ∨ (r.stack = some 0 ∧ n ≠ 0 ∧ OutlinedName name ∧ ∀ x, ¬ p.TakenIn m (.asm x)) →
      IsDecimal figure n →
      p.SaysNode demangle ord search elf start .llvmVsSp
        (some (c!"BUG: LLVM reported that `" ++ name ++ c!"` uses " ++ figure ++
          c!" bytes of stack but this doesn't match our analysis"))

end CallStack
