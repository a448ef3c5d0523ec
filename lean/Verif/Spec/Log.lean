import Verif.Model.Log
import Verif.Spec.Figures

/-!
Specification vocabulary for the messages of a run.
-/

namespace CallStack

/-- The message is about inline assembly in the function `c`. -/
def LogMsg.isAsm (c : Str) : LogMsg → Bool
  | .asm _ c' => c' == c
  | _ => false

/-- The name of a function that is shown although it is not in the executable: one called through a bitcast
or directly. -/
def Program.External (p : Program) (n : Str) : Prop :=
  ((∃ i, p.Contains i (.bitcastCall (some n))) ∧ ∀ j, ¬ p.Principal j n) ∨
  ((∃ i, p.Contains i (.directCall n)) ∧ ¬ IsIntrinsic n ∧ p.NotLive n ∧ n ≠ c!"memcmp")

/-- The names under which functions are shown. -/
def Program.Shown (p : Program) (n : Str) : Prop := (∃ j, p.Principal j n) ∨ p.External n

/-- Some live function has no type and is not an outlined one, so that indirect calls may lead to it. -/
def Program.SomeUntyped (p : Program) : Prop := ∃ j n, p.Untyped j ∧ p.Principal j n ∧ ¬ OutlinedName n

/-- The machine code should be analysed but is missing. -/
def Program.TextMissing (p : Program) (elf : Elf) : Prop := p.target.isThumb = true ∧ elf.text = none

end CallStack
