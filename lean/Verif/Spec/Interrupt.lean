import Verif.Spec.Exec
import Verif.Spec.IrExec

/-!
Executions with interrupts. On entry to a handler the hardware saves registers on the stack, then the handler runs
like a function that is called; it can itself be interrupted by a handler of higher priority. Handlers of the same
priority do not interrupt each other (ARMv7-M ARM, exceptions: preemption; likewise on other controllers with
priorities). All run on the same stack.
-/

namespace CallStack

/-- One step of a program with interrupts. The levels are the functions that were started, with the state of their
execution, the last one first. `step` is a step of an execution, `entry h` the state when `h` starts, `over s` says
that the execution has ended. -/
inductive NestStep {S : Type} (step : S → S → Prop) (entry : Nat → S) (over : S → Prop) (handler : Nat → Prop)
    (prio : Nat → Nat) : List (Nat × S) → List (Nat × S) → Prop
  /-- what runs goes on -/
  | run {h : Nat} {s s' : S} {rest : List (Nat × S)} : step s s' →
      NestStep step entry over handler prio ((h, s) :: rest) ((h, s') :: rest)
  /-- it is interrupted by a handler of higher priority -/
  | enter {h h' : Nat} {s : S} {rest : List (Nat × S)} : handler h' → prio h < prio h' →
      NestStep step entry over handler prio ((h, s) :: rest) ((h', entry h') :: (h, s) :: rest)
  /-- the handler has ended -/
  | leave {h : Nat} {s : S} {next : Nat × S} {rest : List (Nat × S)} : over s →
      NestStep step entry over handler prio ((h, s) :: next :: rest) (next :: rest)

/-- A program that starts with `main` can get to these levels. -/
inductive Nested {S : Type} (step : S → S → Prop) (entry : Nat → S) (over : S → Prop) (handler : Nat → Prop)
    (prio : Nat → Nat) (main : Nat) : List (Nat × S) → Prop
  | start : Nested step entry over handler prio main [(main, entry main)]
  | step {ls ls' : List (Nat × S)} : Nested step entry over handler prio main ls →
      NestStep step entry over handler prio ls ls' → Nested step entry over handler prio main ls'

/-- Executions of the machine code with interrupts. -/
def ThumbNested (p : Program) (code : Nat → Nat × List CodeItem) (handler : Nat → Prop) (prio : Nat → Nat)
    (main : Nat) (ls : List (Nat × List Activation)) : Prop :=
  Nested (ExecStep p code) (fun h => [⟨h, 0, 0, false⟩]) (· = []) handler prio main ls

/-- Executions of the LLVM-IR with interrupts. -/
def IrNested (p : Program) (handler : Nat → Prop) (prio : Nat → Nat) (main : Nat) (ls : List (Nat × List Nat)) :
    Prop :=
  Nested (IrStep p) (fun h => [h]) (· = []) handler prio main ls

/-- The bytes of stack in use if the hardware saves `saved` bytes whenever a handler is entered. -/
def nestedInUse (saved : Nat) (ls : List (Nat × List Activation)) : Int :=
  (ls.map (fun l => stackInUse l.2)).sum + saved * (ls.length - 1 : Nat)

/-- What `main` needs, and on top of that for each priority from 1 to `top` what is saved on entry and what the
handlers of this priority need. -/
def withInterrupts (main saved top : Nat) (need : Nat → Nat) : Nat :=
  main + ((List.range top).map (fun q => saved + need (q + 1))).sum

end CallStack
