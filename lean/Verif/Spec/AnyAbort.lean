import Verif.Spec.AnyCode

/-!
When the machine code can be analysed, whatever the names of the functions.
-/

namespace CallStack

/-- The machine code of the `i`-th live function is fit: its bytes can be decoded, its jumps go to starts of live
functions, and its figure can be reconciled with what is known, after the functions before it, of the function that it
counts for. -/
def Program.CodeFitsNode (p : Program) (search : TagSearch) (elf : Elf) (i : Nat) : Prop :=
  ∃ c m address size r l, p.CodeFor i c m ∧ p.Decoded search elf i address size r ∧
    (∀ t, LeavesTo r address size t → ∃ j, p.StartsAt j t) ∧ p.LocalNodeAfter search elf m (i + 1) l

/-- The machine code of the `i`-th live function uses `n` bytes of stack. -/
def Program.CodeFigure (p : Program) (search : TagSearch) (elf : Elf) (i n : Nat) : Prop :=
  ∃ address size r, p.Decoded search elf i address size r ∧ r.stack = some n

end CallStack
