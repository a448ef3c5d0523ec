import Verif.Spec.SharedFigures

/-! What the machine code must be like if functions may have the same names. -/

namespace CallStack

/-- Nothing in the machine code of the `i`-th live function stops the tool: its first symbol name is not a mapping
symbol, its bytes lie in the code section and can be decoded, it leaves itself only towards starts of live functions,
and one of the rules of `LocalPolicy` applies to it and what the functions before it left at its node. -/
def Program.CodeFits (p : Program) (search : TagSearch) (elf : Elf) (i : Nat) : Prop :=
  (∃ a s first rest, p.defined[i]? = some (a, s) ∧ s.names = first :: rest ∧ ¬ IsMappingSymbol first) ∧
  ∃ address size r, p.Decoded search elf i address size r ∧
    (∀ t, LeavesTo r address size t → ∃ j, p.StartsAt j t) ∧
    ∃ m l, p.LastOf i m ∧ p.LocalAfter search elf m (i + 1) l

end CallStack
