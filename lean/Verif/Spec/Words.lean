import Verif.Model.Words

/-!
Specification vocabulary for the machine words of the code.
-/

namespace CallStack

/-- Where the code section is: its addresses are 32-bit numbers and it has at most 1 GiB. With overflow
checks it also has to end 32 MiB below 2^31 or to start 16 MiB above, so that no branch crosses this address. -/
def Elf.Placed (m : Overflow) (elf : Elf) : Prop :=
  ∀ stext text, elf.text = some (stext, text) →
    text.length ≤ 2 ^ 30 ∧ stext + text.length < 2 ^ 32 ∧
      (m = .checked → stext + text.length + 2 ^ 25 ≤ 2 ^ 31 ∨ 2 ^ 31 + 2 ^ 24 ≤ stext)

end CallStack
