import Verif.Model.Basic

/-! Specification of names with a hash and of decimal numbers, independent of the model. -/

namespace CallStack

/-- Number of bytes of the UTF-8 encoding. -/
def byteLen (s : Str) : Nat := (s.map Char.utf8Size).sum

/-- `name` is `path` followed by something that looks like a legacy symbol hash to the tool: 19 bytes
that begin with `::h`. -/
def HashOf (path name : Str) : Prop :=
  path ≠ [] ∧ ∃ suffix, name = path ++ suffix ∧ byteLen suffix = 19 ∧ c!"::h" <+: suffix

/-- Decimal value of a string of digits, most significant first. -/
def decValue (s : Str) : Nat := s.foldl (fun n c => 10 * n + (c.toNat - '0'.toNat)) 0

/-- `s` is a decimal number (ASCII digits, at least one) with the given value. -/
def IsDecimal (s : Str) (n : Nat) : Prop :=
  s ≠ [] ∧ (∀ c ∈ s, c ∈ c!"0123456789") ∧ decValue s = n

/-- Names of outlined functions: `OUTLINED_FUNCTION_` and a 64 bit number, possibly with a plus sign. -/
def OutlinedName (name : Str) : Prop :=
  ∃ number n, name = c!"OUTLINED_FUNCTION_" ++ number ∧ n < 2 ^ 64 ∧
    (IsDecimal number n ∨ ∃ digits, number = '+' :: digits ∧ IsDecimal digits n)

end CallStack
