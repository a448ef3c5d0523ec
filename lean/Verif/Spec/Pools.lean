import Verif.Spec.Thumb
import Mathlib.Data.List.Forall2

/-!
Code of a function as blocks of code, each followed by a literal pool. Unlike in `CodeItem` the code is any sequence
of halfwords, so that it may contain BKPT.
-/

namespace CallStack

/-- Code and the literal pool after it, in halfwords. -/
structure Block where
  code : List Nat
  pool : List Nat
  deriving DecidableEq, Repr

/-- The halfwords of a function. -/
def blockHalfs (blocks : List Block) : List Nat := blocks.flatMap (fun b => b.code ++ b.pool)

/-- The bytes of a function, least significant byte first. -/
def blockBytes (blocks : List Block) : List Nat :=
  (blockHalfs blocks).flatMap (fun hw => [hw % 256, hw / 256])

/-- The halfword begins a 32-bit instruction, or is a BKPT, which `thumb.rs` takes for the beginning of one. -/
def TakenLong (hw : Nat) : Prop := Wide hw ∨ hw / 256 = 0xBE

instance (hw : Nat) : Decidable (TakenLong hw) := inferInstanceAs (Decidable (_ ∨ _))

/-- With BKPT taken for the beginning of a 32-bit instruction, the code ends in the middle of an instruction. -/
def Straddles : List Nat → Prop
  | [] => False
  | [hw] => TakenLong hw
  | hw :: hw2 :: rest => (TakenLong hw ∧ Straddles rest) ∨ (¬ TakenLong hw ∧ Straddles (hw2 :: rest))

/-- The mapping symbols describe the blocks: no data tag in the code; at each literal pool one data tag and no other
tag, no data tag inside of it, and next in the table a code tag at its end. After a pool at the end of the function
the next tag is missing or at least not before the end. Pools have at least one word, that is two halfwords. -/
def BlocksFit (tags : List (Nat × Tag)) (address : Nat) : Nat → List Block → Prop
  | _, [] => True
  | pos, b :: rest =>
    (∀ k < b.code.length, (address + (pos + 2 * k), Tag.data) ∉ tags) ∧
    ((b.pool = [] ∧ rest = []) ∨
      2 ≤ b.pool.length ∧
      (∀ k < b.pool.length, 0 < k → (address + (pos + 2 * (b.code.length + k)), Tag.data) ∉ tags) ∧
      ∃ k, tags[k]? = some (address + (pos + 2 * b.code.length), Tag.data) ∧
        (∀ j t, tags[j]? = some (address + (pos + 2 * b.code.length), t) → j = k) ∧
        ((∃ stop, tags[k + 1]? = some (stop, Tag.thumb) ∧
            (stop = address + (pos + 2 * (b.code.length + b.pool.length)) ∨
              rest = [] ∧ address + (pos + 2 * (b.code.length + b.pool.length)) ≤ stop)) ∨
          (tags[k + 1]? = none ∧ rest = []))) ∧
    BlocksFit tags address (pos + 2 * (b.code.length + b.pool.length)) rest

/-- The same code with other contents of the literal pools. -/
def OtherPools (blocks blocks' : List Block) : Prop :=
  List.Forall₂ (fun b b' => b'.code = b.code ∧ b'.pool.length = b.pool.length ∧ ∀ hw ∈ b'.pool, hw < 65536)
    blocks blocks'

/-- All halfwords of the code have a meaning in the manual. -/
def AllocatedCode (v7 : Bool) (blocks : List Block) : Prop :=
  ∀ b ∈ blocks, ∀ hw ∈ b.code, hw < 65536 ∧ ¬ Unallocated16 v7 (hw / 256) (hw % 256)

end CallStack
