import Verif.Spec.Thumb

/-!
Thumb code of ARMv7-M with all 32-bit instructions, also those that the analysis misreads, after the ARM manual.
(The 32-bit instructions of ARMv6-M are BL, MSR, MRS, barriers and UDF, and `Instr.Valid` leaves out none of them.)
-/

namespace CallStack

/-- STMDB with base SP and without writeback. -/
def stmdbKeep (hw1 hw2 : Nat) : Bool := hw1 = 0xE90D && stmdbSp hw1 hw2

/-- FSTMDBX: VPUSH T1 with an odd number of words. -/
def fstmdbx (hw1 hw2 : Nat) : Bool :=
  (hw1 = 0xED2D || hw1 = 0xED6D) && hw2 / 256 % 16 = 11 && hw2 % 2 = 1

/-- The operands are in range, and the instruction exists in ARMv7-M; unlike in `Instr.Valid` no 32-bit instruction
is left out. -/
def Instr.Defined : Instr → Prop
  | .b3 cond off => cond < 14 ∧ off % 2 = 0 ∧ -2 ^ 20 ≤ off ∧ off < 2 ^ 20
  | .subSpW _ imm12 => imm12 < 2 ^ 12
  | .otherW hw1 hw2 => plain32 true hw1 hw2 = true ∨ hw2 < 65536 ∧
      (lowersSp hw1 hw2 = true ∨ stmdbKeep hw1 hw2 = true ∨ fstmdbx hw1 hw2 = true)
  | i => i.Valid true

instance (i : Instr) : Decidable i.Defined := by
  cases i <;> unfold Instr.Defined <;> infer_instance

/-- By how many bytes a 32-bit instruction without constructor lowers the stack pointer: SUB (SP minus immediate)
T3 by `i:imm3:imm8`, STRD by 4 times `imm8`, STRB T3 and STRH T3 by `imm8`, FSTMDBX by 4 times `imm8`. -/
def lowersBy (hw1 hw2 : Nat) : Option Nat :=
  if (hw1 = 0xF2AD ∨ hw1 = 0xF6AD) ∧ hw2 / 2 ^ 15 = 0 ∧ hw2 / 256 % 16 = 13 then
    some (hw1 / 2 ^ 10 % 2 * 2 ^ 11 + hw2 / 2 ^ 12 * 2 ^ 8 + hw2 % 256)
  else if hw1 = 0xE86D ∨ hw1 = 0xE96D then some (4 * (hw2 % 256))
  else if (hw1 = 0xF80D ∨ hw1 = 0xF82D) ∧ hw2 / 2 ^ 11 % 2 = 1 ∧ hw2 / 256 % 4 = 1 then some (hw2 % 256)
  else if fstmdbx hw1 hw2 = true then some (4 * (hw2 % 256))
  else none

/-- The number of bytes by which the instruction lowers the stack pointer, for all instructions. -/
def Instr.lowersAll : Instr → Option Nat
  | .otherW hw1 hw2 => lowersBy hw1 hw2
  | i => i.lowers

/-- The bytes by which the instruction lowers the stack pointer that the analysis overlooks. -/
def Instr.overlooked : Instr → Nat
  | .otherW hw1 hw2 => if lowersSp hw1 hw2 then (lowersBy hw1 hw2).getD 0 else 0
  | .subSpW _ imm12 => if imm12 / 256 = 1 then imm12 % 256 * 65281 else 0
  | _ => 0

/-- The bytes that the analysis counts although the instruction does not lower the stack pointer. -/
def Instr.imagined : Instr → Nat
  | .otherW hw1 hw2 => if stmdbKeep hw1 hw2 then 4 * bitCount 16 hw2 else 0
  | _ => 0

/-- The tags are sorted and describe the code, and all its instructions exist. -/
structure AllCode (tags : List (Nat × Tag)) (address : Nat) (items : List CodeItem) : Prop where
  sorted : tags.Pairwise (fun x y => x.1 ≤ y.1)
  defined : ∀ i, CodeItem.instr i ∈ items → i.Defined
  tags : TagsFit tags address 0 items

/-- The targets of the branches without link, in the order of the code, relative to its start. -/
def branchTargets (items : List CodeItem) : List Int := (instrsAt 0 items).filterMap (fun e => e.2.branches e.1)

/-- The targets of the calls. -/
def callTargets (items : List CodeItem) : List Int := (instrsAt 0 items).filterMap (fun e => e.2.calls e.1)

/-- B in encoding T3 with an offset whose bits 18 and 19 differ. -/
def Instr.Swapped : Instr → Prop
  | .b3 _ off => off / 2 ^ 18 % 2 ≠ off / 2 ^ 19 % 2
  | _ => False

end CallStack
