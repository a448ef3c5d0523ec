import Verif.Model.Thumb

/-!
Thumb machine code as the ARMv6-M and ARMv7-M Architecture Reference Manuals (ARM ARM) define it:
an abstract syntax of instructions with their encodings, and what each instruction does. Nothing here
refers to the patterns of `thumb.rs`; section numbers are those of the ARMv7-M ARM (DDI 0403).
-/

namespace CallStack

/-- `BitCount`: the number of bits set among the lowest `w` bits. -/
def bitCount : Nat → Nat → Nat
  | 0, _ => 0
  | w + 1, x => x % 2 + bitCount w (x / 2)

/-- `ROR` of a 32-bit number by `n` places, for `n < 32`. -/
def ror32 (x n : Nat) : Nat := x / 2 ^ n + x % 2 ^ n * 2 ^ (32 - n)

/-- `ThumbExpandImm` (A5.3.2): the constant that the 12 bits `i:imm3:imm8` denote. -/
def armExpandImm (imm12 : Nat) : Nat :=
  let imm8 := imm12 % 256
  if imm12 / 1024 = 0 then
    if imm12 / 256 = 0 then imm8
    else if imm12 / 256 = 1 then imm8 * 2 ^ 16 + imm8
    else if imm12 / 256 = 2 then imm8 * 2 ^ 24 + imm8 * 2 ^ 8
    else imm8 * 2 ^ 24 + imm8 * 2 ^ 16 + imm8 * 2 ^ 8 + imm8
  else ror32 (128 + imm12 % 128) (imm12 / 128)

/-- Instructions. `other` and `otherW` stand for the 16-bit and 32-bit instructions that neither
branch by one of the forms below nor lower the stack pointer by a constant. -/
inductive Instr where
  /-- BL T1 -/
  | bl (off : Int)
  /-- B T1, conditional -/
  | b1 (cond : Nat) (off : Int)
  /-- B T2 -/
  | b2 (off : Int)
  /-- B T3, conditional -/
  | b3 (cond : Nat) (off : Int)
  /-- B T4 -/
  | b4 (off : Int)
  /-- BLX (register) -/
  | blx (rm : Nat)
  /-- BX -/
  | bx (rm : Nat)
  /-- PUSH T1: a set of registers from R0 to R7 and possibly LR -/
  | push (regs : Nat) (lr : Bool)
  /-- SUB (SP minus immediate) T1 -/
  | subSp (imm7 : Nat)
  /-- STMDB with base SP and writeback, also called PUSH T2: registers R0 to R12 and possibly LR -/
  | pushW (regs : Nat) (lr : Bool)
  /-- SUB (SP minus immediate) T2 with destination SP -/
  | subSpW (s : Bool) (imm12 : Nat)
  /-- VPUSH T1 of `n` double-precision registers from number `d:vd` -/
  | vpushD (d : Bool) (vd n : Nat)
  /-- VPUSH T2 of `n` single-precision registers -/
  | vpushS (d : Bool) (vd n : Nat)
  /-- STR (immediate) T4 with base SP, subtracting `imm8`, with writeback -/
  | strSp (rt : Nat) (pre : Bool) (imm8 : Nat)
  | other (hw : Nat)
  | otherW (hw1 hw2 : Nat)
  deriving DecidableEq, Repr

/-- 0 or 1. -/
def flag (b : Bool) : Nat := if b then 1 else 0

/-- BL T1 (A7.7.18) and B T4 (A7.7.12) differ in `hw2` only, by the number `op`:
`11110 S imm10 | op:J1:x:J2:imm11`, offset `S:I1:I2:imm10:imm11:0`, `I1 = NOT(J1 EOR S)`,
`I2 = NOT(J2 EOR S)`. -/
def encLong (op : Nat) (off : Int) : List Nat :=
  let u := (off % 2 ^ 25).toNat
  let s := u / 2 ^ 24
  let i1 := u / 2 ^ 23 % 2
  let i2 := u / 2 ^ 22 % 2
  let imm10 := u / 2 ^ 12 % 2 ^ 10
  let imm11 := u / 2 % 2 ^ 11
  let j1 := if i1 = s then 1 else 0
  let j2 := if i2 = s then 1 else 0
  [0xF000 + s * 2 ^ 10 + imm10, op + j1 * 2 ^ 13 + j2 * 2 ^ 11 + imm11]

/-- B T3 (A7.7.12): `11110 S cond imm6 | 10 J1 0 J2 imm11`, offset `S:J2:J1:imm6:imm11:0`. -/
def encB3 (cond : Nat) (off : Int) : List Nat :=
  let u := (off % 2 ^ 21).toNat
  let s := u / 2 ^ 20
  let j2 := u / 2 ^ 19 % 2
  let j1 := u / 2 ^ 18 % 2
  let imm6 := u / 2 ^ 12 % 2 ^ 6
  let imm11 := u / 2 % 2 ^ 11
  [0xF000 + s * 2 ^ 10 + cond * 2 ^ 6 + imm6, 0x8000 + j1 * 2 ^ 13 + j2 * 2 ^ 11 + imm11]

/-- The halfwords of an instruction. -/
def Instr.encode : Instr → List Nat
  | .bl off => encLong 0xD000 off
  | .b1 cond off => [0xD000 + cond * 256 + (off % 2 ^ 9).toNat / 2]
  | .b2 off => [0xE000 + (off % 2 ^ 12).toNat / 2]
  | .b3 cond off => encB3 cond off
  | .b4 off => encLong 0x9000 off
  | .blx rm => [0x4780 + rm * 8]
  | .bx rm => [0x4700 + rm * 8]
  | .push regs lr => [0xB400 + flag lr * 256 + regs]
  | .subSp imm7 => [0xB080 + imm7]
  | .pushW regs lr => [0xE92D, flag lr * 2 ^ 14 + regs]
  | .subSpW s imm12 =>
    [0xF1AD + imm12 / 2 ^ 11 * 2 ^ 10 + flag s * 16, imm12 / 256 % 8 * 2 ^ 12 + 0xD00 + imm12 % 256]
  | .vpushD d vd n => [0xED2D + flag d * 64, vd * 2 ^ 12 + 0xB00 + 2 * n]
  | .vpushS d vd n => [0xED2D + flag d * 64, vd * 2 ^ 12 + 0xA00 + n]
  | .strSp rt pre imm8 => [0xF84D, rt * 2 ^ 12 + 0x900 + flag pre * 0x400 + imm8]
  | .other hw => [hw]
  | .otherW hw1 hw2 => [hw1, hw2]

/-- The 16-bit encodings that the manual allocates (A5.2) to instructions other than B, BX, BLX, PUSH,
SUB (SP minus immediate) and BKPT, by the high and the low byte. CBZ, CBNZ, IT and hints with numbers
above 4 exist in ARMv7-M only. -/
def plain16 (v7 : Bool) (hi lo : Nat) : Bool :=
  if hi < 0x44 then true  -- shift, add, subtract, move, compare; data processing
  else if hi < 0x47 then hi != 0x45 || lo / 64 != 0  -- ADD, CMP, MOV; 0100 0101 00 is unpredictable
  else if hi < 0x48 then false  -- BX, BLX
  else if hi < 0xB0 then true  -- loads, stores, ADR, ADD (SP plus immediate) T1
  else if hi = 0xB0 then lo < 128  -- ADD (SP plus immediate) T2
  else if hi = 0xB1 || hi = 0xB3 || hi = 0xB9 || hi = 0xBB then v7  -- CBZ, CBNZ
  else if hi = 0xB2 then true  -- SXTH, SXTB, UXTH, UXTB
  else if hi = 0xB6 then lo / 32 = 3 && lo / 4 % 4 = 0  -- CPS
  else if hi = 0xBA then lo / 64 != 2  -- REV, REV16, REVSH
  else if hi = 0xBC || hi = 0xBD then true  -- POP
  else if hi = 0xBF then v7 || (lo % 16 = 0 && lo / 16 ≤ 4)  -- IT, hints
  else if hi < 0xC0 then false
  else if hi < 0xD0 then true  -- STM, LDM
  else hi = 0xDE || hi = 0xDF  -- UDF, SVC

/-- A halfword begins a 32-bit instruction (A5.1): its five highest bits are 11101, 11110 or 11111. -/
def Wide (hw : Nat) : Prop := hw / 2 ^ 11 = 29 ∨ hw / 2 ^ 11 = 30 ∨ hw / 2 ^ 11 = 31

instance (hw : Nat) : Decidable (Wide hw) := inferInstanceAs (Decidable (_ ∨ _))

/-- 32-bit instructions that lower the stack pointer by a constant and are none of the constructors:
SUB (SP minus immediate) T3, and STRD, STRB, STRH with base SP, subtraction and writeback. -/
def lowersSp (hw1 hw2 : Nat) : Bool :=
  ((hw1 = 0xF2AD || hw1 = 0xF6AD) && hw2 / 2 ^ 15 = 0 && hw2 / 256 % 16 = 13) ||  -- SUBW SP, SP, #
    hw1 = 0xE86D || hw1 = 0xE96D ||  -- STRD [SP], #- and [SP, #-]!
    ((hw1 = 0xF80D || hw1 = 0xF82D) && hw2 / 2 ^ 11 % 2 = 1 && hw2 / 256 % 4 = 1)  -- STRB, STRH

/-- STMDB with base SP; writeback is bit 5 of the first halfword. -/
def stmdbSp (hw1 hw2 : Nat) : Bool :=
  (hw1 = 0xE90D || hw1 = 0xE92D) && hw2 / 2 ^ 15 = 0 && hw2 / 2 ^ 13 % 2 = 0

/-- The 32-bit encodings other than those of the constructors, `lowersSp`, and `stmdbSp`. The
exceptions marked v7 are no instructions of ARMv6-M. -/
def plain32 (v7 : Bool) (hw1 hw2 : Nat) : Bool :=
  (Wide hw1 : Bool) && hw1 < 65536 && hw2 < 65536 &&
  !(hw1 / 2 ^ 11 = 30 && hw2 / 2 ^ 14 = 3 && hw2 / 2 ^ 12 % 2 = 1) &&  -- BL
  !(hw1 = 0xF84D && hw2 / 2 ^ 11 % 2 = 1 && hw2 / 256 % 4 = 1) &&  -- STR T4, base SP
  !(v7 && hw1 / 2 ^ 11 = 30 && hw2 / 2 ^ 14 = 2 &&
    (hw2 / 2 ^ 12 % 2 = 1 || hw1 / 2 ^ 6 % 16 < 14)) &&  -- B T4, B T3
  !(v7 && stmdbSp hw1 hw2) &&
  !(v7 && (hw1 = 0xF1AD || hw1 = 0xF1BD || hw1 = 0xF5AD || hw1 = 0xF5BD) && hw2 / 2 ^ 15 = 0 &&
    hw2 / 256 % 16 = 13) &&  -- SUB T2, destination SP
  !(v7 && (hw1 = 0xED2D || hw1 = 0xED6D) && (hw2 / 256 % 16 = 10 || hw2 / 256 % 16 = 11)) &&  -- VPUSH
  !lowersSp hw1 hw2

/-- The operands are in range, and the instruction exists in the architecture. Two encodings which
`thumb.rs` is known to misread are left out: B T3 with offsets whose bits 18 and 19 differ
(`C43_t3_swapped`), and constants of SUB T2 of the form `00XY00XY` (`C47_expand_wrong`). -/
def Instr.Valid (v7 : Bool) : Instr → Prop
  | .bl off => off % 2 = 0 ∧ -2 ^ 24 ≤ off ∧ off < 2 ^ 24
  | .b1 cond off => cond < 14 ∧ off % 2 = 0 ∧ -2 ^ 8 ≤ off ∧ off < 2 ^ 8
  | .b2 off => off % 2 = 0 ∧ -2 ^ 11 ≤ off ∧ off < 2 ^ 11
  | .b3 cond off => v7 = true ∧ cond < 14 ∧ off % 2 = 0 ∧ -2 ^ 20 ≤ off ∧ off < 2 ^ 20 ∧
      off / 2 ^ 18 % 2 = off / 2 ^ 19 % 2
  | .b4 off => v7 = true ∧ off % 2 = 0 ∧ -2 ^ 24 ≤ off ∧ off < 2 ^ 24
  | .blx rm => rm < 16
  | .bx rm => rm < 16
  | .push regs _ => regs < 2 ^ 8
  | .subSp imm7 => imm7 < 2 ^ 7
  | .pushW regs _ => v7 = true ∧ regs < 2 ^ 13
  | .subSpW _ imm12 => v7 = true ∧ imm12 < 2 ^ 12 ∧ imm12 / 256 ≠ 1
  | .vpushD _ vd n => v7 = true ∧ vd < 16 ∧ n < 2 ^ 7
  | .vpushS _ vd n => v7 = true ∧ vd < 16 ∧ n < 2 ^ 8
  | .strSp rt _ imm8 => rt < 16 ∧ imm8 < 2 ^ 8
  | .other hw => plain16 v7 (hw / 256) (hw % 256) = true
  | .otherW hw1 hw2 => plain32 v7 hw1 hw2 = true

instance (v7 : Bool) (i : Instr) : Decidable (i.Valid v7) := by
  cases i <;> unfold Instr.Valid <;> infer_instance

/-- 16-bit encodings that are no instructions: unpredictable or unallocated in the manual. -/
inductive Unallocated16 (v7 : Bool) (hi lo : Nat) : Prop
  /-- ADD, CMP, MOV (A5.2.3): `0100 0101 00` -/
  | cmp : hi = 0x45 → lo < 64 → Unallocated16 v7 hi lo
  /-- BX, BLX with the bits set that should be zero -/
  | bx : hi = 0x47 → lo % 8 ≠ 0 → Unallocated16 v7 hi lo
  /-- CBZ, CBNZ are instructions of ARMv7-M -/
  | cbz : v7 = false → hi = 0xB1 ∨ hi = 0xB3 ∨ hi = 0xB9 ∨ hi = 0xBB → Unallocated16 v7 hi lo
  /-- only CPS is at `1011 0110` (A5.2.5) -/
  | cps : hi = 0xB6 → ¬ (lo / 32 = 3 ∧ lo / 4 % 4 = 0) → Unallocated16 v7 hi lo
  /-- REV and the like: `1011 1010 10` -/
  | rev : hi = 0xBA → lo / 64 = 2 → Unallocated16 v7 hi lo
  | misc : hi = 0xB7 ∨ hi = 0xB8 → Unallocated16 v7 hi lo
  /-- IT and the further hints are instructions of ARMv7-M -/
  | hint : v7 = false → hi = 0xBF → ¬ (lo % 16 = 0 ∧ lo / 16 ≤ 4) → Unallocated16 v7 hi lo

/-- The 32-bit encodings for which the analysis is known to be wrong, or which are no instructions. -/
inductive Exceptional (v7 : Bool) (hw1 hw2 : Nat) : Prop
  /-- instructions that lower SP, ignored (`C46_missed`) -/
  | lowersSp : lowersSp hw1 hw2 = true → Exceptional v7 hw1 hw2
  /-- STMDB with base SP without writeback (`C46_stmdb_without_writeback`) -/
  | stmdb : v7 = true → hw1 = 0xE90D → stmdbSp hw1 hw2 = true → Exceptional v7 hw1 hw2
  /-- B T3 with different bits J1 and J2 (`C43_t3_swapped`) -/
  | b3 : v7 = true → hw1 / 2 ^ 11 = 30 → hw2 / 2 ^ 14 = 2 → hw2 / 2 ^ 12 % 2 = 0 →
      hw1 / 2 ^ 6 % 16 < 14 → hw2 / 2 ^ 13 % 2 ≠ hw2 / 2 ^ 11 % 2 → Exceptional v7 hw1 hw2
  /-- SUB T2 to SP with a constant `00XY00XY` (`C47_expand_wrong`): `i:imm3` is `0001` -/
  | subW : v7 = true → hw1 = 0xF1AD ∨ hw1 = 0xF1BD → hw2 / 2 ^ 12 = 1 → hw2 / 256 % 16 = 13 →
      Exceptional v7 hw1 hw2
  /-- VPUSH T1 with an odd number of words, which the manual calls unpredictable -/
  | fstmdbx : v7 = true → hw1 = 0xED2D ∨ hw1 = 0xED6D → hw2 / 256 % 16 = 11 → hw2 % 2 = 1 →
      Exceptional v7 hw1 hw2

/-- The address that an instruction at `pos` calls. In Thumb state the program counter reads as the
address of the instruction plus 4. -/
def Instr.calls (pos : Nat) : Instr → Option Int
  | .bl off => some (pos + 4 + off)
  | _ => none

/-- The address to which an instruction at `pos` branches without linking. -/
def Instr.branches (pos : Nat) : Instr → Option Int
  | .b1 _ off => some (pos + 4 + off)
  | .b2 off => some (pos + 4 + off)
  | .b3 _ off => some (pos + 4 + off)
  | .b4 off => some (pos + 4 + off)
  | _ => none

/-- The instruction calls or jumps through a register, other than to return (`bx lr`). -/
def Instr.throughRegister : Instr → Bool
  | .blx _ => true
  | .bx rm => rm != 14
  | _ => false

/-- The number of bytes by which the instruction lowers the stack pointer. -/
def Instr.lowers : Instr → Option Nat
  | .push regs lr => some (4 * (bitCount 8 regs + flag lr))
  | .subSp imm7 => some (4 * imm7)
  | .pushW regs lr => some (4 * (bitCount 13 regs + flag lr))
  | .subSpW _ imm12 => some (armExpandImm imm12)
  | .vpushD _ _ n => some (8 * n)
  | .vpushS _ _ n => some (4 * n)
  | .strSp _ _ imm8 => some imm8
  | _ => none

/-- The contents of a function: instructions and literal pools. -/
inductive CodeItem where
  | instr (i : Instr)
  /-- a literal pool of these halfwords -/
  | data (hws : List Nat)
  deriving DecidableEq, Repr

def CodeItem.halfwords : CodeItem → List Nat
  | .instr i => i.encode
  | .data hws => hws

/-- The bytes of a function, least significant byte first. -/
def codeBytes (items : List CodeItem) : List Nat :=
  (items.flatMap CodeItem.halfwords).flatMap (fun hw => [hw % 256, hw / 256])

/-- The instructions with their offsets in bytes, when the first item is at offset `pos`. -/
def instrsAt : Nat → List CodeItem → List (Nat × Instr)
  | _, [] => []
  | pos, .instr i :: rest => (pos, i) :: instrsAt (pos + 2 * i.encode.length) rest
  | pos, .data hws :: rest => instrsAt (pos + 2 * hws.length) rest

/-- The mapping symbols describe the code: no data tag at an instruction, and at each literal pool one
data tag and no other, followed in the table by a code tag at its end (`$d`, `$t`). After a pool at the
end of the function the next tag is missing or at least not before the end. -/
def TagsFit (tags : List (Nat × Tag)) (address : Nat) : Nat → List CodeItem → Prop
  | _, [] => True
  | pos, .instr i :: rest =>
    (address + pos, Tag.data) ∉ tags ∧ TagsFit tags address (pos + 2 * i.encode.length) rest
  | pos, .data hws :: rest =>
    hws ≠ [] ∧
    (∃ k, tags[k]? = some (address + pos, Tag.data) ∧
      (∀ j t, tags[j]? = some (address + pos, t) → j = k) ∧
      ((∃ stop, tags[k + 1]? = some (stop, Tag.thumb) ∧
          (stop = address + pos + 2 * hws.length ∨
            rest = [] ∧ address + pos + 2 * hws.length ≤ stop)) ∨
        (tags[k + 1]? = none ∧ rest = []))) ∧
    TagsFit tags address (pos + 2 * hws.length) rest

/-- What a correct analysis of the code reports: the targets of calls and branches in the order of the
code, relative to the start of the function; whether there are calls through registers; whether the
stack pointer is lowered; and unless the function branches into itself, by how many bytes in all. -/
def codeFacts (items : List CodeItem) : ThumbState :=
  let is := instrsAt 0 items
  let len := (codeBytes items).length
  let bs := is.filterMap (fun e => e.2.branches e.1)
  { bls := is.filterMap (fun e => e.2.calls e.1)
    bs := bs
    indirect := is.any (fun e => e.2.throughRegister)
    modifiesSp := is.any (fun e => e.2.lowers.isSome)
    stack := if bs.any (fun t => decide (0 ≤ t ∧ t < len)) then none
      else some (is.filterMap (fun e => e.2.lowers)).sum }

end CallStack
