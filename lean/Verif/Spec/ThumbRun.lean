import Verif.Spec.Thumb

/-!
What executing Thumb code does to the stack pointer and to the program counter, after the ARM manual
(ARMv7-M ARM, DDI 0403). All other registers and the memory are left open: whatever depends on them may
happen. Nothing here refers to how `thumb.rs` works.
-/

namespace CallStack

/-- The instruction `i` is at the offset `pos` of the function. -/
def InstrAt (items : List CodeItem) (pos : Nat) (i : Instr) : Prop :=
  ∃ pre post, items = pre ++ .instr i :: post ∧ pos = (codeBytes pre).length

/-- The function at `address` with these contents is well-formed: its instructions exist and are none
of those known to be misread, and the (sorted) tags describe where the literal pools are. -/
structure CodeFits (v7 : Bool) (tags : List (Nat × Tag)) (address : Nat) (items : List CodeItem) :
    Prop where
  sorted : tags.Pairwise (fun x y => x.1 ≤ y.1)
  valid : ∀ i, CodeItem.instr i ∈ items → i.Valid v7
  tags : TagsFit tags address 0 items

/-- The branch instructions with their offsets. -/
def Instr.IsBranch (i : Instr) (off : Int) : Prop :=
  (∃ c, i = .b1 c off) ∨ i = .b2 off ∨ (∃ c, i = .b3 c off) ∨ i = .b4 off

/-- What an instruction does to the stack pointer. -/
inductive SpEffect where
  | keep
  /-- gives up some bytes of the stack -/
  | raises
  /-- takes this many bytes of stack -/
  | lowers (n : Nat)
  /-- depends on a register or on the memory, or is one of the odd instructions that lower it -/
  | unknown
  deriving DecidableEq, Repr

/-- Where the execution goes on. -/
inductive Flow where
  | next
  /-- at this offset in the function -/
  | goto (t : Int)
  /-- at this offset or after the instruction -/
  | either (t : Int)
  /-- somewhere behind the instruction: table branches -/
  | forward
  /-- the function is left for good -/
  | leave
  /-- depends on a register or on the memory -/
  | unknown
  deriving DecidableEq, Repr

/-- The 16-bit instructions `other`: ADD (SP plus immediate) T2, POP, and ADD and MOV (register) with
destination SP (A7.7.4, A7.7.5, A7.7.77, A7.7.99). -/
def narrowSp (hi lo : Nat) : SpEffect :=
  if hi = 0xB0 ∧ lo < 128 then .raises
  else if hi = 0xBC ∨ hi = 0xBD then .raises
  else if (hi = 0x44 ∨ hi = 0x46) ∧ lo / 128 = 1 ∧ lo % 8 = 5 then .unknown
  else .keep

/-- The 16-bit instructions `other`: POP with PC, CBZ and CBNZ with the offset `i:imm5:0` (A7.7.21), and
ADD and MOV (register) with destination PC. -/
def narrowFlow (pos hi lo : Nat) : Flow :=
  if hi = 0xBD then .leave
  else if hi = 0xB1 ∨ hi = 0xB3 ∨ hi = 0xB9 ∨ hi = 0xBB then
    .either (pos + 4 + (hi / 2 % 2 * 64 + lo / 8 * 2))
  else if (hi = 0x44 ∨ hi = 0x46) ∧ lo / 128 = 1 ∧ lo % 8 = 7 then .unknown
  else .next

/-- The 32-bit instructions `otherW` (A5.3). Encodings in which the manual calls the use of SP
unpredictable are among the unknown ones. -/
def wideSp (hw1 hw2 : Nat) : SpEffect :=
  let rd := hw2 / 256 % 16
  let rt := hw2 / 2 ^ 12
  if hw1 / 2 ^ 9 = 0x74 then  -- load and store multiple, dual, exclusive
    if hw1 % 16 = 13 ∧ hw1 / 32 % 2 = 1 then  -- base SP with writeback
      if hw1 / 128 % 2 = 1 then .raises else .unknown
    else if hw1 / 64 % 2 = 0 ∧ hw1 / 16 % 2 = 1 ∧ hw2 / 2 ^ 13 % 2 = 1 then .unknown  -- LDM {SP}
    else .keep
  else if hw1 / 2 ^ 9 = 0x75 then  -- data processing (shifted register)
    if rd = 13 then .unknown else .keep
  else if hw1 / 2 ^ 9 = 0x76 ∨ hw1 / 2 ^ 9 = 0x7E then  -- coprocessor and floating-point load, store
    if hw1 % 16 = 13 ∧ hw1 / 32 % 2 = 1 then
      if hw1 / 128 % 2 = 1 then .raises else .unknown
    else .keep
  else if hw1 / 2 ^ 9 = 0x77 ∨ hw1 / 2 ^ 9 = 0x7F then  -- coprocessor and floating-point operations
    if hw1 / 16 % 2 = 1 ∧ hw2 / 16 % 2 = 1 ∧ rt = 13 then .unknown else .keep
  else if hw1 / 2 ^ 11 = 30 ∧ hw2 / 2 ^ 15 = 0 then  -- data processing with immediates
    if rd = 13 then
      if (hw1 = 0xF10D ∨ hw1 = 0xF11D ∨ hw1 = 0xF50D ∨ hw1 = 0xF51D) ∧  -- ADD (SP plus immediate) T3
          armExpandImm (hw1 / 2 ^ 10 % 2 * 2 ^ 11 + hw2 / 2 ^ 12 * 256 + hw2 % 256) < 2 ^ 31 then .raises
      else if hw1 = 0xF20D ∨ hw1 = 0xF60D then .raises  -- ADD (SP plus immediate) T4
      else .unknown
    else .keep
  else if hw1 / 2 ^ 11 = 30 then  -- branches and control
    if hw1 / 16 = 0xF38 ∧ hw2 / 2 ^ 14 = 2 ∧ (hw2 % 256 = 8 ∨ hw2 % 256 = 9 ∨ hw2 % 256 = 20) then
      .unknown  -- MSR to MSP, PSP, CONTROL
    else if hw1 = 0xF3EF ∧ rd = 13 then .unknown  -- MRS
    else .keep
  else if hw1 / 2 ^ 9 = 0x7C then  -- load and store single data items
    if hw1 / 16 % 2 = 1 ∧ rt = 13 then .unknown  -- LDR SP
    else if hw1 % 16 = 13 ∧ hw1 / 128 % 2 = 0 ∧ hw2 / 2 ^ 11 % 2 = 1 ∧ hw2 / 256 % 2 = 1 then
      if hw2 / 512 % 2 = 1 then .raises else .unknown  -- base SP with writeback
    else .keep
  else  -- data processing (register), multiply, divide
    if rd = 13 ∨ rt = 13 then .unknown else .keep

/-- The 32-bit instructions `otherW`: LDM and LDR with destination PC, TBB and TBH; and encodings with
destination PC that the manual calls unpredictable. -/
def wideFlow (hw1 hw2 : Nat) : Flow :=
  let rd := hw2 / 256 % 16
  if hw1 / 2 ^ 9 = 0x74 ∧ hw1 / 64 % 2 = 0 ∧ hw1 / 16 % 2 = 1 ∧ hw2 / 2 ^ 15 = 1 then
    if hw1 % 16 = 13 then .leave else .unknown
  else if hw1 / 16 = 0xE8D ∧ hw2 / 32 = 0x780 then .forward
  else if (hw1 / 16 = 0xF85 ∨ hw1 / 16 = 0xF8D) ∧ hw2 / 2 ^ 12 = 15 then
    if hw1 % 16 = 13 then .leave else .unknown
  else if (hw1 / 2 ^ 9 = 0x75 ∨ hw1 / 2 ^ 11 = 30 ∧ hw2 / 2 ^ 15 = 0) ∧ rd = 15 ∧ hw1 / 16 % 2 = 0 then
    .unknown
  else .next

/-- What an instruction does to the stack pointer. A call gives back the stack it uses. -/
def Instr.spEffect : Instr → SpEffect
  | .push regs lr => .lowers (4 * (bitCount 8 regs + flag lr))
  | .subSp imm7 => .lowers (4 * imm7)
  | .pushW regs lr => .lowers (4 * (bitCount 13 regs + flag lr))
  | .subSpW _ imm12 => .lowers (armExpandImm imm12)
  | .vpushD _ _ n => .lowers (8 * n)
  | .vpushS _ _ n => .lowers (4 * n)
  | .strSp _ _ imm8 => .lowers imm8
  | .other hw => narrowSp (hw / 256) (hw % 256)
  | .otherW hw1 hw2 => wideSp hw1 hw2
  | .bl _ | .b1 _ _ | .b2 _ | .b3 _ _ | .b4 _ | .blx _ | .bx _ => .keep

/-- Where the execution goes on after the instruction at `pos`. After a call it is the next instruction,
and BX leaves the function. -/
def Instr.flow (pos : Nat) : Instr → Flow
  | .b1 _ off | .b3 _ off => .either (pos + 4 + off)
  | .b2 off | .b4 off => .goto (pos + 4 + off)
  | .bx _ => .leave
  | .other hw => narrowFlow pos (hw / 256) (hw % 256)
  | .otherW hw1 hw2 => wideFlow hw1 hw2
  | .bl _ | .blx _ | .push _ _ | .subSp _ | .pushW _ _ | .subSpW _ _ | .vpushD _ _ _ | .vpushS _ _ _
  | .strSp _ _ _ => .next

/-- The depth `d`, the number of bytes between the stack pointer at the entry of the function and now,
may become `d'`. -/
def SpEffect.Allows : SpEffect → Int → Int → Prop
  | .keep, d, d' => d' = d
  | .raises, d, d' => d' ≤ d
  | .lowers n, d, d' => d' = d + n
  | .unknown, _, _ => True

/-- In a function of `len` bytes, the instruction of `size` bytes at `pos` may be followed by the one at
`pos'`. -/
def Flow.Allows (len pos size : Nat) : Flow → Nat → Prop
  | .next, pos' => pos' = pos + size
  | .goto t, pos' => (pos' : Int) = t ∧ pos' < len
  | .either t, pos' => pos' = pos + size ∨ (pos' : Int) = t ∧ pos' < len
  | .forward, pos' => pos + size ≤ pos' ∧ pos' < len
  | .leave, _ => False
  | .unknown, pos' => pos' < len

/-- One step within a function: from an offset and a depth to the next ones. An instruction in an IT block
may also be passed over. -/
inductive CodeStep (items : List CodeItem) : Nat × Int → Nat × Int → Prop
  | run {pos pos' : Nat} {d d' : Int} {i : Instr} : InstrAt items pos i → i.spEffect.Allows d d' →
      (i.flow pos).Allows (codeBytes items).length pos (2 * i.encode.length) pos' →
      CodeStep items (pos, d) (pos', d')
  | pass {pos : Nat} {d : Int} {i : Instr} : InstrAt items pos i →
      CodeStep items (pos, d) (pos + 2 * i.encode.length, d)

/-- From its entry the function can get to the offset `pos` with `d` bytes of stack in use. -/
inductive CodeRuns (items : List CodeItem) : Nat → Int → Prop
  | entry : CodeRuns items 0 0
  | step {pos pos' : Nat} {d d' : Int} : CodeRuns items pos d → CodeStep items (pos, d) (pos', d') →
      CodeRuns items pos' d'

/-- The code changes SP and PC only by instructions that say how: none sets them from a register or from
memory, except for returns by POP. -/
def TameCode (items : List CodeItem) : Prop :=
  ∀ pos i, InstrAt items pos i → i.spEffect ≠ .unknown ∧ i.flow pos ≠ .unknown

end CallStack
