import Verif.Model.Symbols

/-!
The machine code analysis (src/thumb.rs).

A halfword is the pair of its bytes `(first[0], first[1])`, least significant byte first. Offsets are
`i32` in the code and the counter `stack` is a `u64`; the model uses `Int` and `Nat`. `Model/Words` has
the machine words, and C95 shows that both yield the same.
-/

namespace CallStack

/-- `enum Tag` (thumb.rs:625-632). -/
inductive Tag where
  | data
  | thumb
  deriving DecidableEq, Repr

/-- Two bytes of code, `(first[0], first[1])`. -/
abbrev Half := Nat × Nat

/-- `u8::from_str_radix(_, 2)` on strings of `0` and `1`. -/
def binVal (s : Str) : Nat := s.foldl (fun acc c => 2 * acc + (if c = '1' then 1 else 0)) 0

/-- The mask of half a pattern: `.replace("0", "1").replace("x", "0")` (thumb.rs:578-579, 582-583). -/
def patMask (p : Str) : Nat := binVal (p.map (fun c => if c = 'x' then '0' else '1'))

/-- The value of half a pattern: `.replace("x", "0")` (thumb.rs:580, 584). -/
def patValue (p : Str) : Nat := binVal (p.map (fun c => if c = 'x' then '0' else c))

/-- `fn matches` (thumb.rs:572-589). The assertions on the pattern hold for every pattern of the
code (`table16_patterns`). -/
def matchesPat (b : Half) (pattern : Str) : Bool :=
  let p := (pattern.drop 2).filter (fun c => c != '_')
  (b.2 &&& patMask (p.take 8) == patValue (p.take 8)) &&
    (b.1 &&& patMask (p.drop 8) == patValue (p.drop 8))

/-- `fn sign_extend` (thumb.rs:591-594): `i32` shift left (wrapping), then arithmetic shift right. -/
def signExtend (x : Nat) (nbits : Nat) : Int :=
  (((BitVec.ofNat 32 x) <<< (32 - nbits)).sshiftRight (32 - nbits)).toInt

/-- `u32::rotate_right`. -/
def rotateRight32 (x : Nat) (k : Nat) : Nat := ((BitVec.ofNat 32 x).rotateRight k).toNat

/-- `fn thumb_expand_imm` (thumb.rs:596-619). -/
def thumbExpandImm (imm12 : Nat) : Nat :=
  if imm12 >>> 10 = 0 then
    let imm8 := imm12 &&& 0xFF
    match (imm12 >>> 8) &&& 3 with
    | 0 => imm8
    | 1 => imm8 <<< 8
    | 2 => (imm8 <<< 24) ||| (imm8 <<< 8)
    | _ => (imm8 <<< 24) ||| (imm8 <<< 16) ||| (imm8 <<< 8) ||| imm8
  else rotateRight32 ((1 <<< 7) ||| (imm12 &&& 0x7F)) (imm12 >>> 7)

/-- `count_ones` of a 16-bit number. -/
def popcount16 (x : Nat) : Nat := ((List.range 16).filter (fun k => x.testBit k)).length

/-- What the code does for a 16-bit instruction. -/
inductive Act16 where
  /-- `continue` -/
  | skip
  /-- B, encoding T1 (thumb.rs:133-151) -/
  | bT1
  /-- B, encoding T2 (thumb.rs:152-167) -/
  | bT2
  /-- BLX register (thumb.rs:174-176) -/
  | blx
  /-- BX (thumb.rs:177-184) -/
  | bx
  /-- PUSH (thumb.rs:279-291) -/
  | push
  /-- SUB (SP minus immediate) T1 (thumb.rs:346-358) -/
  | subSp
  deriving DecidableEq, Repr

/-- One arm of the `if`-chain: does it require `v7`, its pattern, its action. -/
structure Row16 where
  v7 : Bool
  pattern : Str
  act : Act16

/-- The arms of the `if`-chain for 16-bit instructions (thumb.rs:84-382), in order. The comments give
the line of the arm and the name of the instruction. -/
def table16 : List Row16 :=
  [⟨false, c!"0b010000_0101_xxx_xxx", .skip⟩,  -- 84: ADC (register) - T1
   ⟨false, c!"0b000_11_1_0_xxx_xxx_xxx", .skip⟩,  -- 87: ADD (immediate) - T1
   ⟨false, c!"0b001_10_xxx_xxxxxxxx", .skip⟩,  -- 90: ADD (immediate) - T2
   ⟨false, c!"0b000_11_0_0_xxx_xxx_xxx", .skip⟩,  -- 93: ADD (register) - T1
   ⟨false, c!"0b010001_00_x_xxxx_xxx", .skip⟩,  -- 96: ADD (register) - T2
   ⟨false, c!"0b1010_1_xxx_xxxxxxxx", .skip⟩,  -- 99: ADD (SP plus immediate) - T1
   ⟨false, c!"0b1011_0000_0_xxxxxxx", .skip⟩,  -- 102: ADD (SP plus immediate) - T2
   ⟨false, c!"0b01000100_x_1101_xxx", .skip⟩,  -- 105: ADD (SP plus register) - T1
   ⟨false, c!"0b01000100_1_xxxx_101", .skip⟩,  -- 108: ADD (SP plus register) - T2
   ⟨false, c!"0b1010_0_xxx_xxxxxxxx", .skip⟩,  -- 111: ADR - T1
   ⟨false, c!"0b010000_0000_xxx_xxx", .skip⟩,  -- 114: AND (register) - T1
   ⟨false, c!"0b000_10_xxxxx_xxx_xxx", .skip⟩,  -- 117: ASR (immediate) - T1
   ⟨false, c!"0b010000_0100_xxx_xxx", .skip⟩,  -- 120: ASR (register) - T1
   ⟨false, c!"0b1101_1110_xxxxxxxx", .skip⟩,  -- 123: UDF - T1
   ⟨false, c!"0b1101_1111_xxxxxxxx", .skip⟩,  -- 128: SVC - T1
   ⟨false, c!"0b1101_xxxx_xxxxxxxx", .bT1⟩,  -- 133: B - T1
   ⟨false, c!"0b11100_xxxxxxxxxxx", .bT2⟩,  -- 152: B - T2
   ⟨false, c!"0b010000_1110_xxx_xxx", .skip⟩,  -- 168: BIC (register) - T1
   ⟨false, c!"0b1010_1110_xxxxxxxx", .skip⟩,  -- 171: BKPT - T1
   ⟨false, c!"0b010001_11_1_xxxx_000", .blx⟩,  -- 174: BLX (register) - T1
   ⟨false, c!"0b010001_11_0_xxxx_000", .bx⟩,  -- 177: BX - T1
   ⟨true, c!"0b1011_x_0_x_1_xxxxx_xxx", .skip⟩,  -- 185: CBNZ, CBZ - T1
   ⟨false, c!"0b010000_1011_xxx_xxx", .skip⟩,  -- 188: CMN (register) - T1
   ⟨false, c!"0b001_01_xxx_xxxxxxxx", .skip⟩,  -- 191: CMP (immediate) - T1
   ⟨false, c!"0b010000_1010_xxx_xxx", .skip⟩,  -- 194: CMP (register) - T1
   ⟨false, c!"0b010001_01_x_xxxx_xxx", .skip⟩,  -- 197: CMP (register) - T2
   ⟨false, c!"0b1011_0110_011_x_00_xx", .skip⟩,  -- 200: CPS - T1
   ⟨false, c!"0b010000_0001_xxx_xxx", .skip⟩,  -- 203: EOR (register) - T1
   ⟨true, c!"0b1011_1111_xxxx_xxxx", .skip⟩,  -- 206: IT - T1
   ⟨false, c!"0b1100_1_xxx_xxxxxxxx", .skip⟩,  -- 209: LDM, LDMIA, LDMFD - T1
   ⟨false, c!"0b011_0_1_xxxxx_xxx_xxx", .skip⟩,  -- 212: LDR (immediate) - T1
   ⟨false, c!"0b1001_1_xxx_xxxxxxxx", .skip⟩,  -- 215: LDR (immediate) - T2
   ⟨false, c!"0b01001_xxx_xxxxxxxx", .skip⟩,  -- 218: LDR (literal) - T1
   ⟨false, c!"0b0101_100_xxx_xxx_xxx", .skip⟩,  -- 221: LDR (register) - T1
   ⟨false, c!"0b011_1_1_xxxxx_xxx_xxx", .skip⟩,  -- 224: LDRB (immediate) - T1
   ⟨false, c!"0b0101_110_xxx_xxx_xxx", .skip⟩,  -- 227: LDRB (register) - T1
   ⟨false, c!"0b1000_1_xxxxx_xxx_xxx", .skip⟩,  -- 230: LDRH (immediate) - T1
   ⟨false, c!"0b0101_101_xxx_xxx_xxx", .skip⟩,  -- 233: LDRH (register) - T1
   ⟨false, c!"0b0101_011_xxx_xxx_xxx", .skip⟩,  -- 236: LDRSB (register) - T1
   ⟨false, c!"0b0101_111_xxx_xxx_xxx", .skip⟩,  -- 239: LDRSH (register) - T1
   ⟨false, c!"0b000_00_xxxxx_xxx_xxx", .skip⟩,  -- 242: LSL (immediate) - T1
   ⟨false, c!"0b010000_0010_xxx_xxx", .skip⟩,  -- 245: LSL (register) - T1
   ⟨false, c!"0b000_01_xxxxx_xxx_xxx", .skip⟩,  -- 248: LSR (immediate) - T1
   ⟨false, c!"0b010000_0011_xxx_xxx", .skip⟩,  -- 251: LSR (register) - T1
   ⟨false, c!"0b001_00_xxx_xxxxxxxx", .skip⟩,  -- 254: MOV (immediate) - T1
   ⟨false, c!"0b010001_10_x_xxxx_xxx", .skip⟩,  -- 257: MOV (register) - T1
   ⟨false, c!"0b000_00_00000_xxx_xxx", .skip⟩,  -- 260: MOV (register) - T2
   ⟨false, c!"0b010000_1101_xxx_xxx", .skip⟩,  -- 263: MUL - T1
   ⟨false, c!"0b010000_1111_xxx_xxx", .skip⟩,  -- 266: MVN (register) - T1
   ⟨false, c!"0b1011_1111_0000_0000", .skip⟩,  -- 269: NOP - T1 (in ARMv7-M-ARM)
   ⟨false, c!"0b010000_1100_xxx_xxx", .skip⟩,  -- 273: ORR (register) - T1
   ⟨false, c!"0b1011_1_10_x_xxxxxxxx", .skip⟩,  -- 276: POP - T1
   ⟨false, c!"0b1011_0_10_x_xxxxxxxx", .push⟩,  -- 279: PUSH - T1
   ⟨false, c!"0b1011_1010_00_xxx_xxx", .skip⟩,  -- 292: REV - T1
   ⟨false, c!"0b1011_1010_01_xxx_xxx", .skip⟩,  -- 295: REV16 - T1
   ⟨false, c!"0b1011_1010_11_xxx_xxx", .skip⟩,  -- 298: REVSH - T1
   ⟨false, c!"0b010000_0111_xxx_xxx", .skip⟩,  -- 301: ROR (register) - T1
   ⟨false, c!"0b010000_1001_xxx_xxx", .skip⟩,  -- 304: RSB (immediate) - T1
   ⟨false, c!"0b010000_0110_xxx_xxx", .skip⟩,  -- 307: SBC (register) - T1
   ⟨false, c!"0b1011_1111_0100_0000", .skip⟩,  -- 310: SEV - T1
   ⟨false, c!"0b1100_0_xxx_xxxxxxxx", .skip⟩,  -- 313: STM, STMIA, STMEA - T1
   ⟨false, c!"0b011_0_0_xxxxx_xxx_xxx", .skip⟩,  -- 316: STR (immediate) - T1
   ⟨false, c!"0b1001_0_xxx_xxxxxxxx", .skip⟩,  -- 319: STR (immediate) - T2
   ⟨false, c!"0b0101_000_xxx_xxx_xxx", .skip⟩,  -- 322: STR (register) - T1
   ⟨false, c!"0b011_1_0_xxxxx_xxx_xxx", .skip⟩,  -- 325: STRB (immediate) - T1
   ⟨false, c!"0b0101_010_xxx_xxx_xxx", .skip⟩,  -- 328: STRB (register) - T1
   ⟨false, c!"0b1000_0_xxxxx_xxx_xxx", .skip⟩,  -- 331: STRH (immediate) - T1
   ⟨false, c!"0b0101_001_xxx_xxx_xxx", .skip⟩,  -- 334: STRH (register) - T1
   ⟨false, c!"0b000_11_1_1_xxx_xxx_xxx", .skip⟩,  -- 337: SUB (immediate) - T1
   ⟨false, c!"0b001_11_xxx_xxxxxxxx", .skip⟩,  -- 340: SUB (immediate) - T2
   ⟨false, c!"0b000_11_0_1_xxx_xxx_xxx", .skip⟩,  -- 343: SUB (register) - T1
   ⟨false, c!"0b1011_0000_1_xxxxxxx", .subSp⟩,  -- 346: SUB (SP minus immediate) - T1
   ⟨false, c!"0b1011_0010_01_xxx_xxx", .skip⟩,  -- 359: SXTB - T1
   ⟨false, c!"0b1011_0010_00_xxx_xxx", .skip⟩,  -- 362: SXTH - T1
   ⟨false, c!"0b010000_1000_xxx_xxx", .skip⟩,  -- 365: TST (register) - T1
   ⟨false, c!"0b1011_0010_11_xxx_xxx", .skip⟩,  -- 368: UXTB - T1
   ⟨false, c!"0b1011_0010_10_xxx_xxx", .skip⟩,  -- 371: UXTH - T1
   ⟨false, c!"0b1011_1111_0010_0000", .skip⟩,  -- 374: WFE - T1
   ⟨false, c!"0b1011_1111_0011_0000", .skip⟩,  -- 377: WFI - T1
   ⟨false, c!"0b1011_1111_0001_0000", .skip⟩]  -- 380: YIELD - T1

/-- The first arm that applies (thumb.rs:84-382). -/
def decode16 (v7 : Bool) (first : Half) : Option Act16 :=
  (table16.find? (fun r => (!r.v7 || v7) && matchesPat first r.pattern)).map (·.act)

/-- What the code does for a 32-bit instruction (thumb.rs:383-566). -/
inductive Act32 where
  /-- STMDB with the register list (thumb.rs:388-407) -/
  | stmdb
  /-- SUB (SP minus immediate) T2 (thumb.rs:408-427) -/
  | subW
  /-- VPUSH T1 and T2 (thumb.rs:428-453) -/
  | vpush
  /-- B, encoding T3 (thumb.rs:454-488) -/
  | bT3
  /-- B, encoding T4 (thumb.rs:489-522) -/
  | bT4
  /-- BL (thumb.rs:523-547) -/
  | bl
  /-- STR T4 (thumb.rs:548-563) -/
  | strT4
  /-- anything else -/
  | other
  deriving DecidableEq, Repr

/-- The `if`-chain for 32-bit instructions (thumb.rs:388-566). -/
def decode32 (v7 : Bool) (first second : Half) : Act32 :=
  if v7 && matchesPat first c!"0b11101_00_100_x_0_xxxx" &&
      matchesPat second c!"0b0_x_0_xxxxxxxxxxxxx" then .stmdb
  else if v7 && matchesPat first c!"0b11110_x_0_1101_x_1101" &&
      matchesPat second c!"0b0_xxx_xxxx_xxxxxxxx" then .subW
  else if v7 && matchesPat first c!"0b1110_110_1_0_x_1_0_1101" &&
      matchesPat second c!"0bxxxx_1011_xxxxxxxx" then .vpush
  else if v7 && matchesPat first c!"0b1110_110_1_0_x_1_0_1101" &&
      matchesPat second c!"0bxxxx_1010_xxxxxxxx" then .vpush
  else if v7 && matchesPat first c!"0b11110_x_xxxxxxxxxx" &&
      matchesPat second c!"0b10_x_0_x_xxxxxxxxxxx" then .bT3
  else if v7 && matchesPat first c!"0b11110_x_xxxxxxxxxx" &&
      matchesPat second c!"0b10_x_1_x_xxxxxxxxxxx" then .bT4
  else if matchesPat first c!"0b11110_x_xxxxxxxxxx" &&
      matchesPat second c!"0b11_x_1_x_xxxxxxxxxxx" then .bl
  else if matchesPat first c!"0b11111_0000100_xxxx" &&
      matchesPat second c!"0bxxxx_1x01_xxxxxxxx" then .strT4
  else .other

/-- The variables of the loop, and the result of the analysis. -/
structure ThumbState where
  bls : List Int
  bs : List Int
  indirect : Bool
  modifiesSp : Bool
  stack : Option Nat
  deriving DecidableEq, Repr

/-- The initial values (thumb.rs:35-50). -/
def ThumbState.init : ThumbState := ⟨[], [], false, false, some 0⟩

/-- `modifies_sp = true; if let Some(stack) = stack.as_mut() { *stack += n }` -/
def ThumbState.subSp (st : ThumbState) (n : Nat) : ThumbState :=
  { st with modifiesSp := true, stack := st.stack.map (· + n) }

/-- The common end of the B arms (thumb.rs:145-150, 161-166, 482-487, 516-521): a branch into the
function itself gives up the stack analysis; `len` is `bytes.len()`. -/
def ThumbState.branch (st : ThumbState) (len : Nat) (imm32 : Int) : ThumbState :=
  { st with
    stack := if 0 ≤ imm32 ∧ imm32 < len then none else st.stack
    bs := st.bs ++ [imm32] }

/-- thumb.rs:138-143 -/
def offB1 (i : Nat) (first : Half) : Int := signExtend (first.1 <<< 1) 9 + (2 * i + 4)

/-- thumb.rs:154-160 -/
def offB2 (i : Nat) (first : Half) : Int :=
  signExtend ((((first.2 &&& 7) <<< 8) ||| first.1) <<< 1) 12 + (2 * i + 4)

/-- The number 1 or 0 of a bit. -/
def bit (b : Bool) : Nat := if b then 1 else 0

/-- thumb.rs:466-480 -/
def offB3 (i : Nat) (first second : Half) : Int :=
  let s := (first.2 >>> 2) &&& 1 == 1
  let imm6 := first.1 &&& 0x3F
  let j1 := second.2 &&& (1 <<< 5) != 0
  let j2 := second.2 &&& (1 <<< 3) != 0
  let imm11 := ((second.2 &&& 7) <<< 8) ||| second.1
  let imm21 := (bit s <<< 20) ||| (bit j1 <<< 19) ||| (bit j2 <<< 18) ||| (imm6 <<< 12) |||
    (imm11 <<< 1)
  signExtend imm21 21 + (2 * i + 4)

/-- thumb.rs:495-514 (B T4) and thumb.rs:528-545 (BL); the former adds where the latter ORs the
disjoint parts of `imm10` and `imm11`. -/
def offB4 (i : Nat) (first second : Half) : Int :=
  let s := (first.2 >>> 2) &&& 1 == 1
  let imm10 := ((first.2 &&& 3) <<< 8) + first.1
  let j1 := second.2 &&& (1 <<< 5) != 0
  let j2 := second.2 &&& (1 <<< 3) != 0
  let imm11 := ((second.2 &&& 7) <<< 8) + second.1
  let i1 := bit (!(j1 ^^ s))
  let i2 := bit (!(j2 ^^ s))
  let imm25 := (bit s <<< 24) ||| (i1 <<< 23) ||| (i2 <<< 22) ||| (imm10 <<< 12) ||| (imm11 <<< 1)
  signExtend imm25 25 + (2 * i + 4)

/-- thumb.rs:528-545 -/
def offBl (i : Nat) (first second : Half) : Int :=
  let s := (first.2 >>> 2) &&& 1 == 1
  let imm10 := ((first.2 &&& 3) <<< 8) ||| first.1
  let j1 := second.2 &&& (1 <<< 5) == 1 <<< 5
  let j2 := second.2 &&& (1 <<< 3) == 1 <<< 3
  let imm11 := ((second.2 &&& 7) <<< 8) ||| second.1
  let i1 := bit (!(j1 ^^ s))
  let i2 := bit (!(j2 ^^ s))
  let imm25 := (bit s <<< 24) ||| (i1 <<< 23) ||| (i2 <<< 22) ||| (imm10 <<< 12) ||| (imm11 <<< 1)
  signExtend imm25 25 + (2 * i + 4)

/-- The bodies of the arms for 16-bit instructions. -/
def step16 (len i : Nat) (first : Half) (st : ThumbState) : Act16 → ThumbState
  | .skip => st
  | .bT1 => st.branch len (offB1 i first)
  | .bT2 => st.branch len (offB2 i first)
  | .blx => { st with indirect := true }
  | .bx => if (first.1 >>> 3) &&& 0xF != 0b1110 then { st with indirect := true } else st
  | .push => st.subSp (4 * popcount16 (((first.2 &&& 1) <<< 14) ||| first.1))
  | .subSp => st.subSp ((first.1 &&& 0x7F) <<< 2)

/-- The bodies of the arms for 32-bit instructions. (The two `assert_ne!` on `cond` in the B T1 arm
cannot fail because UDF and SVC are matched first.) -/
def step32 (len i : Nat) (first second : Half) (st : ThumbState) : Act32 → ThumbState
  | .stmdb =>
    if first.1 &&& 0xF = 0b1101 then
      st.subSp (4 * popcount16
        ((((second.2 >>> 6) &&& 1) <<< 14) ||| (((second.2 &&& 0x1F) <<< 8) ||| second.1)))
    else st
  | .subW =>
    if second.2 &&& 0xF = 0b1101 then
      st.subSp (thumbExpandImm
        ((((first.2 >>> 2) &&& 1) <<< 11) ||| (((second.2 >>> 4) &&& 7) <<< 8) ||| second.1))
    else st
  | .vpush => st.subSp ((second.1 &&& 0xFF) <<< 2)
  | .bT3 =>
    let cond := ((first.2 &&& 3) <<< 2) ||| (first.1 >>> 6)
    if cond >>> 1 = 0b111 then st else st.branch len (offB3 i first second)
  | .bT4 => st.branch len (offB4 i first second)
  | .bl => { st with bls := st.bls ++ [offBl i first second] }
  | .strT4 => if first.1 &&& 0xF = 0b1101 then st.subSp (second.1 &&& 0xFF) else st
  | .other => st

/-- `tags.binary_search_by(..)` on a list sorted by address: some entry with the address if there is
one. Which one is found among several with the same address is not specified by the Rust standard
library, so the search function is a parameter. -/
structure TagSearch where
  find : List (Nat × Tag) → Nat → Option Nat
  sound : ∀ l a i, find l a = some i → ∃ t, l[i]? = some (a, t)
  complete : ∀ l a, l.Pairwise (fun x y => x.1 ≤ y.1) → find l a = none → ∀ e ∈ l, e.1 ≠ a

/-- What the tags say at an address (thumb.rs:54-81). -/
inductive TagAct where
  /-- decode the halfword -/
  | code
  /-- skip this many more halfwords after the current one -/
  | skip (n : Nat)
  /-- stop decoding -/
  | stop
  deriving DecidableEq, Repr

/-- thumb.rs:54-81; `end - start` cannot underflow since the tags are sorted. -/
def tagAct (search : TagSearch) (tags : List (Nat × Tag)) (start : Nat) : Except Panic TagAct :=
  match search.find tags start with
  | none => .ok .code
  | some needle =>
    match tags[needle]? with
    | some (_, .data) =>
      match tags[needle + 1]? with
      | some (stop, .thumb) => .ok (.skip ((stop - start) / 2 - 1))
      | some (_, .data) => .error .expectedThumbTag
      | none => .ok .stop
    | _ => .ok .code

/-- The `while` loop (thumb.rs:51-567). `skip` halfwords still have to be skipped; `i` is the index of
the next halfword; `len` is `bytes.len()`. -/
def thumbLoop (search : TagSearch) (address : Nat) (v7 : Bool) (tags : List (Nat × Tag)) (len : Nat) :
    Nat → Nat → List Half → ThumbState → Except Panic ThumbState
  | _, _, [], st => .ok st
  | skip + 1, i, _ :: rest, st => thumbLoop search address v7 tags len skip (i + 1) rest st
  | 0, i, first :: rest, st =>
    match tagAct search tags (address + 2 * i) with
    | .error e => .error e
    | .ok .stop => .ok st
    | .ok (.skip n) => thumbLoop search address v7 tags len n (i + 1) rest st
    | .ok .code =>
      match decode16 v7 first with
      | some act => thumbLoop search address v7 tags len 0 (i + 1) rest (step16 len i first st act)
      | none =>
        match rest with
        | [] => .error .unknownInstruction
        | second :: rest' =>
          thumbLoop search address v7 tags len 0 (i + 2) rest'
            (step32 len i first second st (decode32 v7 first second))

/-- `bytes.chunks_exact(2)`: a trailing odd byte is ignored. -/
def chunks2 : List Nat → List Half
  | a :: b :: rest => (a, b) :: chunks2 rest
  | _ => []

/-- `pub fn analyze` (thumb.rs:6-570). -/
def thumbAnalyze (search : TagSearch) (bytes : List Nat) (address : Nat) (v7 : Bool)
    (tags : List (Nat × Tag)) : Except Panic ThumbState :=
  thumbLoop search address v7 tags bytes.length 0 0 (chunks2 bytes) ThumbState.init

end CallStack
