import Verif.Model.Machine

/-!
The machine code pass with the machine words of the code: `i32`, `u32` and `u64` as in thumb.rs and
main.rs:766-953, where `Model/Thumb` and `Model/Machine` use unbounded numbers. Only the arithmetic
that can leave its type is different; everything else is shared. What happens on overflow depends on
the build: with overflow checks it is a panic, in a release build the result wraps around.
-/

namespace CallStack

/-- `overflow-checks` of the build profile. -/
inductive Overflow where
  | checked
  | wraps
  deriving DecidableEq, Repr

/-- A result in a type with the values `lo ≤ x < lo + 2^bits`. -/
def inWord (m : Overflow) (lo : Int) (bits : Nat) (x : Int) : Except Panic Int :=
  if lo ≤ x ∧ x < lo + 2 ^ bits then .ok x
  else
    match m with
    | .checked => .error .overflow
    | .wraps => .ok ((x - lo) % 2 ^ bits + lo)

/-- Result of an operation on `i32`. -/
def i32 (m : Overflow) (x : Int) : Except Panic Int := inWord m (-2 ^ 31) 32 x

/-- Result of an operation on `u32`. -/
def u32 (m : Overflow) (x : Int) : Except Panic Int := inWord m 0 32 x

/-- Result of an operation on `u64`. -/
def u64 (m : Overflow) (x : Int) : Except Panic Int := inWord m 0 64 x

/-- `_ as i32` -/
def asI32 (x : Int) : Int := (x + 2 ^ 31) % 2 ^ 32 - 2 ^ 31

/-- `_ as u32` -/
def asU32 (x : Int) : Nat := (x % 2 ^ 32).toNat

/-- `imm32 += 2 * i + 4` (thumb.rs:143, 160, 480, 514, 545), all `i32`. -/
def offsetW (m : Overflow) (imm32 i : Int) : Except Panic Int :=
  (i32 m (2 * i)).bind fun x => (i32 m (x + 4)).bind fun y => i32 m (imm32 + y)

/-- `if let Some(stack) = stack.as_mut() { *stack += n }` with `stack: Option<u64>`. -/
def addStackW (m : Overflow) (stack : Option Nat) (n : Nat) : Except Panic (Option Nat) :=
  match stack with
  | none => .ok none
  | some s => (u64 m (s + n)).bind fun s' => .ok (some s'.toNat)

/-- `modifies_sp = true` and the addition. -/
def ThumbState.subSpW (m : Overflow) (st : ThumbState) (n : Nat) : Except Panic ThumbState :=
  (addStackW m st.stack n).bind fun s => .ok { st with modifiesSp := true, stack := s }

/-- The common end of the B arms. -/
def ThumbState.branchW (m : Overflow) (st : ThumbState) (len : Nat) (imm32 i : Int) :
    Except Panic ThumbState :=
  (offsetW m imm32 i).bind fun off => .ok (st.branch len off)

/-- The bodies of the arms for 16-bit instructions, see `step16`. -/
def step16W (m : Overflow) (len : Nat) (i : Int) (first : Half) (st : ThumbState) :
    Act16 → Except Panic ThumbState
  | .skip => .ok st
  | .bT1 => st.branchW m len (signExtend (first.1 <<< 1) 9) i
  | .bT2 => st.branchW m len (signExtend ((((first.2 &&& 7) <<< 8) ||| first.1) <<< 1) 12) i
  | .blx => .ok { st with indirect := true }
  | .bx => .ok (if (first.1 >>> 3) &&& 0xF != 0b1110 then { st with indirect := true } else st)
  | .push => st.subSpW m (4 * popcount16 (((first.2 &&& 1) <<< 14) ||| first.1))
  | .subSp => st.subSpW m ((first.1 &&& 0x7F) <<< 2)

/-- The bodies of the arms for 32-bit instructions, see `step32`. The offsets before the last addition
are those of instruction 0 without its 4, so that the bit fields are the ones of `offB3`, `offB4` and
`offBl`. -/
def step32W (m : Overflow) (len : Nat) (i : Int) (first second : Half) (st : ThumbState) :
    Act32 → Except Panic ThumbState
  | .stmdb =>
    if first.1 &&& 0xF = 0b1101 then
      st.subSpW m (4 * popcount16
        ((((second.2 >>> 6) &&& 1) <<< 14) ||| (((second.2 &&& 0x1F) <<< 8) ||| second.1)))
    else .ok st
  | .subW =>
    if second.2 &&& 0xF = 0b1101 then
      st.subSpW m (thumbExpandImm
        ((((first.2 >>> 2) &&& 1) <<< 11) ||| (((second.2 >>> 4) &&& 7) <<< 8) ||| second.1))
    else .ok st
  | .vpush => st.subSpW m ((second.1 &&& 0xFF) <<< 2)
  | .bT3 =>
    let cond := ((first.2 &&& 3) <<< 2) ||| (first.1 >>> 6)
    if cond >>> 1 = 0b111 then .ok st else st.branchW m len (offB3 0 first second - 4) i
  | .bT4 => st.branchW m len (offB4 0 first second - 4) i
  | .bl =>
    (offsetW m (offBl 0 first second - 4) i).bind fun off => .ok { st with bls := st.bls ++ [off] }
  | .strT4 => if first.1 &&& 0xF = 0b1101 then st.subSpW m (second.1 &&& 0xFF) else .ok st
  | .other => .ok st

/-- thumb.rs:54-81 with `end - start` of type `u32`. The range `1..n` has `n - 1` elements. -/
def tagActW (m : Overflow) (search : TagSearch) (tags : List (Nat × Tag)) (start : Nat) :
    Except Panic TagAct :=
  match search.find tags start with
  | none => .ok .code
  | some needle =>
    match tags[needle]? with
    | some (_, .data) =>
      match tags[needle + 1]? with
      | some (stop, .thumb) =>
        (u32 m ((stop : Int) - start)).bind fun d => .ok (.skip ((d / 2).toNat - 1))
      | some (_, .data) => .error .expectedThumbTag
      | none => .ok .stop
    | _ => .ok .code

/-- The next number of `0i32..` (thumb.rs:51): the iterator adds one when it yields a number. -/
def nextIndex (m : Overflow) (i : Int) : Except Panic Int := i32 m (i + 1)

/-- The beginning of an iteration (thumb.rs:52-81): the next number of the iterator and what the tags
say at `start = address + 2 * i as u32`. -/
def headW (m : Overflow) (search : TagSearch) (address : Nat) (tags : List (Nat × Tag)) (i : Int) :
    Except Panic (Int × TagAct) :=
  (nextIndex m i).bind fun i' =>
  (u32 m (2 * asU32 i)).bind fun twice =>
  (u32 m (address + twice)).bind fun start =>
  (tagActW m search tags start.toNat).bind fun act => .ok (i', act)

/-- A 32-bit instruction (thumb.rs:384-566), which takes another number of the iterator. -/
def wideW (m : Overflow) (v7 : Bool) (len : Nat) (i i' : Int) (first second : Half)
    (st : ThumbState) : Except Panic (Int × ThumbState) :=
  (nextIndex m i').bind fun i'' =>
  (step32W m len i first second st (decode32 v7 first second)).bind fun st' => .ok (i'', st')

/-- The `while` loop (thumb.rs:51-567), see `thumbLoop`. -/
def thumbLoopW (m : Overflow) (search : TagSearch) (address : Nat) (v7 : Bool)
    (tags : List (Nat × Tag)) (len : Nat) :
    Nat → Int → List Half → ThumbState → Except Panic ThumbState
  | _, _, [], st => .ok st
  | skip + 1, i, _ :: rest, st =>
    match nextIndex m i with
    | .error e => .error e
    | .ok i' => thumbLoopW m search address v7 tags len skip i' rest st
  | 0, i, first :: rest, st =>
    match headW m search address tags i with
    | .error e => .error e
    | .ok (_, .stop) => .ok st
    | .ok (i', .skip n) => thumbLoopW m search address v7 tags len n i' rest st
    | .ok (i', .code) =>
      match decode16 v7 first with
      | some act =>
        match step16W m len i first st act with
        | .error e => .error e
        | .ok st' => thumbLoopW m search address v7 tags len 0 i' rest st'
      | none =>
        match rest with
        | [] => .error .unknownInstruction
        | second :: rest' =>
          match wideW m v7 len i i' first second st with
          | .error e => .error e
          | .ok (i'', st') => thumbLoopW m search address v7 tags len 0 i'' rest' st'

/-- `pub fn analyze` (thumb.rs:6-570). -/
def thumbAnalyzeW (m : Overflow) (search : TagSearch) (bytes : List Nat) (address : Nat) (v7 : Bool)
    (tags : List (Nat × Tag)) : Except Panic ThumbState :=
  thumbLoopW m search address v7 tags bytes.length 0 0 (chunks2 bytes) ThumbState.init

/-- main.rs:801-816 with `end.0 - start.0` of type `u32`. -/
def symSizeW (m : Overflow) (search : TagSearch) (tags : List (Nat × Tag)) (address size : Nat) :
    Except Panic Nat :=
  if size ≠ 0 then .ok size
  else
    match search.find tags address with
    | none => .ok size
    | some needle =>
      match tags[needle]?, tags[needle + 1]? with
      | some (start, .thumb), some (stop, .thumb) =>
        (u32 m ((stop : Int) - start)).bind fun d => .ok d.toNat
      | _, _ => .ok size

/-- main.rs:818-820 with `address - stext` of type `u32`; `start + size as usize` has 64 bits. -/
def textSliceW (m : Overflow) (stext : Nat) (text : List Nat) (address size : Nat) :
    Except Panic (List Nat) :=
  (u32 m ((address : Int) - stext)).bind fun start =>
    if start.toNat + size ≤ text.length then .ok ((text.drop start.toNat).take size)
    else .error .sliceRange

/-- main.rs:930-948 with `(address as i32 + offset) as u32` and `address + size` of type `u32`, the
latter evaluated only if `addr >= address`. -/
def bLoopW (m : Overflow) (caller address size : Nat) : Build → List Int → Except Panic Build
  | st, [] => .ok st
  | st, off :: rest =>
    (i32 m (asI32 address + off)).bind fun sum =>
    let addr := asU32 sum
    (if address ≤ addr then (u32 m (address + size)).bind fun stop => .ok (decide (addr < stop))
      else .ok false).bind fun inside =>
    if inside then bLoopW m caller address size st rest
    else
      match callAddr caller st addr with
      | .error e => .error e
      | .ok st' => bLoopW m caller address size st' rest

/-- main.rs:822-948, see `useThumb`; the sum of `i64`s in the BL loop cannot overflow. -/
def useThumbW (m : Overflow) (r : ThumbState) (canonical : Str) (address size : Nat) (st : Build) :
    Except Panic Build :=
  match mget canonical st.indices with
  | none => .error (.missingKey canonical)
  | some caller =>
    match st.g.localAt caller with
    | .error e => .error e
    | .ok llvm =>
      match overrideLocal llvm r.stack r.modifiesSp (st.asmFns.contains canonical)
          (isOutlined canonical) with
      | .error e => .error e
      | .ok loc =>
        let st := { st with g := st.g.setLocal caller loc }
        let st := if !st.defined.contains canonical && r.indirect then st.unknownCallee caller else st
        let st := { st with edges := mset caller (st.seen caller) st.edges }
        match blLoop caller address st r.bls with
        | .error e => .error e
        | .ok st => bLoopW m caller address size st r.bs

/-- main.rs:796-949: one symbol. `stext` is `sect.address() as u32`. -/
def machineStepW (m : Overflow) (search : TagSearch) (v7 : Bool) (tags : List (Nat × Tag))
    (stext : Nat) (text : List Nat) (st : Build) (e : Nat × Sym) : Except Panic Build :=
  match e.2.names with
  | [] => .error .noNames
  | first :: _ =>
    match mget first st.aliases with
    | none => .error (.missingKey first)
    | some canonical =>
      let address := asU32 e.1
      (symSizeW m search tags address (asU32 e.2.size)).bind fun size =>
      (textSliceW m (asU32 stext) text address size).bind fun bytes =>
      (thumbAnalyzeW m search bytes address v7 tags).bind fun r =>
      useThumbW m r canonical address size st

/-- main.rs:796-949: all symbols. -/
def machineLoopW (m : Overflow) (search : TagSearch) (v7 : Bool) (tags : List (Nat × Tag))
    (stext : Nat) (text : List Nat) : Build → List (Nat × Sym) → Except Panic Build
  | st, [] => .ok st
  | st, e :: rest =>
    (machineStepW m search v7 tags stext text st e).bind fun st' =>
      machineLoopW m search v7 tags stext text st' rest

/-- main.rs:770-953. -/
def machinePassW (m : Overflow) (search : TagSearch) (p : Program) (elf : Elf) (st : Build) :
    Except Panic Build :=
  if p.target.isThumb then
    match elf.text with
    | none => .ok st
    | some (stext, text) =>
      machineLoopW m search (p.target == .thumbv7m) (elfTags elf.symtab) stext text st p.defined
  else .ok st

end CallStack
