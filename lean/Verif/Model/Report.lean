import Verif.Model.Run

/-!
The messages of the panics of the graph construction (src/main.rs:581, 712-716, 730-734, 829-891, 922, 940,
src/thumb.rs:12-26, 60-65). The functions of `Model/Thumb` and `Model/Machine` that panic are repeated here with
the data of the message instead of the kind of panic alone. `assert_eq!` shows its two operands after the message;
they are left out, and so are the messages of the standard library (indexing, slicing, overflow).
-/

namespace CallStack

/-- A panic with the data that its message shows. -/
inductive Report where
  /-- `expect(..)` main.rs:581 -/
  | unnamed
  /-- `assert!` main.rs:712-716 -/
  | intrinsic (func : Str)
  /-- `assert!` main.rs:730-734 -/
  | callee (func : Str)
  /-- `assert_eq!` main.rs:829-837 -/
  | stackVsSp (name : Str) (stack : Nat) (modifiesSp : Bool)
  /-- `assert_eq!` main.rs:873-878 -/
  | llvmVsOurs (name : Str) (llvm : Nat)
  /-- `assert_eq!` main.rs:882-889 -/
  | llvmVsSp (name : Str) (llvm : Nat)
  /-- `panic!` main.rs:922, 940 -/
  | symbol (addr : Nat)
  /-- `bug!(first)` thumb.rs:384 -/
  | instruction (first : Half)
  /-- `assert_eq!` thumb.rs:60-65 -/
  | tag (addr : Nat)
  /-- a message of the standard library -/
  | standard (e : Panic)
  deriving DecidableEq, Repr

/-- The kind of panic. -/
def Report.kind : Report → Panic
  | .unnamed => .unnamedBitcast
  | .intrinsic func => .unhandledIntrinsic func
  | .callee func => .unknownCallee func
  | .stackVsSp _ _ _ => .stackVsSp
  | .llvmVsOurs _ _ => .llvmVsOurs
  | .llvmVsSp _ _ => .llvmVsSp
  | .symbol addr => .noSymbolAt addr
  | .instruction _ => .unknownInstruction
  | .tag _ => .expectedThumbTag
  | .standard e => e

/-- The panics whose data is in their kind. -/
def Report.ofPanic : Panic → Report
  | .unnamedBitcast => .unnamed
  | .unhandledIntrinsic func => .intrinsic func
  | .unknownCallee func => .callee func
  | .noSymbolAt addr => .symbol addr
  | e => .standard e

/-- A hexadecimal digit. -/
def hexChar (d : Nat) : Char := if d < 10 then Char.ofNat (48 + d) else Char.ofNat (87 + d)

/-- `LowerHex` for unsigned integers. (Recursion on a bound of the number of digits.) -/
def showHexAux : Nat → Nat → Str
  | 0, n => [hexChar (n % 16)]
  | fuel + 1, n => if n < 16 then [hexChar n] else showHexAux fuel (n / 16) ++ [hexChar (n % 16)]

/-- `{:x}` -/
def showHex (n : Nat) : Str := showHexAux n n

/-- `{:02x}` of a byte -/
def hex02 (n : Nat) : Str := List.replicate (2 - (showHex n).length) '0' ++ showHex n

/-- `{:#10x}`: with the prefix `0x`, and blanks on the left up to ten characters -/
def hexAddr (n : Nat) : Str :=
  let s := c!"0x" ++ showHex n
  List.replicate (10 - s.length) ' ' ++ s

/-- The message, if it is not one of the standard library. -/
def Report.text : Report → Option Str
  | .unnamed => some c!"BUG? unnamed symbol is being invoked"
  | .intrinsic func => some (c!"BUG: unhandled llvm intrinsic: " ++ func)
  | .callee func => some (c!"BUG: callee `" ++ func ++ c!"` is unknown")
  | .stackVsSp name stack modifiesSp =>
    some (c!"BUG: our analysis reported that `" ++ name ++ c!"` both uses " ++ showNat stack ++
      c!" bytes of stack and it does" ++ (if !modifiesSp then c!" not" else []) ++ c!" modify SP")
  | .llvmVsOurs name llvm =>
    some (c!"BUG: LLVM reported that `" ++ name ++ c!"` uses " ++ showNat llvm ++
      c!" bytes of stack but this doesn't match our analysis")
  | .llvmVsSp name llvm =>
    some (c!"BUG: LLVM reported that `" ++ name ++ c!"` uses " ++ showNat llvm ++
      c!" bytes of stack but this doesn't match our analysis")
  | .symbol addr => some (c!"BUG? no symbol at address " ++ showNat addr)
  | .instruction first => some (c!"BUG: unknown instruction " ++ hex02 first.2 ++ hex02 first.1)
  | .tag addr =>
    some (c!"BUG: expected a thumb tag at " ++ hexAddr addr ++ c!" but found another data tag")
  | .standard _ => none

/-- thumb.rs:54-81 -/
def tagReport (search : TagSearch) (tags : List (Nat × Tag)) (start : Nat) : Except Report TagAct :=
  match search.find tags start with
  | none => .ok .code
  | some needle =>
    match tags[needle]? with
    | some (_, .data) =>
      match tags[needle + 1]? with
      | some (stop, .thumb) => .ok (.skip ((stop - start) / 2 - 1))
      | some (stop, .data) => .error (.tag stop)
      | none => .ok .stop
    | _ => .ok .code

/-- thumb.rs:51-567 -/
def thumbLoopReport (search : TagSearch) (address : Nat) (v7 : Bool) (tags : List (Nat × Tag)) (len : Nat) :
    Nat → Nat → List Half → ThumbState → Except Report ThumbState
  | _, _, [], st => .ok st
  | skip + 1, i, _ :: rest, st => thumbLoopReport search address v7 tags len skip (i + 1) rest st
  | 0, i, first :: rest, st =>
    match tagReport search tags (address + 2 * i) with
    | .error e => .error e
    | .ok .stop => .ok st
    | .ok (.skip n) => thumbLoopReport search address v7 tags len n (i + 1) rest st
    | .ok .code =>
      match decode16 v7 first with
      | some act => thumbLoopReport search address v7 tags len 0 (i + 1) rest (step16 len i first st act)
      | none =>
        match rest with
        | [] => .error (.instruction first)
        | second :: rest' =>
          thumbLoopReport search address v7 tags len 0 (i + 2) rest'
            (step32 len i first second st (decode32 v7 first second))

/-- thumb.rs:6-570 -/
def thumbReport (search : TagSearch) (bytes : List Nat) (address : Nat) (v7 : Bool)
    (tags : List (Nat × Tag)) : Except Report ThumbState :=
  thumbLoopReport search address v7 tags bytes.length 0 0 (chunks2 bytes) ThumbState.init

/-- main.rs:838-877 -/
def overrideExactReport (name : Str) (n : Nat) (ourStack : Option Nat) (hasAsm outlined : Bool) :
    Except Report Nat :=
  match ourStack with
  | none => .ok n
  | some stack =>
    if n ≠ stack ∧ hasAsm then .ok stack
    else if outlined then
      if n = 0 ∧ stack ≠ n then .ok stack else .ok n
    else if n = stack then .ok n
    else .error (.llvmVsOurs name n)

/-- main.rs:827-895 -/
def overrideReport (name : Str) (llvm : Local) (ourStack : Option Nat)
    (modifiesSp hasAsm outlined : Bool) : Except Report Local :=
  match ourStack with
  | some stack =>
    if decide (stack ≠ 0) != modifiesSp then .error (.stackVsSp name stack modifiesSp)
    else
      match llvm with
      | .exact n =>
        match overrideExactReport name n ourStack hasAsm outlined with
        | .error e => .error e
        | .ok n' => if decide (n' ≠ 0) != modifiesSp then .error (.llvmVsSp name n') else .ok (.exact n')
      | .unknown => .ok (.exact stack)
  | none =>
    match llvm with
    | .exact n => if decide (n ≠ 0) != modifiesSp then .error (.llvmVsSp name n) else .ok (.exact n)
    | .unknown => if !modifiesSp then .ok (.exact 0) else .ok .unknown

/-- What a panic without further data says. -/
def reported {α : Type} : Except Panic α → Except Report α
  | .ok x => .ok x
  | .error e => .error (Report.ofPanic e)

/-- main.rs:822-948 -/
def useThumbReport (r : ThumbState) (canonical : Str) (address size : Nat) (st : Build) :
    Except Report Build :=
  match mget canonical st.indices with
  | none => .error (.standard (.missingKey canonical))
  | some caller =>
    match st.g.localAt caller with
    | .error e => .error (.standard e)
    | .ok llvm =>
      match overrideReport canonical llvm r.stack r.modifiesSp (st.asmFns.contains canonical)
          (isOutlined canonical) with
      | .error e => .error e
      | .ok loc =>
        let st := { st with g := st.g.setLocal caller loc }
        let st := if !st.defined.contains canonical && r.indirect then st.unknownCallee caller else st
        let st := { st with edges := mset caller (st.seen caller) st.edges }
        match reported (blLoop caller address st r.bls) with
        | .error e => .error e
        | .ok st => reported (bLoop caller address size st r.bs)

/-- main.rs:796-949: one symbol. -/
def machineStepReport (search : TagSearch) (v7 : Bool) (tags : List (Nat × Tag)) (stext : Nat)
    (text : List Nat) (st : Build) (e : Nat × Sym) : Except Report Build :=
  match e.2.names with
  | [] => .error (.standard .noNames)
  | first :: _ =>
    match mget first st.aliases with
    | none => .error (.standard (.missingKey first))
    | some canonical =>
      let address := e.1 % 2 ^ 32
      let size := symSize search tags address (e.2.size % 2 ^ 32)
      match textSlice stext text address size with
      | .error err => .error (.standard err)
      | .ok bytes =>
        match thumbReport search bytes address v7 tags with
        | .error err => .error err
        | .ok r => useThumbReport r canonical address size st

/-- main.rs:796-949: all symbols. -/
def machineLoopReport (search : TagSearch) (v7 : Bool) (tags : List (Nat × Tag)) (stext : Nat)
    (text : List Nat) : Build → List (Nat × Sym) → Except Report Build
  | st, [] => .ok st
  | st, e :: rest =>
    match machineStepReport search v7 tags stext text st e with
    | .error err => .error err
    | .ok st' => machineLoopReport search v7 tags stext text st' rest

/-- main.rs:770-953. -/
def machineReport (search : TagSearch) (p : Program) (elf : Elf) (st : Build) : Except Report Build :=
  if p.target.isThumb then
    match elf.text with
    | none => .ok st
    | some (stext, text) =>
      machineLoopReport search (p.target == .thumbv7m) (elfTags elf.symtab) stext text st p.defined
  else .ok st

/-- main.rs:420-1233 -/
def runReport (demangle : Str → Str) (ord : HashOrder) (search : TagSearch) (p : Program) (elf : Elf)
    (start : Option Str) (format : OutputFormat) : Except Report Str :=
  match reported (irGraph demangle p) with
  | .error e => .error e
  | .ok st =>
    match machineReport search p elf st with
    | .error e => .error e
    | .ok st =>
      match reported (applyStart demangle st.indices start (addIndirects ord st)) with
      | .error e => .error e
      | .ok g =>
        match reported (analyzeMax st.hasStackUsageInfo g) with
        | .error e => .error e
        | .ok (g, cycles) =>
          match reported (shortenNodes demangle st.ambiguous g.nodes) with
          | .error e => .error e
          | .ok nodes =>
            match format with
            | .dot => .ok (dotText demangle { g with nodes } cycles)
            | .top => .ok (topText demangle { g with nodes })

end CallStack
