import Verif.Model.Build
import Verif.Model.Analysis
import Verif.Model.Thumb

/-!
The pass over the machine code of thumb executables (src/main.rs:766-953).
-/

namespace CallStack

/-- The parts of the ELF file this pass reads: `.symtab` entries (value and name) in file order, and
address and contents of `.text` if that section exists. -/
structure Elf where
  symtab : List (Nat × Str)
  text : Option (Nat × List Nat)
  deriving DecidableEq, Repr

/-- main.rs:777-787: the tag of one symbol table entry; `value() as u32` keeps 32 bits. -/
def tagOf (entry : Nat × Str) : Option (Nat × Tag) :=
  if startsWith entry.2 c!"$d" then some (entry.1 % 2 ^ 32, .data)
  else if startsWith entry.2 c!"$t" then some (entry.1 % 2 ^ 32, .thumb)
  else none

/-- Insert before the first entry with a greater or equal address. -/
def insertTag (t : Nat × Tag) : List (Nat × Tag) → List (Nat × Tag)
  | [] => [t]
  | u :: l => if t.1 ≤ u.1 then t :: u :: l else u :: insertTag t l

/-- `tags.sort_by(|a, b| a.0.cmp(&b.0))` (main.rs:792), a stable sort. -/
def sortTags : List (Nat × Tag) → List (Nat × Tag)
  | [] => []
  | t :: l => insertTag t (sortTags l)

/-- main.rs:773-792 -/
def elfTags (symtab : List (Nat × Str)) : List (Nat × Tag) := sortTags (symtab.filterMap tagOf)

/-- main.rs:801-816: the size of a symbol; a size of 0 is replaced by the distance to the next tag if
both tags are thumb tags. -/
def symSize (search : TagSearch) (tags : List (Nat × Tag)) (address size : Nat) : Nat :=
  if size ≠ 0 then size
  else
    match search.find tags address with
    | none => size
    | some needle =>
      match tags[needle]?, tags[needle + 1]? with
      | some (start, .thumb), some (stop, .thumb) => stop - start
      | _, _ => size

/-- `g[i].local = l` -/
def Graph.setLocal (g : Graph) (i : Nat) (l : Local) : Graph :=
  { g with nodes := g.nodes.modify i (fun nd => { nd with loc := l }) }

/-- main.rs:838-877: the LLVM figure `n`, possibly overridden by our figure `stack`. -/
def overrideExact (n : Nat) (ourStack : Option Nat) (hasAsm outlined : Bool) : Except Panic Nat :=
  match ourStack with
  | none => .ok n
  | some stack =>
    if n ≠ stack ∧ hasAsm then .ok stack
    else if outlined then
      if n = 0 ∧ stack ≠ n then .ok stack else .ok n
    else if n = stack then .ok n
    else .error .llvmVsOurs

/-- main.rs:827-895: the new local usage of a function. -/
def overrideLocal (llvm : Local) (ourStack : Option Nat) (modifiesSp hasAsm outlined : Bool) :
    Except Panic Local :=
  if ourStack.any (fun stack => decide (stack ≠ 0) != modifiesSp) then .error .stackVsSp
  else
    match llvm with
    | .exact n =>
      match overrideExact n ourStack hasAsm outlined with
      | .error e => .error e
      | .ok n' => if decide (n' ≠ 0) != modifiesSp then .error .llvmVsSp else .ok (.exact n')
    | .unknown =>
      match ourStack with
      | some stack => .ok (.exact stack)
      | none => if !modifiesSp then .ok (.exact 0) else .ok .unknown

/-- main.rs:919-925, 935-943: the edge to the function at an address. -/
def callAddr (caller : Nat) (st : Build) (addr : Nat) : Except Panic Build :=
  match mget addr st.addr2name with
  | none => .error (.noSymbolAt addr)
  | some name =>
    match mget name st.indices with
    | none => .error (.missingKey name)
    | some callee => .ok (st.call caller callee)

/-- main.rs:916-928: the BL targets. `(address as i64 + offset) as u64`: a negative sum is a number
above any 32-bit address, so no symbol is found. -/
def blLoop (caller address : Nat) : Build → List Int → Except Panic Build
  | st, [] => .ok st
  | st, off :: rest =>
    match callAddr caller st ((address + off) % 2 ^ 64).toNat with
    | .error e => .error e
    | .ok st' => blLoop caller address st' rest

/-- main.rs:930-948: the B targets. `(address as i32 + offset) as u32`. -/
def bLoop (caller address size : Nat) : Build → List Int → Except Panic Build
  | st, [] => .ok st
  | st, off :: rest =>
    let addr := ((address + off) % 2 ^ 32).toNat
    if address ≤ addr ∧ addr < address + size then bLoop caller address size st rest
    else
      match callAddr caller st addr with
      | .error e => .error e
      | .ok st' => bLoop caller address size st' rest

/-- `&text[start..end]` (main.rs:818-820); `address - stext` panics on underflow. -/
def textSlice (stext : Nat) (text : List Nat) (address size : Nat) : Except Panic (List Nat) :=
  if address < stext then .error .sliceRange
  else if address - stext + size ≤ text.length then
    .ok ((text.drop (address - stext)).take size)
  else .error .sliceRange

/-- main.rs:904-914: an indirect call in a function without LLVM-IR definition. -/
def Build.unknownCallee (st : Build) (caller : Nat) : Build :=
  let (g, callee) := st.g.addNode (mkNode c!"?" none false)
  { st with g := g.addEdge caller callee }

/-- main.rs:822-948: what is done with the result of the machine code analysis of one function. -/
def useThumb (r : ThumbState) (canonical : Str) (address size : Nat) (st : Build) :
    Except Panic Build :=
  match mget canonical st.indices with
  | none => .error (.missingKey canonical)
  | some caller =>
    match st.g.localAt caller with
    | .error e => .error e
    | .ok llvm =>
      match overrideLocal llvm r.stack r.modifiesSp (st.asmFns.contains canonical)
          (isOutlined canonical) with
      | .error e => .error e
      | .ok loc =>
        let st := { st with g := st.g.setLocal caller loc }
        let st := if !st.defined.contains canonical && r.indirect then st.unknownCallee caller else st
        let st := { st with edges := mset caller (st.seen caller) st.edges }
        match blLoop caller address st r.bls with
        | .error e => .error e
        | .ok st => bLoop caller address size st r.bs

/-- main.rs:796-949: one symbol. -/
def machineStep (search : TagSearch) (v7 : Bool) (tags : List (Nat × Tag)) (stext : Nat)
    (text : List Nat) (st : Build) (e : Nat × Sym) : Except Panic Build :=
  match e.2.names with
  | [] => .error .noNames
  | first :: _ =>
    match mget first st.aliases with
    | none => .error (.missingKey first)
    | some canonical =>
      let address := e.1 % 2 ^ 32
      let size := symSize search tags address (e.2.size % 2 ^ 32)
      match textSlice stext text address size with
      | .error err => .error err
      | .ok bytes =>
        match thumbAnalyze search bytes address v7 tags with
        | .error err => .error err
        | .ok r => useThumb r canonical address size st

/-- main.rs:796-949: all symbols. -/
def machineLoop (search : TagSearch) (v7 : Bool) (tags : List (Nat × Tag)) (stext : Nat)
    (text : List Nat) : Build → List (Nat × Sym) → Except Panic Build
  | st, [] => .ok st
  | st, e :: rest =>
    match machineStep search v7 tags stext text st e with
    | .error err => .error err
    | .ok st' => machineLoop search v7 tags stext text st' rest

/-- main.rs:770-953. Without a `.text` section only an error is logged. -/
def machinePass (search : TagSearch) (p : Program) (elf : Elf) (st : Build) : Except Panic Build :=
  if p.target.isThumb then
    match elf.text with
    | none => .ok st
    | some (stext, text) =>
      machineLoop search (p.target == .thumbv7m) (elfTags elf.symtab) stext text st p.defined
  else .ok st

end CallStack
