import Verif.Model.Names
import Verif.Model.Types

/-!
Program data as the tool sees it after reading its inputs, and the pass over the symbols of the
executable (src/main.rs:395-543).

Hash maps and B-tree maps are lists of entries with distinct keys (`mget`, `mset`).
-/

namespace CallStack

/-! ### Maps and sets -/

/-- `HashMap::get` / `BTreeMap::get`. -/
def mget {κ β : Type} [DecidableEq κ] (k : κ) : List (κ × β) → Option β
  | [] => none
  | (k', v) :: rest => if k' = k then some v else mget k rest

/-- `HashMap::insert` / `BTreeMap::insert`: replaces the value of an existing key. -/
def mset {κ β : Type} [DecidableEq κ] (k : κ) (v : β) : List (κ × β) → List (κ × β)
  | [] => [(k, v)]
  | (k', v') :: rest => if k' = k then (k', v) :: rest else (k', v') :: mset k v rest

/-- `HashSet::insert`. -/
def sinsert {α : Type} [DecidableEq α] (a : α) (s : List α) : List α :=
  if s.contains a then s else s ++ [a]

/-! ### Inputs -/

/-- `enum Target` (main.rs:1516-1521). -/
inductive Target where
  | other
  | thumbv6m
  | thumbv7m
  deriving DecidableEq, Repr

/-- `Target::is_thumb` (main.rs:1523-1530). -/
def Target.isThumb : Target → Bool
  | .thumbv6m | .thumbv7m => true
  | .other => false

/-- main.rs:356-361: which targets have machine code analysis. -/
def targetOf (target : Str) : Target :=
  if target = c!"thumbv6m-none-eabi" then .thumbv6m
  else if target = c!"thumbv7m-none-eabi" ∨ target = c!"thumbv7em-none-eabi" ∨
      target = c!"thumbv7em-none-eabihf" then .thumbv7m
  else .other

/-- A defined function symbol of the executable: `stack_sizes::Function` (`names()`, `size()`). -/
structure Sym where
  names : List Str
  size : Nat
  deriving DecidableEq, Repr

/-- `enum Stmt` (ir/define.rs:20-38). -/
inductive Stmt where
  | asm (expr : Str)
  | bitcastCall (sym : Option Str)
  | directCall (func : Str)
  | indirectCall (sig : FnSig)
  | comment
  | label
  | other
  deriving DecidableEq, Repr

/-- `struct Define` (ir/define.rs:13-18). -/
structure Define where
  name : Str
  sig : FnSig
  stmts : List Stmt
  deriving DecidableEq, Repr

/-- `struct Declare` (ir/item.rs:49-53). -/
structure Declare where
  name : Str
  sig : Option FnSig
  deriving DecidableEq, Repr

/-- Everything the graph construction reads: the symbols of the executable by address (after
main.rs:397-418), the stack sizes, the merged definitions and declarations (main.rs:337-351), in any
order of the hash map. -/
structure Program where
  target : Target
  defined : List (Nat × Sym)
  undefined : List Str
  stackSizes : List (Str × Nat)
  defines : List Define
  declares : List Declare
  deriving DecidableEq, Repr

/-! ### Preparing the symbols -/

/-- main.rs:398-405: `symbols.defined` with the thumb bit of every address cleared. The entries come
in address order and are collected into a new `BTreeMap`, so a later entry replaces an earlier one
with the same cleared address. Clearing keeps the order, so the replaced entry is always the last
one inserted and the list stays in address order. -/
def clearThumb (isThumb : Bool) (defined : List (Nat × Sym)) : List (Nat × Sym) :=
  if isThumb then defined.foldl (fun m e => mset (e.1 / 2 * 2) e.2 m) [] else defined

/-- Split at the last occurrence of `"@@"` (the first step of `rsplit("@@")`). -/
def rsplitAt2 : Str → Option (Str × Str)
  | [] => none
  | c :: s =>
    match rsplitAt2 s with
    | some (a, b) => some (c :: a, b)
    | none =>
      match c, s with
      | '@', '@' :: rest => some ([], rest)
      | _, _ => none

/-- main.rs:408-418: `sym.rsplit("@@").nth(1)` or the whole symbol. -/
def stripVersion (sym : Str) : Str :=
  match rsplitAt2 sym with
  | none => sym
  | some (before, _) =>
    match rsplitAt2 before with
    | none => before
    | some (_, mid) => mid

/-! ### The pass over the defined symbols -/

/-- `struct Indirect` (main.rs:1488-1494). -/
structure Indirect where
  called : Bool
  callers : List Nat
  callees : List Nat
  deriving DecidableEq, Repr

/-- `Indirect::default()`. -/
def Indirect.empty : Indirect := ⟨false, [], []⟩

/-- The local variables of `run` that the graph construction updates (main.rs:420-432, 457-459,
545-550). `edges` is the map from callers to the set of callees seen. The set `llvm_seen` only
controls warnings and is left to `Model/Log`; `default_methods` (main.rs:434-455) is never read and left
out. -/
structure Build where
  g : Graph
  indices : List (Str × Nat)
  indirects : List (FnSig × Indirect)
  fmts : List Nat
  aliases : List (Str × Str)
  ambiguous : List (Str × Nat)
  hasStackUsageInfo : Bool
  hasUntypedSymbols : Bool
  addr2name : List (Nat × Str)
  asmFns : List Str
  edges : List (Nat × List Nat)
  defined : List Str
  deriving DecidableEq, Repr

/-- The initial values of the variables. -/
def Build.empty : Build :=
  { g := Graph.empty, indices := [], indirects := [], fmts := [], aliases := [], ambiguous := []
    hasStackUsageInfo := false, hasUntypedSymbols := false, addr2name := [], asmFns := []
    edges := [], defined := [] }

/-- main.rs:465-474: mapping symbols `$a`, `$x` (ARM, AArch64 code). -/
def isTag (name : Str) : Bool :=
  name == c!"$a" || startsWith name c!"$a." || name == c!"$x" || startsWith name c!"$x."

/-- main.rs:462-477 -/
def realNames (sym : Sym) : List Str := sym.names.filter (fun n => !isTag n)

/-- main.rs:479-489: the canonical name among the names without tags; `names[0]` panics on an empty
list. -/
def canonicalOf (stackSizes : List (Str × Nat)) (names : List Str) : Except Panic Str :=
  match names with
  | [] => .error .noNames
  | [n] => .ok n
  | n :: rest =>
    match (n :: rest).find? (fun name => (mget name stackSizes).isSome) with
    | some needle => .ok needle
    | none => .ok n

/-- `defines.get(name)` -/
def getDefine (defines : List Define) (name : Str) : Option Define :=
  defines.find? (fun d => d.name = name)

/-- `declares.get(name)` -/
def getDeclare (declares : List Declare) (name : Str) : Option Declare :=
  declares.find? (fun d => d.name = name)

/-- main.rs:514: the first name that has a definition. -/
def firstDefine (defines : List Define) (names : List Str) : Option Define :=
  (names.filterMap (getDefine defines)).head?

/-- main.rs:531-534: the signature of the first name with a declared signature. -/
def firstDeclared (declares : List Declare) (names : List Str) : Option FnSig :=
  (names.filterMap (fun name => (getDeclare declares name).bind (·.sig))).head?

/-- main.rs:516-520: `fn(&_, &mut fmt::Formatter) -> fmt::Result`. -/
def isFmtSig (sig : FnSig) : Bool :=
  match sig.inputs, sig.output with
  | [.pointer _, .pointer fmt], some output =>
    fmt == .alias c!"core::fmt::Formatter" && output == .integer 1
  | _, _ => false

/-- `indirects.entry(sig).or_default().callees.insert(idx)` (main.rs:526-530, 536). -/
def addCallee (sig : FnSig) (idx : Nat) (indirects : List (FnSig × Indirect)) :
    List (FnSig × Indirect) :=
  let i := (mget sig indirects).getD Indirect.empty
  mset sig { i with callees := sinsert idx i.callees } indirects

/-- main.rs:514-542: register the type of the symbol with node `idx`. -/
def registerType (p : Program) (names : List Str) (canonical : Str) (idx : Nat) (st : Build) : Build :=
  match firstDefine p.defines names with
  | some d =>
    { st with
      fmts := if isFmtSig d.sig then sinsert idx st.fmts else st.fmts
      indirects := addCallee d.sig idx st.indirects }
  | none =>
    match firstDeclared p.declares names with
    | some sig => { st with indirects := addCallee sig idx st.indirects }
    | none => if isOutlined canonical then st else { st with hasUntypedSymbols := true }

/-- main.rs:460-543: one iteration of the loop over the defined symbols. The `debug_assert` on
`addr2name` cannot fail since addresses are distinct keys. -/
def symStep (demangle : Str → Str) (p : Program) (st : Build) (e : Nat × Sym) : Except Panic Build :=
  let names := realNames e.2
  match canonicalOf p.stackSizes names with
  | .error err => .error err
  | .ok canonical =>
    let stack := mget canonical p.stackSizes
    let (g, idx) := st.g.addNode (mkNode canonical stack false)
    .ok <| registerType p names canonical idx
      { st with
        g
        aliases := names.foldl (fun m name => mset name canonical m) st.aliases
        addr2name := mset e.1 canonical st.addr2name
        hasStackUsageInfo := st.hasStackUsageInfo || stack.isSome
        ambiguous := countName demangle st.ambiguous canonical
        indices := mset canonical idx st.indices }

/-- main.rs:460-543: the whole loop. -/
def symPass (demangle : Str → Str) (p : Program) : Build → List (Nat × Sym) → Except Panic Build
  | st, [] => .ok st
  | st, e :: rest =>
    match symStep demangle p st e with
    | .error err => .error err
    | .ok st' => symPass demangle p st' rest

end CallStack
