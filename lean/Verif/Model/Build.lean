import Verif.Model.Symbols

/-!
Edges from the LLVM-IR (src/main.rs:551-763) and fictitious nodes for indirect calls
(src/main.rs:955-1065).
-/

namespace CallStack

/-- How a direct call to a function of a given name is treated (main.rs:596-716), a function of the
name and of whether the target has machine code analysis. -/
inductive CallKind where
  /-- `continue` without effect -/
  | ignored
  /-- mapped to the memory routines with these names -/
  | memory (routines : List Str)
  /-- `assert!` failure at main.rs:712-716 -/
  | unhandled
  /-- an ordinary function -/
  | plain
  deriving DecidableEq, Repr

/-- main.rs:599-608 -/
def noopIntrinsics : List Str :=
  [c!"llvm.dbg.value", c!"llvm.dbg.declare", c!"llvm.assume", c!"llvm.trap"]

/-- main.rs:614-615 -/
def lifetimePrefixes : List Str := [c!"llvm.lifetime.start", c!"llvm.lifetime.end"]

/-- main.rs:637-648 -/
def memcpyRoutines : List Str := [c!"memcpy", c!"__aeabi_memcpy", c!"__aeabi_memcpy4"]

/-- main.rs:656-679 -/
def memsetRoutines : List Str :=
  [c!"memset", c!"__aeabi_memset", c!"__aeabi_memset4", c!"memclr", c!"__aeabi_memclr",
    c!"__aeabi_memclr4"]

/-- main.rs:685-700 -/
def inlinePrefixes : List Str :=
  [c!"llvm.abs.", c!"llvm.bswap.", c!"llvm.ctlz.", c!"llvm.cttz.", c!"llvm.sadd.with.overflow.",
    c!"llvm.smul.with.overflow.", c!"llvm.ssub.with.overflow.", c!"llvm.uadd.sat.",
    c!"llvm.uadd.with.overflow.", c!"llvm.umax.", c!"llvm.umin.", c!"llvm.umul.with.overflow.",
    c!"llvm.usub.sat.", c!"llvm.usub.with.overflow.", c!"llvm.vector.reduce.",
    c!"llvm.x86.sse2.pmovmskb."]

/-- main.rs:596-716: the tests on the name, in order. -/
def classify (isThumb : Bool) (func : Str) : CallKind :=
  if noopIntrinsics.contains func then .ignored
  else if lifetimePrefixes.any (startsWith func) then .ignored
  else if isThumb && startsWith func c!"llvm." then .ignored
  else if startsWith func c!"llvm.memcpy." then .memory memcpyRoutines
  else if startsWith func c!"llvm.memset." || startsWith func c!"llvm.memmove." then
    .memory memsetRoutines
  else if inlinePrefixes.any (startsWith func) || func == c!"llvm.x86.sse2.pause" then .ignored
  else if func == c!"llvm.experimental.noalias.scope.decl" then .ignored
  else if startsWith func c!"llvm." then .unhandled
  else .plain

/-- main.rs:721 -/
def symbollessIntrinsics : List Str := [c!"memcmp"]

/-- `callees_seen` of a caller. -/
def Build.seen (st : Build) (caller : Nat) : List Nat := (mget caller st.edges).getD []

/-- main.rs:620-625 and 748-751: add an edge unless the callee was seen before. -/
def Build.call (st : Build) (caller callee : Nat) : Build :=
  if (st.seen caller).contains callee then st
  else
    { st with
      g := st.g.addEdge caller callee
      edges := mset caller (callee :: st.seen caller) st.edges }

/-- The node index of a name without alias resolution, adding a node with unknown local usage if there
is none (main.rs:582-590, 736-743). -/
def Build.getOrAddNode (st : Build) (name : Str) : Build × Nat :=
  match mget name st.indices with
  | some idx => (st, idx)
  | none =>
    let (g, idx) := st.g.addNode (mkNode name none false)
    ({ st with g, indices := mset name idx st.indices }, idx)

/-- main.rs:637-648, 656-679: call each of the routines that has a node. -/
def Build.callRoutines (caller : Nat) (st : Build) (routines : List Str) : Build :=
  routines.foldl (fun st r =>
    match mget r st.indices with
    | some callee => st.call caller callee
    | none => st) st

/-- main.rs:718-752: a direct call to an ordinary function. -/
def plainCall (undefined : List Str) (caller : Nat) (func : Str) (st : Build) : Except Panic Build :=
  if symbollessIntrinsics.contains func && (mget func st.indices).isNone then .ok st
  else
    match mget func st.aliases with
    | some canon =>
      match mget canon st.indices with
      | some callee => .ok (st.call caller callee)
      | none => .error (.missingKey canon)             -- `indices[*canon]`
    | none =>
      if undefined.contains func then
        let (st', callee) := st.getOrAddNode func
        .ok (st'.call caller callee)
      else .error (.unknownCallee func)

/-- main.rs:753-758: an indirect call marks every loosely equal signature. -/
def markCalled (caller : Nat) (sig : FnSig) (indirects : List (FnSig × Indirect)) :
    List (FnSig × Indirect) :=
  indirects.map (fun e =>
    if e.1.looselyEqual sig then
      (e.1, { e.2 with called := true, callers := sinsert caller e.2.callers })
    else e)

/-- main.rs:565-761: one statement. -/
def stmtStep (p : Program) (canonical : Str) (caller : Nat) (st : Build) (s : Stmt) :
    Except Panic Build :=
  match s with
  | .asm _ => .ok { st with asmFns := sinsert canonical st.asmFns }
  | .bitcastCall none => .error .unnamedBitcast
  | .bitcastCall (some sym) =>
    let (st', callee) := st.getOrAddNode sym
    .ok { st' with g := st'.g.addEdge caller callee }
  | .directCall func =>
    match classify p.target.isThumb func with
    | .ignored => .ok st
    | .memory routines => .ok (st.callRoutines caller routines)
    | .unhandled => .error (.unhandledIntrinsic func)
    | .plain => plainCall p.undefined caller func st
  | .indirectCall sig => .ok { st with indirects := markCalled caller sig st.indirects }
  | .comment | .label | .other => .ok st

/-- main.rs:564-762: the statements of one definition. -/
def stmtsPass (p : Program) (canonical : Str) (caller : Nat) :
    Build → List Stmt → Except Panic Build
  | st, [] => .ok st
  | st, s :: rest =>
    match stmtStep p canonical caller st s with
    | .error e => .error e
    | .ok st' => stmtsPass p canonical caller st' rest

/-- main.rs:552-763: one definition. -/
def defineStep (p : Program) (st : Build) (d : Define) : Except Panic Build :=
  match mget d.name st.aliases with
  | none => .ok st                                     -- GC-ed by the linker
  | some canonical =>
    match mget canonical st.indices with
    | none => .error (.missingKey canonical)           -- `indices[*canonical_name]`
    | some caller =>
      stmtsPass p canonical caller
        { st with
          defined := sinsert canonical st.defined
          edges := mset caller (st.seen caller) st.edges } d.stmts

/-- main.rs:551-763: all definitions in hash map order. -/
def definePass (p : Program) : Build → List Define → Except Panic Build
  | st, [] => .ok st
  | st, d :: rest =>
    match defineStep p st d with
    | .error e => .error e
    | .ok st' => definePass p st' rest

/-- main.rs:460-763: the graph after reading symbols and LLVM-IR. -/
def irGraph (demangle : Str → Str) (p : Program) : Except Panic Build :=
  match symPass demangle p Build.empty p.defined with
  | .error e => .error e
  | .ok st => definePass p st p.defines

/-! ### Fictitious nodes for indirect calls -/

/-- Iteration orders of hash maps and hash sets: at each point of the program an arbitrary
permutation of the entries. -/
structure HashOrder where
  perm : (α : Type) → Nat → List α → List α
  isPerm : ∀ (α : Type) (k : Nat) (l : List α), (perm α k l).Perm l

/-- main.rs:972-988: the receiver of a signature that could be `ArgumentV1.formatter`. -/
def maybeVoid (sig : FnSig) : Option Str :=
  match sig.inputs, sig.output with
  | [.pointer receiver, .pointer formatter], some output =>
    if formatter == .alias c!"core::fmt::Formatter" && output == .integer 1 then
      match receiver with
      | .alias r => some r
      | _ => none
    else none
  | _, _ => none

/-- main.rs:990-1012 -/
def oneTrueVoid (allMaybeVoid : List Str) : Option Str :=
  if allMaybeVoid.contains c!"fmt::Void" then some c!"fmt::Void"
  else
    match allMaybeVoid.find? (fun v => startsWith v c!"core::fmt::Void") with
    | some v => some v
    | none =>
      match allMaybeVoid with
      | [v] => some v
      | _ => none

/-- main.rs:1019-1041: the special case `ArgumentV1.formatter`. -/
def isFormatter (oneTrueVoid : Option Str) (sig : FnSig) : Bool :=
  match oneTrueVoid with
  | none => false
  | some v =>
    match sig.inputs, sig.output with
    | [.pointer void, .pointer fmt], some output =>
      void == .alias v && fmt == .alias c!"core::fmt::Formatter" && output == .integer 1
    | _, _ => false

/-- main.rs:1033-1036: the canonicalised signature (only used for the label). -/
def labelSig (oneTrueVoid : Option Str) (sig : FnSig) : FnSig :=
  if isFormatter oneTrueVoid sig && oneTrueVoid != some c!"fmt::Void" then
    { sig with inputs := sig.inputs.set 0 (.alias c!"fmt::Void") }
  else sig

/-- main.rs:1014-1065: one signature; `k` numbers the iterations. -/
def indirectStep (ord : HashOrder) (hasUntyped : Bool) (fmts : List Nat) (void : Option Str) (k : Nat)
    (g : Graph) (e : FnSig × Indirect) : Graph :=
  if !e.2.called then g
  else
    let callees := if isFormatter void e.1 then fmts else e.2.callees
    let name := (labelSig void e.1).show ++ c!"*"
    let (g, call) := g.addNode (mkNode name (some 0) true)
    let g := (ord.perm Nat (3 * k + 2) e.2.callers).foldl (fun g caller => g.addEdge caller call) g
    let g :=
      if hasUntyped then
        let (g, externSym) := g.addNode (mkNode c!"?" none false)
        g.addEdge call externSym
      else g
    (ord.perm Nat (3 * k + 3) callees).foldl (fun g callee => g.addEdge call callee) g

/-- main.rs:1014-1065: the loop over the signatures. -/
def indirectLoop (ord : HashOrder) (hasUntyped : Bool) (fmts : List Nat) (void : Option Str) :
    Nat → Graph → List (FnSig × Indirect) → Graph
  | _, g, [] => g
  | k, g, e :: rest =>
    indirectLoop ord hasUntyped fmts void (k + 1)
      (indirectStep ord hasUntyped fmts void k g e) rest

/-- main.rs:955-1065. -/
def addIndirects (ord : HashOrder) (st : Build) : Graph :=
  let allMaybeVoid := (ord.perm _ 0 st.indirects).filterMap (fun e => maybeVoid e.1)
  indirectLoop ord st.hasUntypedSymbols st.fmts (oneTrueVoid allMaybeVoid) 0 st.g
    (ord.perm _ 1 st.indirects)

end CallStack
