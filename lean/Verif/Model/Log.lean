import Verif.Model.Run
import Verif.Model.Filter

/-!
The warnings and errors that `run` logs (all `warn!` and `error!` in src/main.rs). The functions that do the
work are left as they are in the other files; here each has a companion that yields the messages in the order
they are logged, up to the point where the run is aborted if it is. The texts around the data of a message are
in Model/LogText. The logger shows warnings and errors by default (main.rs:128).
-/

namespace CallStack

/-- The messages, with the data they show. -/
inductive LogMsg where
  /-- main.rs:500 and 899 -/
  | noUsage (name : Str)
  /-- main.rs:542 -/
  | noType (name : Str)
  /-- main.rs:569-572 -/
  | asm (expr name : Str)
  /-- main.rs:585 -/
  | noInfo (sym : Str)
  /-- main.rs:701 -/
  | inlined (func : Str)
  /-- main.rs:848-853 -/
  | overrideAsm (name : Str) (llvm ours : Nat)
  /-- main.rs:861-866 -/
  | overrideOutlined (name : Str) (llvm ours : Nat)
  /-- main.rs:907-911 -/
  | untypedCall (name : Str)
  /-- main.rs:951 -/
  | noText
  /-- main.rs:957-960 -/
  | untypedSymbols
  /-- main.rs:1025 and 1058 -/
  | noCallees (type : Str)
  /-- main.rs:1087 -/
  | ambiguousStart (start : Str) (hits : List Str)
  /-- main.rs:1131 -/
  | noStart
  /-- main.rs:1137 -/
  | noFigures
  deriving DecidableEq, Repr

/-- main.rs:497-504, 514-543: one symbol. -/
def symLog (p : Program) (names : List Str) (canonical : Str) : List LogMsg :=
  (if (mget canonical p.stackSizes).isNone && !p.target.isThumb then [.noUsage canonical] else []) ++
  (match firstDefine p.defines names with
    | some _ => []
    | none =>
      match firstDeclared p.declares names with
      | some _ => []
      | none => if isOutlined canonical then [] else [.noType canonical])

/-- main.rs:460-543: all symbols. -/
def symsLog (p : Program) : List (Nat × Sym) → List LogMsg
  | [] => []
  | e :: rest =>
    match canonicalOf p.stackSizes (realNames e.2) with
    | .error _ => []
    | .ok canonical => symLog p (realNames e.2) canonical ++ symsLog p rest

/-- main.rs:596-702: the call is taken for an instruction, after the tests that come before. -/
def assumedInline (isThumb : Bool) (func : Str) : Bool :=
  !(noopIntrinsics.contains func) && !(lifetimePrefixes.any (startsWith func)) &&
  !(isThumb && startsWith func c!"llvm.") && !(startsWith func c!"llvm.memcpy.") &&
  !(startsWith func c!"llvm.memset." || startsWith func c!"llvm.memmove.") &&
  (inlinePrefixes.any (startsWith func) || func == c!"llvm.x86.sse2.pause")

/-- main.rs:565-761: one statement. The result holds the messages and the new `llvm_seen`. -/
def stmtLog (p : Program) (canonical : Str) (st : Build) (seen : List Str) (s : Stmt) :
    List LogMsg × List Str :=
  match s with
  | .asm expr => (if st.asmFns.contains canonical then [] else [.asm expr canonical], seen)
  | .bitcastCall (some sym) => (if (mget sym st.indices).isSome then [] else [.noInfo sym], seen)
  | .directCall func =>
    if assumedInline p.target.isThumb func then
      if seen.contains func then ([], seen) else ([.inlined func], sinsert func seen)
    else ([], seen)
  | _ => ([], seen)

/-- main.rs:564-762: the statements of one definition. -/
def stmtsLog (p : Program) (canonical : Str) (caller : Nat) :
    Build → List Str → List Stmt → List LogMsg × List Str
  | _, seen, [] => ([], seen)
  | st, seen, s :: rest =>
    let l := stmtLog p canonical st seen s
    match stmtStep p canonical caller st s with
    | .error _ => l
    | .ok st' =>
      let r := stmtsLog p canonical caller st' l.2 rest
      (l.1 ++ r.1, r.2)

/-- main.rs:552-763: one definition. -/
def defineLog (p : Program) (st : Build) (seen : List Str) (d : Define) : List LogMsg × List Str :=
  match mget d.name st.aliases with
  | none => ([], seen)
  | some canonical =>
    match mget canonical st.indices with
    | none => ([], seen)
    | some caller =>
      stmtsLog p canonical caller
        { st with
          defined := sinsert canonical st.defined
          edges := mset caller (st.seen caller) st.edges } seen d.stmts

/-- main.rs:551-763: all definitions. -/
def definesLog (p : Program) : Build → List Str → List Define → List LogMsg × List Str
  | _, seen, [] => ([], seen)
  | st, seen, d :: rest =>
    let l := defineLog p st seen d
    match defineStep p st d with
    | .error _ => l
    | .ok st' =>
      let r := definesLog p st' l.2 rest
      (l.1 ++ r.1, r.2)

/-- main.rs:827-870: the messages about an overridden figure. Nothing is logged if the check at
main.rs:827-836 fails. -/
def overrideLog (canonical : Str) (llvm : Local) (ourStack : Option Nat) (modifiesSp hasAsm outlined : Bool) :
    List LogMsg :=
  if ourStack.any (fun stack => decide (stack ≠ 0) != modifiesSp) then []
  else
    match llvm, ourStack with
    | .exact n, some stack =>
      if n ≠ stack ∧ hasAsm then [.overrideAsm canonical n stack]
      else if outlined then
        if n = 0 ∧ stack ≠ n then [.overrideOutlined canonical n stack] else []
      else []
    | _, _ => []

/-- main.rs:822-912: what is logged about the result of the machine code analysis of one function. -/
def useThumbLog (r : ThumbState) (canonical : Str) (st : Build) : List LogMsg :=
  match mget canonical st.indices with
  | none => []
  | some caller =>
    match st.g.localAt caller with
    | .error _ => []
    | .ok llvm =>
      overrideLog canonical llvm r.stack r.modifiesSp (st.asmFns.contains canonical)
        (isOutlined canonical) ++
      match overrideLocal llvm r.stack r.modifiesSp (st.asmFns.contains canonical)
          (isOutlined canonical) with
      | .error _ => []
      | .ok loc =>
        (if loc = .unknown then [.noUsage canonical] else []) ++
        (if !st.defined.contains canonical && r.indirect then [.untypedCall canonical] else [])

/-- main.rs:796-949: one symbol. -/
def machineStepLog (search : TagSearch) (v7 : Bool) (tags : List (Nat × Tag)) (stext : Nat)
    (text : List Nat) (st : Build) (e : Nat × Sym) : List LogMsg :=
  match e.2.names with
  | [] => []
  | first :: _ =>
    match mget first st.aliases with
    | none => []
    | some canonical =>
      let address := e.1 % 2 ^ 32
      let size := symSize search tags address (e.2.size % 2 ^ 32)
      match textSlice stext text address size with
      | .error _ => []
      | .ok bytes =>
        match thumbAnalyze search bytes address v7 tags with
        | .error _ => []
        | .ok r => useThumbLog r canonical st

/-- main.rs:796-949: all symbols. -/
def machineLoopLog (search : TagSearch) (v7 : Bool) (tags : List (Nat × Tag)) (stext : Nat)
    (text : List Nat) : Build → List (Nat × Sym) → List LogMsg
  | _, [] => []
  | st, e :: rest =>
    machineStepLog search v7 tags stext text st e ++
    match machineStep search v7 tags stext text st e with
    | .error _ => []
    | .ok st' => machineLoopLog search v7 tags stext text st' rest

/-- main.rs:770-953. -/
def machineLog (search : TagSearch) (p : Program) (elf : Elf) (st : Build) : List LogMsg :=
  if p.target.isThumb then
    match elf.text with
    | none => [.noText]
    | some (stext, text) =>
      machineLoopLog search (p.target == .thumbv7m) (elfTags elf.symtab) stext text st p.defined
  else []

/-- main.rs:1014-1060: one signature. -/
def indirectStepLog (hasUntyped : Bool) (fmts : List Nat) (void : Option Str) (e : FnSig × Indirect) :
    List LogMsg :=
  if !e.2.called then []
  else
    (if isFormatter void e.1 && fmts.isEmpty then [.noCallees e.1.show] else []) ++
    (if !hasUntyped && (if isFormatter void e.1 then fmts else e.2.callees).isEmpty then
      [.noCallees ((labelSig void e.1).show ++ c!"*")] else [])

/-- main.rs:955-1065. -/
def indirectsLog (ord : HashOrder) (st : Build) : List LogMsg :=
  let void := oneTrueVoid ((ord.perm _ 0 st.indirects).filterMap (fun e => maybeVoid e.1))
  (if st.hasUntypedSymbols then [.untypedSymbols] else []) ++
  (ord.perm _ 1 st.indirects).flatMap (indirectStepLog st.hasUntypedSymbols st.fmts void)

/-- main.rs:1068-1132: the start point. -/
def startLog (demangle : Str → Str) (ord : HashOrder) (indices : List (Str × Nat)) (start : Option Str) :
    List LogMsg :=
  match start with
  | none => []
  | some s =>
    match lookupStr s indices with
    | some _ => []
    | none =>
      let hits := (ord.perm _ 0 (indices.map (·.1))).filter
        (fun key => startsWith (demangle key) (s ++ c!"::h"))
      if hits.length > 1 then [.ambiguousStart s hits, .noStart]
      else
        match hits with
        | [] => [.noStart]
        | _ :: _ => []

/-- main.rs:420-1226: all messages of a run. Nothing is logged after main.rs:1137. -/
def runLog (demangle : Str → Str) (ord : HashOrder) (search : TagSearch) (p : Program) (elf : Elf)
    (start : Option Str) : List LogMsg :=
  symsLog p p.defined ++
  match symPass demangle p Build.empty p.defined with
  | .error _ => []
  | .ok st0 =>
    (definesLog p st0 [] p.defines).1 ++
    match definePass p st0 p.defines with
    | .error _ => []
    | .ok stIr =>
      machineLog search p elf stIr ++
      match machinePass search p elf stIr with
      | .error _ => []
      | .ok st =>
        indirectsLog ord st ++ startLog demangle ord st.indices start ++
        match applyStart demangle st.indices start (addIndirects ord st) with
        | .error _ => []
        | .ok _ => if st.hasStackUsageInfo then [] else [.noFigures]

end CallStack
