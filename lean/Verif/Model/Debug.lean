import Verif.Model.Run

/-!
Builds with debug assertions: the analysis with the two `debug_assert!`s of main.rs. Release builds leave them out, and
so does the rest of the model.
-/

namespace CallStack

/-- How a run of a build with debug assertions can abort. -/
inductive DebugPanic
  /-- as in other builds -/
  | other (e : Panic)
  /-- main.rs:495: two symbols with the same address -/
  | sameAddress
  /-- main.rs:1202: a node that is visited twice -/
  | visitedTwice
  deriving DecidableEq, Repr

/-- The steps that have no assertion. -/
def plainly {α : Type} : Except Panic α → Except DebugPanic α
  | .error e => .error (.other e)
  | .ok x => .ok x

/-- main.rs:460-543, see `symStep`. The assertion comes after the choice of the name, the only thing that can fail. -/
def symStepD (demangle : Str → Str) (p : Program) (st : Build) (e : Nat × Sym) : Except DebugPanic Build :=
  match symStep demangle p st e with
  | .error err => .error (.other err)
  | .ok st' =>
    if (mget e.1 st.addr2name).isSome then .error .sameAddress    -- `_out` of `addr2name.insert(..)`
    else .ok st'

/-- main.rs:460-543, see `symPass`. -/
def symPassD (demangle : Str → Str) (p : Program) : Build → List (Nat × Sym) → Except DebugPanic Build
  | st, [] => .ok st
  | st, e :: rest =>
    match symStepD demangle p st e with
    | .error err => .error err
    | .ok st' => symPassD demangle p st' rest

/-- `g[node].max.is_some()` (main.rs:1202); a bad index aborts in `nodeStep`. -/
def Graph.hasMax (g : Graph) (node : Nat) : Bool :=
  match g.nodes[node]? with
  | some nd => nd.max.isSome
  | none => false

/-- main.rs:1200-1214, see `topoLoop`. -/
def topoLoopD : Graph → List Nat → Except DebugPanic Graph
  | g, [] => .ok g
  | g, node :: rest =>
    if g.hasMax node then .error .visitedTwice
    else
      match nodeStep g node with
      | .error e => .error (.other e)
      | .ok g' => topoLoopD g' rest

/-- main.rs:1135-1215, see `analyzeMax`. -/
def analyzeMaxD (hasStackUsageInfo : Bool) (g : Graph) : Except DebugPanic (Graph × List (List Nat)) :=
  if !hasStackUsageInfo then .ok (g, [])
  else
    match isCyclic g.nodes.length g.out with
    | none => .error (.other .fuel)
    | some true => plainly (analyzeCyclic g)
    | some false =>
      match topoOrder g.nodes.length g.inc g.out with
      | none => .error (.other .fuel)
      | some order =>
        match topoLoopD g order with
        | .error e => .error e
        | .ok g' => .ok (g', [])

/-- main.rs:420-1065, see `callGraph`. -/
def callGraphD (demangle : Str → Str) (ord : HashOrder) (search : TagSearch) (p : Program) (elf : Elf) :
    Except DebugPanic (Build × Graph) :=
  match symPassD demangle p Build.empty p.defined with
  | .error e => .error e
  | .ok st =>
    match definePass p st p.defines with
    | .error e => .error (.other e)
    | .ok st =>
      match machinePass search p elf st with
      | .error e => .error (.other e)
      | .ok st => .ok (st, addIndirects ord st)

/-- main.rs:420-1226, see `finalGraph`. -/
def finalGraphD (demangle : Str → Str) (ord : HashOrder) (search : TagSearch) (p : Program) (elf : Elf)
    (start : Option Str) : Except DebugPanic (Graph × List (List Nat)) :=
  match callGraphD demangle ord search p elf with
  | .error e => .error e
  | .ok (st, g) =>
    match applyStart demangle st.indices start g with
    | .error e => .error (.other e)
    | .ok g =>
      match analyzeMaxD st.hasStackUsageInfo g with
      | .error e => .error e
      | .ok (g, cycles) =>
        match shortenNodes demangle st.ambiguous g.nodes with
        | .error e => .error (.other e)
        | .ok nodes => .ok ({ g with nodes }, cycles)

/-- main.rs:420-1233, see `runText`. -/
def runTextD (demangle : Str → Str) (ord : HashOrder) (search : TagSearch) (p : Program) (elf : Elf)
    (start : Option Str) (format : OutputFormat) : Except DebugPanic Str :=
  match finalGraphD demangle ord search p elf start with
  | .error e => .error e
  | .ok (g, cycles) =>
    match format with
    | .dot => .ok (dotText demangle g cycles)
    | .top => .ok (topText demangle g)

end CallStack
