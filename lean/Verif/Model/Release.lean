import Verif.Model.Words
import Verif.Model.Run

/-!
The run of the tool with the arithmetic of its build profile (src/main.rs:420-1233): `Model/Run` with
the machine code pass of `Model/Words` and with sums of stack usages that wrap around in release builds.
-/

namespace CallStack

/-- `u64` addition. -/
def addU64W (m : Overflow) (a b : Nat) : Except Panic Nat :=
  if a + b < 2 ^ 64 then .ok (a + b)
  else
    match m with
    | .checked => .error .overflow
    | .wraps => .ok ((a + b) % 2 ^ 64)

/-- `impl ops::Add<Local> for Max` (main.rs:1440-1451). -/
def Max.addLocalW (m : Overflow) : Max → Local → Except Panic Max
  | .exact lhs, .exact rhs => okMax .exact (addU64W m lhs rhs)
  | .exact lhs, .unknown => .ok (.lowerBound lhs)
  | .lowerBound lhs, .exact rhs => okMax .lowerBound (addU64W m lhs rhs)
  | .lowerBound lhs, .unknown => .ok (.lowerBound lhs)

/-- `impl ops::Add<Max> for Max` (main.rs:1453-1464). -/
def Max.addW (m : Overflow) : Max → Max → Except Panic Max
  | .exact lhs, .exact rhs => okMax .exact (addU64W m lhs rhs)
  | .exact lhs, .lowerBound rhs => okMax .lowerBound (addU64W m lhs rhs)
  | .lowerBound lhs, .exact rhs => okMax .lowerBound (addU64W m lhs rhs)
  | .lowerBound lhs, .lowerBound rhs => okMax .lowerBound (addU64W m lhs rhs)

/-- main.rs:1185-1195, 1204-1213, see `nodeStep`. -/
def nodeStepW (m : Overflow) (g : Graph) (inode : Nat) : Except Panic Graph :=
  match mapPanic g.maxAt (g.out inode) with
  | .error e => .error e
  | .ok ms =>
    match g.localAt inode with
    | .error e => .error e
    | .ok l =>
      match maxOf ms with
      | some max =>
        match max.addLocalW m l with
        | .error e => .error e
        | .ok mx => .ok (g.setMax inode mx)
      | none => .ok (g.setMax inode l.toMax)

/-- main.rs:1152-1181, see `cycleStep`. -/
def cycleStepW (m : Overflow) (g : Graph) (scc : List Nat) : Except Panic Graph :=
  match mapPanic g.localAt scc with
  | .error e => .error e
  | .ok ls =>
    match maxOf (ls.map Local.toMax) with
    | none => .error .unreachable
    | some sccLocal0 =>
      let sccLocal := demote sccLocal0
      match mapPanic g.maxAt ((scc.flatMap g.out).filter (fun n => !scc.contains n)) with
      | .error e => .error e
      | .ok ms =>
        match maxOf ms with
        | some max =>
          match max.addW m sccLocal with
          | .error e => .error e
          | .ok mx => .ok (scc.foldl (fun g i => g.setMax i mx) g)
        | none => .ok (scc.foldl (fun g i => g.setMax i sccLocal) g)

/-- main.rs:1142-1197, see `sccStep`. -/
def sccStepW (m : Overflow) (g : Graph) (cycles : List (List Nat)) (scc : List Nat) :
    Except Panic (Graph × List (List Nat)) :=
  match scc with
  | [] => .error .badIndex
  | first :: _ =>
    if isACycle g scc first then
      match cycleStepW m g scc with
      | .error e => .error e
      | .ok g' => .ok (g', cycles ++ [scc])
    else
      match nodeStepW m g first with
      | .error e => .error e
      | .ok g' => .ok (g', cycles)

/-- main.rs:1142-1197, see `sccLoop`. -/
def sccLoopW (m : Overflow) :
    Graph → List (List Nat) → List (List Nat) → Except Panic (Graph × List (List Nat))
  | g, cycles, [] => .ok (g, cycles)
  | g, cycles, scc :: sccs =>
    match sccStepW m g cycles scc with
    | .error e => .error e
    | .ok (g', cycles') => sccLoopW m g' cycles' sccs

/-- main.rs:1200-1214, see `topoLoop`. -/
def topoLoopW (m : Overflow) : Graph → List Nat → Except Panic Graph
  | g, [] => .ok g
  | g, node :: rest =>
    match nodeStepW m g node with
    | .error e => .error e
    | .ok g' => topoLoopW m g' rest

/-- main.rs:1138-1197, see `analyzeCyclic`. -/
def analyzeCyclicW (m : Overflow) (g : Graph) : Except Panic (Graph × List (List Nat)) :=
  match kosaraju g.nodes.length g.out g.inc with
  | none => .error .fuel
  | some sccs => sccLoopW m g [] sccs

/-- main.rs:1198-1215, see `analyzeAcyclic`. -/
def analyzeAcyclicW (m : Overflow) (g : Graph) : Except Panic Graph :=
  match topoOrder g.nodes.length g.inc g.out with
  | none => .error .fuel
  | some order => topoLoopW m g order

/-- main.rs:1135-1215, see `analyzeMax`. -/
def analyzeMaxW (m : Overflow) (hasStackUsageInfo : Bool) (g : Graph) :
    Except Panic (Graph × List (List Nat)) :=
  if !hasStackUsageInfo then .ok (g, [])
  else
    match isCyclic g.nodes.length g.out with
    | none => .error .fuel
    | some true => analyzeCyclicW m g
    | some false =>
      match analyzeAcyclicW m g with
      | .error e => .error e
      | .ok g' => .ok (g', [])

/-- main.rs:420-1065, see `callGraph`. -/
def callGraphW (m : Overflow) (demangle : Str → Str) (ord : HashOrder) (search : TagSearch)
    (p : Program) (elf : Elf) : Except Panic (Build × Graph) :=
  match irGraph demangle p with
  | .error e => .error e
  | .ok st =>
    match machinePassW m search p elf st with
    | .error e => .error e
    | .ok st => .ok (st, addIndirects ord st)

/-- main.rs:420-1226, see `finalGraph`. -/
def finalGraphW (m : Overflow) (demangle : Str → Str) (ord : HashOrder) (search : TagSearch)
    (p : Program) (elf : Elf) (start : Option Str) : Except Panic (Graph × List (List Nat)) :=
  match callGraphW m demangle ord search p elf with
  | .error e => .error e
  | .ok (st, g) =>
    match applyStart demangle st.indices start g with
    | .error e => .error e
    | .ok g =>
      match analyzeMaxW m st.hasStackUsageInfo g with
      | .error e => .error e
      | .ok (g, cycles) =>
        match shortenNodes demangle st.ambiguous g.nodes with
        | .error e => .error e
        | .ok nodes => .ok ({ g with nodes }, cycles)

/-- main.rs:420-1233, see `runText`. -/
def runTextW (m : Overflow) (demangle : Str → Str) (ord : HashOrder) (search : TagSearch)
    (p : Program) (elf : Elf) (start : Option Str) (format : OutputFormat) : Except Panic Str :=
  match finalGraphW m demangle ord search p elf start with
  | .error e => .error e
  | .ok (g, cycles) =>
    match format with
    | .dot => .ok (dotText demangle g cycles)
    | .top => .ok (topText demangle g)

end CallStack
