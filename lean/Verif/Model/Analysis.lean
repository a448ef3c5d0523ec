import Verif.Model.PetGraph

/-!
The maximum stack usage analysis, src/main.rs:1135-1215.
-/

namespace CallStack

namespace Graph

/-- `g[node].local` (panics on a bad index). -/
def localAt (g : Graph) (i : Nat) : Except Panic Local :=
  match g.nodes[i]? with
  | some nd => .ok nd.loc
  | none => .error .badIndex

/-- `g[neighbor].max.expect("UNREACHABLE")` (main.rs:1169, 1187, 1206). -/
def maxAt (g : Graph) (i : Nat) : Except Panic Max :=
  match g.nodes[i]? with
  | some nd =>
    match nd.max with
    | some m => .ok m
    | none => .error .unreachable
  | none => .error .badIndex

/-- `g[inode].max = Some(m)` (main.rs:1177, 1179, 1192, 1194, 1210, 1212). -/
def setMax (g : Graph) (i : Nat) (m : Max) : Graph :=
  { g with nodes := g.nodes.modify i (fun nd => { nd with max := some m }) }

end Graph

/-- Evaluate a fallible function on every element, stopping at the first panic (an iterator that is
consumed completely by `max_of`). -/
def mapPanic {α β : Type} (f : α → Except Panic β) : List α → Except Panic (List β)
  | [] => .ok []
  | x :: xs =>
    match f x with
    | .error e => .error e
    | .ok y =>
      match mapPanic f xs with
      | .error e => .error e
      | .ok ys => .ok (y :: ys)

/-- main.rs:1145-1147: `scc.len() > 1 || neighbors(first).any(|n| n == first)`. -/
def isACycle (g : Graph) (scc : List Nat) (first : Nat) : Bool :=
  decide (scc.length > 1) || (g.out first).any (fun n => n == first)

/-- main.rs:1185-1195 (and 1204-1213): `node.max` from the `max`es of all callees. -/
def nodeStep (g : Graph) (inode : Nat) : Except Panic Graph :=
  match mapPanic g.maxAt (g.out inode) with
  | .error e => .error e
  | .ok ms =>
    match g.localAt inode with
    | .error e => .error e
    | .ok l =>
      match maxOf ms with
      | some max =>
        match max.addLocal l with
        | .error e => .error e
        | .ok m => .ok (g.setMax inode m)
      | none => .ok (g.setMax inode l.toMax)

/-- main.rs:1155-1160: the cumulative usage of a cycle is only exact when it is zero. -/
def demote : Max → Max
  | .exact n => if n = 0 then .exact n else .lowerBound n
  | m => m

/-- main.rs:1152-1181: one strongly connected component that is a cycle. -/
def cycleStep (g : Graph) (scc : List Nat) : Except Panic Graph :=
  match mapPanic g.localAt scc with
  | .error e => .error e
  | .ok ls =>
    match maxOf (ls.map Local.toMax) with
    | none => .error .unreachable
    | some sccLocal0 =>
      let sccLocal := demote sccLocal0
      -- "we only care about the neighbors of the SCC"
      match mapPanic g.maxAt ((scc.flatMap g.out).filter (fun n => !scc.contains n)) with
      | .error e => .error e
      | .ok ms =>
        match maxOf ms with
        | some max =>
          match max.add sccLocal with
          | .error e => .error e
          | .ok m => .ok (scc.foldl (fun g i => g.setMax i m) g)
        | none => .ok (scc.foldl (fun g i => g.setMax i sccLocal) g)

/-- One iteration of the loop over the components, main.rs:1142-1197. Returns the new graph and the
new list of cycles. -/
def sccStep (g : Graph) (cycles : List (List Nat)) (scc : List Nat) :
    Except Panic (Graph × List (List Nat)) :=
  match scc with
  | [] => .error .badIndex            -- `scc[0]`
  | first :: _ =>
    if isACycle g scc first then
      match cycleStep g scc with
      | .error e => .error e
      | .ok g' => .ok (g', cycles ++ [scc])
    else
      match nodeStep g first with
      | .error e => .error e
      | .ok g' => .ok (g', cycles)

/-- The loop over the components, main.rs:1142-1197. -/
def sccLoop : Graph → List (List Nat) → List (List Nat) → Except Panic (Graph × List (List Nat))
  | g, cycles, [] => .ok (g, cycles)
  | g, cycles, scc :: sccs =>
    match sccStep g cycles scc with
    | .error e => .error e
    | .ok (g', cycles') => sccLoop g' cycles' sccs

/-- The topological loop, main.rs:1200-1214. -/
def topoLoop : Graph → List Nat → Except Panic Graph
  | g, [] => .ok g
  | g, node :: rest =>
    match nodeStep g node with
    | .error e => .error e
    | .ok g' => topoLoop g' rest

/-- main.rs:1138-1197, the branch for graphs with cycles. -/
def analyzeCyclic (g : Graph) : Except Panic (Graph × List (List Nat)) :=
  match kosaraju g.nodes.length g.out g.inc with
  | none => .error .fuel
  | some sccs => sccLoop g [] sccs

/-- main.rs:1198-1215, the branch for graphs without cycles. `Topo::new(Reversed(&g))` uses incoming
neighbours as successors. -/
def analyzeAcyclic (g : Graph) : Except Panic Graph :=
  match topoOrder g.nodes.length g.inc g.out with
  | none => .error .fuel
  | some order => topoLoop g order

/-- main.rs:1135-1215: the max stack usage analysis. Returns the graph with `max` filled in and the
list `cycles`. -/
def analyzeMax (hasStackUsageInfo : Bool) (g : Graph) : Except Panic (Graph × List (List Nat)) :=
  if !hasStackUsageInfo then .ok (g, [])
  else
    match isCyclic g.nodes.length g.out with
    | none => .error .fuel
    | some true => analyzeCyclic g
    | some false =>
      match analyzeAcyclic g with
      | .error e => .error e
      | .ok g' => .ok (g', [])

end CallStack
