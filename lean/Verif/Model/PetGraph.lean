import Verif.Model.Stack

/-!
The parts of petgraph 0.6 that the tool uses (Cargo.toml:26, main.rs:24-29).

petgraph is a dependency whose source is not part of `/repo`; these definitions follow its published
algorithms (`src/visit/traversal.rs`, `src/algo/mod.rs`, `src/visit/dfsvisit.rs`). The traversal
algorithms take the neighbour function `adj` (neighbours in iteration order), so that
`Reversed(&g)` is just another `adj`. Visit maps (`FixedBitSet`) are lists of visited indices.
-/

namespace CallStack

/-- `DiGraph<Node, ()>`: node weights by index and edges (source, target) by insertion order. -/
structure Graph where
  nodes : List Node
  edges : List (Nat × Nat)
  deriving DecidableEq, Repr

namespace Graph

/-- `DiGraph::new()` -/
def empty : Graph := ⟨[], []⟩

/-- `Graph::add_node`: the new index is the old node count. -/
def addNode (g : Graph) (w : Node) : Graph × Nat :=
  ({ g with nodes := g.nodes ++ [w] }, g.nodes.length)

/-- `Graph::add_edge` (parallel edges are allowed). petgraph panics on an index that does not exist;
all call sites of the tool pass existing indices (`Graph.WF` is an invariant). -/
def addEdge (g : Graph) (a b : Nat) : Graph :=
  { g with edges := g.edges ++ [(a, b)] }

/-- `Graph::neighbors` = `neighbors_directed(_, Outgoing)`: petgraph prepends to the adjacency list,
so the most recently added edge comes first. -/
def out (g : Graph) (a : Nat) : List Nat :=
  ((g.edges.filter (fun e => e.1 == a)).map (·.2)).reverse

/-- `neighbors_directed(_, Incoming)`, i.e. the neighbours in `Reversed(&g)`. -/
def inc (g : Graph) (a : Nat) : List Nat :=
  ((g.edges.filter (fun e => e.2 == a)).map (·.1)).reverse

/-- Every edge connects existing nodes. -/
def WF (g : Graph) : Prop :=
  ∀ e ∈ g.edges, e.1 < g.nodes.length ∧ e.2 < g.nodes.length

end Graph

/-- Push every neighbour that is not visited yet; the last one pushed is on top. -/
def pushUnvisited (visited : List Nat) : List Nat → List Nat → List Nat
  | [], stack => stack
  | s :: succs, stack =>
    pushUnvisited visited succs (if visited.contains s then stack else s :: stack)

/-! ### `Dfs` (petgraph `visit/traversal.rs`) -/

/-- `Dfs::next`: returns the next node, the new stack and the new discovered set. -/
def dfsNext (adj : Nat → List Nat) : List Nat → List Nat → Option (Nat × List Nat × List Nat)
  | [], _ => none
  | node :: stack, disc =>
    if disc.contains node then dfsNext adj stack disc
    else some (node, pushUnvisited (node :: disc) (adj node) stack, node :: disc)

/-- `while let Some(nx) = dfs.next(g) { out.push(nx) }`: the visited nodes in order and the final
discovered set; `none` if the fuel does not suffice. -/
def dfsCollect (adj : Nat → List Nat) : Nat → List Nat → List Nat → Option (List Nat × List Nat)
  | 0, _, _ => none
  | fuel + 1, stack, disc =>
    match dfsNext adj stack disc with
    | none => some ([], disc)
    | some (nx, stack', disc') =>
      match dfsCollect adj fuel stack' disc' with
      | none => none
      | some (rest, disc'') => some (nx :: rest, disc'')

/-! ### `DfsPostOrder` (petgraph `visit/traversal.rs`) -/

/-- State of a `DfsPostOrder`. `fin` is also the list of nodes returned so far, latest first. -/
structure PostState where
  stack : List Nat
  disc : List Nat
  fin : List Nat
  deriving DecidableEq, Repr

/-- `while let Some(nx) = dfs.next(g) { finish_order.push(nx) }` with `DfsPostOrder::next` inlined:
one unit of fuel per iteration of the inner `while let Some(&nx) = self.stack.last()`. -/
def postLoop (adj : Nat → List Nat) : Nat → PostState → Option PostState
  | 0, _ => none
  | fuel + 1, st =>
    match st.stack with
    | [] => some st
    | nx :: rest =>
      if st.disc.contains nx then
        -- second time: pop; report it if it was not finished yet
        postLoop adj fuel
          { st with stack := rest, fin := if st.fin.contains nx then st.fin else nx :: st.fin }
      else
        -- first time visiting `nx`: push neighbours, don't pop `nx`
        postLoop adj fuel
          { st with
            stack := pushUnvisited (nx :: st.disc) (adj nx) (nx :: rest)
            disc := nx :: st.disc }

/-- Number of edges seen by `adj` from the nodes `0..n`. -/
def degreeSum (adj : Nat → List Nat) (n : Nat) : Nat :=
  ((List.range n).map (fun u => (adj u).length)).sum

/-- First phase of `kosaraju_scc`: for each node index, in order, that is not discovered yet, run a
post-order search on the reversed graph. Returns the finish order, latest first. -/
def finishOrder (radj : Nat → List Nat) (fuel : Nat) : List Nat → PostState → Option PostState
  | [], st => some st
  | i :: is, st =>
    if st.disc.contains i then finishOrder radj fuel is st
    else
      -- `dfs.move_to(i)` clears the stack and pushes `i`
      match postLoop radj fuel { st with stack := [i] } with
      | none => none
      | some st' => finishOrder radj fuel is st'

/-- Second phase of `kosaraju_scc`: process nodes in decreasing finishing time. -/
def collectSccs (adj : Nat → List Nat) (fuel : Nat) : List Nat → List Nat → Option (List (List Nat))
  | [], _ => some []
  | i :: is, disc =>
    if disc.contains i then collectSccs adj fuel is disc
    else
      match dfsCollect adj fuel [i] disc with
      | none => none
      | some (scc, disc') =>
        match collectSccs adj fuel is disc' with
        | none => none
        | some sccs => some (scc :: sccs)

/-- `algo::kosaraju_scc` for a graph with nodes `0..n`, neighbours `adj` and incoming neighbours
`radj`. -/
def kosaraju (n : Nat) (adj radj : Nat → List Nat) : Option (List (List Nat)) :=
  match finishOrder radj (n + degreeSum radj n + 2) (List.range n) ⟨[], [], []⟩ with
  | none => none
  | some st => collectSccs adj (n + 1) st.fin []

/-! ### `Topo` (petgraph `visit/traversal.rs`) -/

/-- The `for neigh in g.neighbors(nix)` loop of `Topo::next`: push the neighbours all of whose
predecessors are ordered. -/
def topoPush (radj : Nat → List Nat) (ordered : List Nat) : List Nat → List Nat → List Nat
  | [], tovisit => tovisit
  | neigh :: rest, tovisit =>
    topoPush radj ordered rest
      (if (radj neigh).all (fun b => ordered.contains b) then neigh :: tovisit else tovisit)

/-- `Topo::next`. -/
def topoNext (adj radj : Nat → List Nat) : List Nat → List Nat → Option (Nat × List Nat × List Nat)
  | [], _ => none
  | nix :: tovisit, ordered =>
    if ordered.contains nix then topoNext adj radj tovisit ordered
    else some (nix, topoPush radj (nix :: ordered) (adj nix) tovisit, nix :: ordered)

/-- All nodes returned by `Topo`, in order. -/
def topoCollect (adj radj : Nat → List Nat) : Nat → List Nat → List Nat → Option (List Nat)
  | 0, _, _ => none
  | fuel + 1, tovisit, ordered =>
    match topoNext adj radj tovisit ordered with
    | none => some []
    | some (nx, tovisit', ordered') =>
      match topoCollect adj radj fuel tovisit' ordered' with
      | none => none
      | some rest => some (nx :: rest)

/-- `Topo::new` followed by all `Topo::next`: the initial nodes are those without predecessors
(`extend` pushes them in index order, so the last one is on top). -/
def topoOrder (n : Nat) (adj radj : Nat → List Nat) : Option (List Nat) :=
  topoCollect adj radj (n + 1) ((List.range n).filter (fun a => (radj a).isEmpty)).reverse []

/-! ### `is_cyclic_directed` (petgraph `algo/mod.rs`, `visit/dfsvisit.rs`) -/

/-- Visit maps of `depth_first_search`. -/
structure VisitState where
  disc : List Nat
  fin : List Nat
  deriving DecidableEq, Repr

/-- The `for v in graph.neighbors(u)` loop of `dfs_visitor`; `recur` visits a tree edge. The Boolean
result is `true` iff a back edge was found (`Err(())`, which stops the search). -/
def visitNeighbors (recur : Nat → VisitState → Option (Bool × VisitState)) :
    List Nat → VisitState → Option (Bool × VisitState)
  | [], st => some (false, st)
  | v :: vs, st =>
    if !st.disc.contains v then
      match recur v st with
      | some (false, st') => visitNeighbors recur vs st'
      | r => r
    else if !st.fin.contains v then some (true, st)
    else visitNeighbors recur vs st

/-- `dfs_visitor` with the visitor of `is_cyclic_directed`; the fuel bounds the recursion depth. -/
def dfsVisitor (adj : Nat → List Nat) : Nat → Nat → VisitState → Option (Bool × VisitState)
  | 0, _, _ => none
  | fuel + 1, u, st =>
    if st.disc.contains u then some (false, st)
    else
      match visitNeighbors (dfsVisitor adj fuel) (adj u) { st with disc := u :: st.disc } with
      | some (false, st') => some (false, { st' with fin := u :: st'.fin })
      | r => r

/-- `depth_first_search(g, g.node_identifiers(), ..)`. -/
def dfsAll (adj : Nat → List Nat) (fuel : Nat) : List Nat → VisitState → Option Bool
  | [], _ => some false
  | u :: us, st =>
    match dfsVisitor adj fuel u st with
    | none => none
    | some (true, _) => some true
    | some (false, st') => dfsAll adj fuel us st'

/-- `algo::is_cyclic_directed`. -/
def isCyclic (n : Nat) (adj : Nat → List Nat) : Option Bool :=
  dfsAll adj (n + 1) (List.range n) ⟨[], []⟩

end CallStack
