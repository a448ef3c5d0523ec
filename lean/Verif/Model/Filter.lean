import Verif.Model.PetGraph

/-!
Start point resolution and filtering of the call graph, src/main.rs:1067-1133.
-/

namespace CallStack

/-- `str::starts_with` (the prefix is a valid string, so comparing characters is the same as comparing
bytes). -/
def startsWith : Str → Str → Bool
  | _, [] => true
  | [], _ :: _ => false
  | c :: s, p :: ps => c == p && startsWith s ps

/-- Lookup in a map given as a list of entries with distinct keys. -/
def lookupStr {α : Type} (name : Str) : List (Str × α) → Option α
  | [] => none
  | (k, v) :: rest => if k = name then some v else lookupStr name rest

/-- main.rs:1069-1092: the node index of the start point, if it can be resolved. `indices` is the
`BTreeMap<Cow<str>, NodeIndex>` as the list of its entries in key order; `demangle` stands for
`rustc_demangle::demangle(..).to_string()`. -/
def resolveStart (demangle : Str → Str) (indices : List (Str × Nat)) (start : Str) : Option Nat :=
  match lookupStr start indices with
  | some i => some i
  | none =>
    let start' := start ++ c!"::h"
    let hits := (indices.map (·.1)).filter (fun key => startsWith (demangle key) start')
    if hits.length > 1 then none
    else
      match hits with
      | [] => none
      | key :: _ => lookupStr key indices     -- `indices[*key]`

/-- Lookup in `one2two : BTreeMap<NodeIndex, NodeIndex>`. -/
def lookupIx (i : Nat) : List (Nat × Nat) → Option Nat
  | [] => none
  | (k, v) :: rest => if k = i then some v else lookupIx i rest

/-- State of the filter loop: `g2` and `one2two`. -/
structure FilterState where
  g2 : Graph
  one2two : List (Nat × Nat)
  deriving DecidableEq, Repr

/-- main.rs:1103-1109 and 1113-1119: the index in `g2` of a node of `g`, adding it if needed. -/
def getOrAdd (g : Graph) (st : FilterState) (i1 : Nat) : Except Panic (FilterState × Nat) :=
  match lookupIx i1 st.one2two with
  | some i2 => .ok (st, i2)
  | none =>
    match g.nodes[i1]? with
    | none => .error .badIndex
    | some w =>
      let (g2, i2) := st.g2.addNode w
      .ok (⟨g2, (i1, i2) :: st.one2two⟩, i2)

/-- main.rs:1111-1122: the loop over the callees of one caller. -/
def filterCallees (g : Graph) (caller2 : Nat) : FilterState → List Nat → Except Panic FilterState
  | st, [] => .ok st
  | st, callee1 :: rest =>
    match getOrAdd g st callee1 with
    | .error e => .error e
    | .ok (st', callee2) =>
      filterCallees g caller2 { st' with g2 := st'.g2.addEdge caller2 callee2 } rest

/-- main.rs:1102-1123: the loop over the nodes produced by the depth first search. `g` is not modified
by the loop, so the nodes can be collected first. -/
def filterLoop (g : Graph) : FilterState → List Nat → Except Panic FilterState
  | st, [] => .ok st
  | st, caller1 :: rest =>
    match getOrAdd g st caller1 with
    | .error e => .error e
    | .ok (st', caller2) =>
      match filterCallees g caller2 st' (g.out caller1) with
      | .error e => .error e
      | .ok st'' => filterLoop g st'' rest

/-- main.rs:1095-1126: the graph reachable from `start`. -/
def filterGraph (g : Graph) (start : Nat) : Except Panic FilterState :=
  match dfsCollect g.out (g.nodes.length + 1) [start] [] with
  | none => .error .fuel
  | some (order, _) => filterLoop g ⟨Graph.empty, []⟩ order

/-- main.rs:1067-1133: filter the call graph if a start point is given and found. -/
def applyStart (demangle : Str → Str) (indices : List (Str × Nat)) (start : Option Str) (g : Graph) :
    Except Panic Graph :=
  match start with
  | none => .ok g
  | some s =>
    match resolveStart demangle indices s with
    | none => .ok g                 -- "start point not found; the graph will not be filtered"
    | some i =>
      match filterGraph g i with
      | .error e => .error e
      | .ok st => .ok st.g2

end CallStack
