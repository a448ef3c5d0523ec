import Verif.Model.PetGraph

/-!
Output of the analysed graph: `dot` and `top` (src/main.rs:1228-1386, 1416-1423, 1479-1486).

The functions return the bytes written to standard output (as characters). I/O errors of `stdout` are
in Model/Write. `demangle` stands for `rustc_demangle::demangle(..).to_string()`.
-/

namespace CallStack

/-- Character of a decimal digit. -/
def digitChar (d : Nat) : Char := Char.ofNat (48 + d)

/-- `Display` for unsigned integers. (Recursion on a bound of the number of digits.) -/
def showNatAux : Nat → Nat → Str
  | 0, n => [digitChar (n % 10)]
  | fuel + 1, n => if n < 10 then [digitChar n] else showNatAux fuel (n / 10) ++ [digitChar (n % 10)]

/-- `write!(f, "{}", n)` for `u64`, `usize`. -/
def showNat (n : Nat) : Str := showNatAux n n

/-- `impl Display for Local` (main.rs:1416-1423). -/
def Local.show : Local → Str
  | .exact n => showNat n
  | .unknown => c!"?"

/-- `impl Display for Max` (main.rs:1479-1486). -/
def Max.show : Max → Str
  | .exact n => c!"= " ++ showNat n
  | .lowerBound n => c!">= " ++ showNat n

/-- `Escaper::write_char` (main.rs:1369-1385): a quote is preceded by a backslash. -/
def escapeChar (c : Char) : Str :=
  match c with
  | '"' => ['\\', '"']
  | c => [c]

/-- `Escaper::write_str` (main.rs:1361-1367). -/
def escape (s : Str) : Str := s.flatMap escapeChar

/-- main.rs:95 -/
def font : Str := c!"monospace"

/-- main.rs:1252-1254 -/
def dotMax : Option Max → Str
  | some max => c!"\\nmax " ++ max.show
  | none => []

/-- main.rs:1246-1262: one node. -/
def dotNode (demangle : Str → Str) (i : Nat) (node : Node) : Str :=
  c!"    " ++ showNat i ++ c!" [label=\"" ++ escape (demangle node.name) ++
  dotMax node.max ++
  (c!"\\nlocal = " ++ node.loc.show ++ c!"\"") ++
  (if node.dashed then c!" style=dashed" else []) ++
  c!"]\n"

/-- main.rs:1243-1263: all nodes; `i` is the index of the first one. -/
def dotNodes (demangle : Str → Str) : Nat → List Node → Str
  | _, [] => []
  | i, node :: rest => dotNode demangle i node ++ dotNodes demangle (i + 1) rest

/-- main.rs:1265-1272: one edge. -/
def dotEdge (e : Nat × Nat) : Str := c!"    " ++ showNat e.1 ++ c!" -> " ++ showNat e.2 ++ c!"\n"

/-- main.rs:1274-1285: one cluster. -/
def dotCluster (i : Nat) (cycle : List Nat) : Str :=
  c!"\n    subgraph cluster_" ++ showNat i ++ c!" {\n" ++
  c!"        style=dashed\n" ++
  (c!"        fontname=" ++ font ++ c!"\n") ++
  (c!"        label=\"SCC" ++ showNat i ++ c!"\"\n") ++
  cycle.flatMap (fun node => c!"        " ++ showNat node ++ c!"\n") ++
  c!"    }\n"

/-- main.rs:1274-1285: all clusters. -/
def dotClusters : Nat → List (List Nat) → Str
  | _, [] => []
  | i, cycle :: rest => dotCluster i cycle ++ dotClusters (i + 1) rest

/-- `fn dot` (main.rs:1236-1288). -/
def dotText (demangle : Str → Str) (g : Graph) (cycles : List (List Nat)) : Str :=
  c!"digraph {\n" ++
  (c!"    node [fontname=" ++ font ++ c!" shape=box]\n") ++
  dotNodes demangle 0 g.nodes ++
  g.edges.flatMap dotEdge ++
  dotClusters 0 cycles ++
  c!"}\n"

/-- The sort key of `top` (main.rs:1316-1317, 1323-1327). -/
def Local.topVal : Local → Nat
  | .exact n => n
  | .unknown => 0

/-- Insert into a list sorted by decreasing key, before the first element with a smaller or equal
key (inserting elements from last to first keeps equal keys in order). -/
def insertTop (a : Node) : List Node → List Node
  | [] => [a]
  | b :: l => if b.loc.topVal ≤ a.loc.topVal then a :: b :: l else b :: insertTop a l

/-- `nodes.sort_by(|a, b| b.cmp(&a))` (main.rs:1315-1319). `slice::sort_by` is a stable sort; any
stable sort by the same keys gives the same list (`C24_stable_sort_unique`), so an insertion sort
stands for it. -/
def sortTop : List Node → List Node
  | [] => []
  | a :: l => insertTop a (sortTop l)

/-- main.rs:1306-1309 -/
def Max.topVal : Max → Nat
  | .exact n => n
  | .lowerBound n => n

/-- main.rs:1301-1311 -/
def topMaxLine (nodes : List Node) : Str :=
  match maxOf (nodes.map (fun n => n.max.getD (.exact 0))) with
  | some max => showNat max.topVal ++ c!" MAX\n"
  | none => []

/-- main.rs:1321-1333: one line; the line break goes through the escaper too. -/
def topLine (demangle : Str → Str) (node : Node) : Str :=
  showNat node.loc.topVal ++ c!" " ++ escape (demangle node.name ++ c!"\n")

/-- `fn top` (main.rs:1290-1335). -/
def topText (demangle : Str → Str) (g : Graph) : Str :=
  topMaxLine g.nodes ++ c!"Usage Function\n" ++ (sortTop g.nodes).flatMap (topLine demangle)

end CallStack
