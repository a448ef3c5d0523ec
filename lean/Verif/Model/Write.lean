import Verif.Model.Run

/-!
How the output is handed to standard output, and what happens when that fails (src/main.rs:84-92, 1228-1386).

Model/Output gives the text. Here `dot`, `top` and `Escaper` are modelled as they call `io::Write`, including the
operator `?`. Standard output is an arbitrary `Sink`, so buffering is covered. `write!` hands over the parts between
placeholders and the arguments one after the other; so does the `Display` of demangled names, in pieces that
`display` gives.
-/

namespace CallStack

variable {σ ε : Type}

/-- `io::Result<()>` together with the state of the sink. -/
structure Written (σ ε : Type) where
  error : Option ε
  state : σ
  deriving DecidableEq, Repr

/-- `io::Write::write_all`. -/
structure Sink (σ ε : Type) where
  put : Str → σ → Written σ ε

/-- The operator `?` followed by the rest of the function. -/
def Written.next (r : Written σ ε) (k : σ → Written σ ε) : Written σ ε :=
  match r with
  | ⟨some e, s⟩ => ⟨some e, s⟩
  | ⟨none, s⟩ => k s

/-- `write!(stdout, ..)`: `io::Write::write_fmt` stops at the first error. -/
def Sink.fmt (w : Sink σ ε) : List Str → σ → Written σ ε
  | [], s => ⟨none, s⟩
  | p :: ps, s => (w.put p s).next (w.fmt ps)

/-- `struct Escaper` (main.rs:1337-1343). -/
structure Escaper (σ ε : Type) where
  writer : σ
  error : Option ε

/-- `Escaper::write_char` (main.rs:1369-1385); `true` is `Ok(())`, `false` is `fmt::Error`. -/
def Escaper.writeChar (w : Sink σ ε) (c : Char) (x : Escaper σ ε) : Bool × Escaper σ ε :=
  let r :=
    if c = '"' then (w.fmt [c!"\\"] x.writer).next (w.fmt [[c]])
    else w.fmt [[c]] x.writer
  match r with
  | ⟨some e, s⟩ => (false, ⟨s, some e⟩)
  | ⟨none, s⟩ => (true, ⟨s, x.error⟩)

/-- `Escaper::write_str` (main.rs:1361-1367). -/
def Escaper.writeStr (w : Sink σ ε) : Str → Escaper σ ε → Bool × Escaper σ ε
  | [], x => (true, x)
  | c :: cs, x =>
    match Escaper.writeChar w c x with
    | (false, x') => (false, x')
    | (true, x') => Escaper.writeStr w cs x'

/-- `fmt::Write::write_fmt`: one piece after the other. -/
def Escaper.writeFmt (w : Sink σ ε) : List Str → Escaper σ ε → Bool × Escaper σ ε
  | [], x => (true, x)
  | p :: ps, x =>
    match Escaper.writeStr w p x with
    | (false, x') => (false, x')
    | (true, x') => Escaper.writeFmt w ps x'

/-- main.rs:1248-1250, 1330-1332: `write!(escaper, ..).ok()` and `escaper.error?`. -/
def escaped (w : Sink σ ε) (pieces : List Str) (s : σ) : Written σ ε :=
  let x := (Escaper.writeFmt w pieces ⟨s, none⟩).2
  ⟨x.error, x.writer⟩

/-- `impl Display for Max` (main.rs:1479-1486). -/
def Max.pieces : Max → List Str
  | .exact n => [c!"= ", showNat n]
  | .lowerBound n => [c!">= ", showNat n]

/-- One write after the other for the elements of a list, `for` with `?` in the body. -/
def forEach {α : Type} (f : α → σ → Written σ ε) : List α → σ → Written σ ε
  | [], s => ⟨none, s⟩
  | a :: as, s => (f a s).next (forEach f as)

/-- main.rs:1244-1262: one node. -/
def writeNode (w : Sink σ ε) (display : Str → List Str) (i : Nat) (node : Node) (s : σ) : Written σ ε :=
  (w.fmt [c!"    ", showNat i, c!" [label=\""] s).next fun s =>
  (escaped w (display node.name) s).next fun s =>
  ((match node.max with
    | some max => w.fmt (c!"\\nmax " :: max.pieces) s
    | none => ⟨none, s⟩ : Written σ ε)).next fun s =>
  (w.fmt [c!"\\nlocal = ", node.loc.show, c!"\""] s).next fun s =>
  ((if node.dashed then w.fmt [c!" style=dashed"] s else ⟨none, s⟩ : Written σ ε)).next fun s =>
  w.fmt [c!"]\n"] s

/-- main.rs:1243-1263: all nodes. -/
def writeNodes (w : Sink σ ε) (display : Str → List Str) : Nat → List Node → σ → Written σ ε
  | _, [], s => ⟨none, s⟩
  | i, node :: rest, s => (writeNode w display i node s).next (writeNodes w display (i + 1) rest)

/-- main.rs:1265-1272: one edge. -/
def writeEdge (w : Sink σ ε) (e : Nat × Nat) (s : σ) : Written σ ε :=
  w.fmt [c!"    ", showNat e.1, c!" -> ", showNat e.2, c!"\n"] s

/-- main.rs:1274-1285: one cluster. -/
def writeCluster (w : Sink σ ε) (i : Nat) (cycle : List Nat) (s : σ) : Written σ ε :=
  (w.fmt [c!"\n    subgraph cluster_", showNat i, c!" {\n"] s).next fun s =>
  (w.fmt [c!"        style=dashed\n"] s).next fun s =>
  (w.fmt [c!"        fontname=", font, c!"\n"] s).next fun s =>
  (w.fmt [c!"        label=\"SCC", showNat i, c!"\"\n"] s).next fun s =>
  (forEach (fun node => w.fmt [c!"        ", showNat node, c!"\n"]) cycle s).next fun s =>
  w.fmt [c!"    }\n"] s

/-- main.rs:1274-1285: all clusters. -/
def writeClusters (w : Sink σ ε) : Nat → List (List Nat) → σ → Written σ ε
  | _, [], s => ⟨none, s⟩
  | i, cycle :: rest, s => (writeCluster w i cycle s).next (writeClusters w (i + 1) rest)

/-- `fn dot` (main.rs:1236-1288). -/
def dotWrite (w : Sink σ ε) (display : Str → List Str) (g : Graph) (cycles : List (List Nat)) (s : σ) :
    Written σ ε :=
  (w.fmt [c!"digraph {\n"] s).next fun s =>
  (w.fmt [c!"    node [fontname=", font, c!" shape=box]\n"] s).next fun s =>
  (writeNodes w display 0 g.nodes s).next fun s =>
  (forEach (writeEdge w) g.edges s).next fun s =>
  (writeClusters w 0 cycles s).next fun s =>
  w.fmt [c!"}\n"] s

/-- main.rs:1321-1333: one line. -/
def writeTopLine (w : Sink σ ε) (display : Str → List Str) (node : Node) (s : σ) : Written σ ε :=
  (w.fmt [showNat node.loc.topVal, c!" "] s).next fun s =>
  escaped w (display node.name ++ [c!"\n"]) s

/-- `fn top` (main.rs:1290-1335). -/
def topWrite (w : Sink σ ε) (display : Str → List Str) (g : Graph) (s : σ) : Written σ ε :=
  ((match maxOf (g.nodes.map (fun n => n.max.getD (.exact 0))) with
    | some max => w.fmt [showNat max.topVal, c!" MAX\n"] s
    | none => ⟨none, s⟩ : Written σ ε)).next fun s =>
  (w.fmt [c!"Usage Function\n"] s).next fun s =>
  forEach (writeTopLine w display) (sortTop g.nodes) s

/-- main.rs:420-1233: with the result of `run` after the inputs are loaded; `none` is `Ok(0)`. -/
def runWrite (w : Sink σ ε) (display : Str → List Str) (ord : HashOrder) (search : TagSearch) (p : Program)
    (elf : Elf) (start : Option Str) (format : OutputFormat) (s : σ) : Except Panic (Written σ ε) :=
  match finalGraph (fun name => (display name).flatten) ord search p elf start with
  | .error e => .error e
  | .ok (g, cycles) =>
    match format with
    | .dot => .ok (dotWrite w display g cycles s)
    | .top => .ok (topWrite w display g s)

/-- `main` (main.rs:84-92): the exit status. -/
def exitStatus : Option ε → Int
  | none => 0
  | some _ => 1

end CallStack
