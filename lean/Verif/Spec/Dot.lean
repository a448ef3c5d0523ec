import Verif.Model.Stack
import Verif.Spec.Names

/-!
A reader for the DOT language (lexer and statement parser), written from graphviz' grammar and
independent of the printer in `Model/Output`.

Lexical rules (graphviz `lib/cgraph/scan.l`): white space separates tokens; words consist of letters,
digits and `_`; inside a quoted string `\"` stands for a quote, a backslash followed by a line break
is dropped, any other backslash is kept together with the character after it, and an unescaped quote
ends the string.
-/

namespace CallStack

inductive DotTok where
  | word (s : Str)
  | str (s : Str)
  | lbrace | rbrace | lbrack | rbrack | eq | arrow
  deriving DecidableEq, Repr

inductive LexMode where
  | top
  /-- inside a word (characters so far, reversed) -/
  | word (acc : Str)
  /-- after `-` -/
  | dash
  /-- inside a quoted string -/
  | quoted (acc : Str)
  /-- after a backslash inside a quoted string -/
  | esc (acc : Str)
  deriving DecidableEq, Repr

def isWordChar (c : Char) : Bool :=
  (48 ≤ c.toNat && c.toNat ≤ 57) || (65 ≤ c.toNat && c.toNat ≤ 90) ||
  (97 ≤ c.toNat && c.toNat ≤ 122) || c.toNat == 95

/-- One character outside of words and strings. -/
def lexTop (ts : List DotTok) (c : Char) : Option (LexMode × List DotTok) :=
  if c = ' ' ∨ c = '\n' ∨ c = '\t' ∨ c = '\r' then some (.top, ts)
  else if c = '{' then some (.top, .lbrace :: ts)
  else if c = '}' then some (.top, .rbrace :: ts)
  else if c = '[' then some (.top, .lbrack :: ts)
  else if c = ']' then some (.top, .rbrack :: ts)
  else if c = '=' then some (.top, .eq :: ts)
  else if c = '-' then some (.dash, ts)
  else if c = '"' then some (.quoted [], ts)
  else if isWordChar c then some (.word [c], ts)
  else none

/-- One character; the tokens so far are in reverse order. -/
def lexStep : LexMode × List DotTok → Char → Option (LexMode × List DotTok)
  | (.top, ts), c => lexTop ts c
  | (.word acc, ts), c =>
    if isWordChar c then some (.word (c :: acc), ts) else lexTop (.word acc.reverse :: ts) c
  | (.dash, ts), c => if c = '>' then some (.top, .arrow :: ts) else none
  | (.quoted acc, ts), c =>
    if c = '"' then some (.top, .str acc.reverse :: ts)
    else if c = '\\' then some (.esc acc, ts)
    else some (.quoted (c :: acc), ts)
  | (.esc acc, ts), c =>
    if c = '"' then some (.quoted ('"' :: acc), ts)
    else if c = '\n' then some (.quoted acc, ts)
    else some (.quoted (c :: '\\' :: acc), ts)

/-- Tokens of a text. -/
def dotLex (s : Str) : Option (List DotTok) :=
  match s.foldlM lexStep (.top, []) with
  | some (.top, ts) => some ts.reverse
  | some (.word acc, ts) => some (.word acc.reverse :: ts).reverse
  | _ => none

/-- Attributes: name and value. -/
abbrev Attrs := List (Str × Str)

/-- Statements of a DOT graph, by kind, in order. -/
structure DotFile where
  /-- `node [..]` -/
  defaults : List Attrs
  /-- `id [..]` -/
  nodes : List (Str × Attrs)
  /-- `id -> id` -/
  edges : List (Str × Str)
  /-- `subgraph id { name=value .. id .. }` -/
  clusters : List (Str × Attrs × List Str)
  deriving DecidableEq, Repr

/-- Where the parser is. -/
inductive DotState where
  | start
  | digraph
  | body
  /-- after the first word of a statement -/
  | ident (w : Str)
  | arrow (w : Str)
  | attrs (w : Str) (as : Attrs)
  | attrName (w : Str) (as : Attrs) (k : Str)
  | attrEq (w : Str) (as : Attrs) (k : Str)
  | subgraph
  | subgraphName (n : Str)
  | cluster (n : Str) (as : Attrs) (ns : List Str)
  | clusterId (n : Str) (as : Attrs) (ns : List Str) (w : Str)
  | clusterEq (n : Str) (as : Attrs) (ns : List Str) (w : Str)
  | done
  deriving DecidableEq, Repr

/-- End of an attribute list of the statement that begins with word `w`. -/
def DotFile.addAttrs (d : DotFile) (w : Str) (as : Attrs) : DotFile :=
  if w = c!"node" then { d with defaults := d.defaults ++ [as] }
  else { d with nodes := d.nodes ++ [(w, as)] }

/-- One token. -/
def dotStep : DotState × DotFile → DotTok → Option (DotState × DotFile)
  | (.start, d), .word w => if w = c!"digraph" then some (.digraph, d) else none
  | (.digraph, d), .lbrace => some (.body, d)
  | (.body, d), .rbrace => some (.done, d)
  | (.body, d), .word w => if w = c!"subgraph" then some (.subgraph, d) else some (.ident w, d)
  | (.ident w, d), .lbrack => some (.attrs w [], d)
  | (.ident w, d), .arrow => some (.arrow w, d)
  | (.arrow w, d), .word v => some (.body, { d with edges := d.edges ++ [(w, v)] })
  | (.attrs w as, d), .rbrack => some (.body, d.addAttrs w as)
  | (.attrs w as, d), .word k => some (.attrName w as k, d)
  | (.attrName w as k, d), .eq => some (.attrEq w as k, d)
  | (.attrEq w as k, d), .word v => some (.attrs w (as ++ [(k, v)]), d)
  | (.attrEq w as k, d), .str v => some (.attrs w (as ++ [(k, v)]), d)
  | (.subgraph, d), .word n => some (.subgraphName n, d)
  | (.subgraphName n, d), .lbrace => some (.cluster n [] [], d)
  | (.cluster n as ns, d), .rbrace => some (.body, { d with clusters := d.clusters ++ [(n, as, ns)] })
  | (.cluster n as ns, d), .word w => some (.clusterId n as ns w, d)
  | (.clusterId n as ns w, d), .eq => some (.clusterEq n as ns w, d)
  | (.clusterId n as ns w, d), .word w' => some (.clusterId n as (ns ++ [w]) w', d)
  | (.clusterId n as ns w, d), .rbrace =>
    some (.body, { d with clusters := d.clusters ++ [(n, as, ns ++ [w])] })
  | (.clusterEq n as ns w, d), .word v => some (.cluster n (as ++ [(w, v)]) ns, d)
  | (.clusterEq n as ns w, d), .str v => some (.cluster n (as ++ [(w, v)]) ns, d)
  | _, _ => none

/-- Parse a DOT file. -/
def readDot (s : Str) : Option DotFile :=
  match dotLex s with
  | none => none
  | some ts =>
    match ts.foldlM dotStep (.start, ⟨[], [], [], []⟩) with
    | some (.done, d) => some d
    | _ => none

/-! ### what a DOT file of the tool means -/

/-- A decimal number. -/
def readDec (s : Str) : Option Nat :=
  if s ≠ [] ∧ ∀ c ∈ s, c ∈ c!"0123456789" then some (decValue s) else none

/-- The first line of a label, and the text after it if there are more lines (graphviz' `escString`): `\n`, `\l`
and `\r` end a line; `\N`, `\G`, `\E`, `\T`, `\H` and `\L` stand for names of objects and are no text; any other
character after a backslash stands for itself. -/
def splitEsc : Str → Option (Str × Option Str)
  | [] => some ([], none)
  | ['\\'] => none
  | '\\' :: c :: rest =>
    if c ∈ c!"nlr" then some ([], some rest)
    else if c ∈ c!"NGETHL" then none
    else (splitEsc rest).map fun (a, b) => (c :: a, b)
  | c :: rest => (splitEsc rest).map fun (a, b) => (c :: a, b)

/-- Text after a given prefix. -/
def afterPrefix : Str → Str → Option Str
  | [], s => some s
  | _ :: _, [] => none
  | p :: ps, c :: s => if p = c then afterPrefix ps s else none

/-- `local = n` or `local = ?` -/
def readLocal (s : Str) : Option Local :=
  match afterPrefix c!"local = " s with
  | none => none
  | some v => if v = c!"?" then some .unknown else (readDec v).map .exact

/-- `max = n` or `max >= n` -/
def readMax (s : Str) : Option Max :=
  match afterPrefix c!"max = " s with
  | some v => (readDec v).map .exact
  | none =>
    match afterPrefix c!"max >= " s with
    | some v => (readDec v).map .lowerBound
    | none => none

/-- The lines of a label: name, optional max, local. -/
def readLabel (s : Str) : Option (Str × Option Max × Local) :=
  match splitEsc s with
  | none | some (_, none) => none
  | some (name, some rest) =>
    match splitEsc rest with
    | none => none
    | some (loc, none) => (readLocal loc).map fun l => (name, none, l)
    | some (mx, some loc) =>
      match readMax mx, readLocal loc with
      | some m, some l => some (name, some m, l)
      | _, _ => none

/-- A node as seen by the reader of the graph. -/
structure ShownNode where
  name : Str
  max : Option Max
  loc : Local
  dashed : Bool
  deriving DecidableEq, Repr

/-- Attributes of a node: a label, and possibly `style=dashed`. -/
def readNodeAttrs (as : Attrs) : Option ShownNode :=
  match as with
  | [(k, v)] => if k = c!"label" then (readLabel v).map fun (n, m, l) => ⟨n, m, l, false⟩ else none
  | [(k, v), (k', v')] =>
    if k = c!"label" ∧ k' = c!"style" ∧ v' = c!"dashed" then
      (readLabel v).map fun (n, m, l) => ⟨n, m, l, true⟩ else none
  | _ => none

/-- Nodes, which must be numbered consecutively. -/
def readNodes : Nat → List (Str × Attrs) → Option (List ShownNode)
  | _, [] => some []
  | i, (w, as) :: rest =>
    if readDec w = some i then
      match readNodeAttrs as, readNodes (i + 1) rest with
      | some n, some ns => some (n :: ns)
      | _, _ => none
    else none

def readEdge (e : Str × Str) : Option (Nat × Nat) :=
  match readDec e.1, readDec e.2 with
  | some a, some b => some (a, b)
  | _, _ => none

/-- The graph that a DOT file of the tool shows: nodes, calls, clusters. -/
def DotFile.meaning (d : DotFile) :
    Option (List ShownNode × List (Nat × Nat) × List (List Nat)) :=
  match readNodes 0 d.nodes, d.edges.mapM readEdge, d.clusters.mapM (fun c => c.2.2.mapM readDec) with
  | some ns, some es, some cs => some (ns, es, cs)
  | _, _, _ => none

end CallStack

/-! ### a reader for the top listing -/

namespace CallStack

/-- Split at the first occurrence of a character. -/
def splitFirst (sep : Char) : Str → Option (Str × Str)
  | [] => none
  | c :: s =>
    if c = sep then some ([], s)
    else (splitFirst sep s).map fun (a, b) => (c :: a, b)

/-- Complete lines of a text (the last one must be terminated). -/
def linesOf : Str → Option (List Str)
  | [] => some []
  | c :: s =>
    if c = '\n' then (linesOf s).map ([] :: ·)
    else
      match linesOf s with
      | some (l :: ls) => some ((c :: l) :: ls)
      | _ => none

/-- Undo the escaping of quotes. -/
def unescape : Str → Str
  | [] => []
  | '\\' :: '"' :: s => '"' :: unescape s
  | c :: s => c :: unescape s

/-- `<number> <name>` -/
def readUsage (line : Str) : Option (Nat × Str) :=
  match splitFirst ' ' line with
  | none => none
  | some (v, name) => (readDec v).map fun n => (n, unescape name)

/-- The listing: the number of the `MAX` line, if any, and the functions with their usage. -/
def readTop (s : Str) : Option (Option Nat × List (Nat × Str)) :=
  match linesOf s with
  | none => none
  | some ls =>
    match ls with
    | [] => none
    | first :: rest =>
      if first = c!"Usage Function" then (rest.mapM readUsage).map fun us => (none, us)
      else
        match readUsage first, rest with
        | some (m, name), second :: rest' =>
          if name = c!"MAX" ∧ second = c!"Usage Function" then
            (rest'.mapM readUsage).map fun us => (some m, us)
          else none
        | _, _ => none

end CallStack
