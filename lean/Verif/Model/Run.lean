import Verif.Model.Machine
import Verif.Model.Analysis
import Verif.Model.Output

/-!
The whole of `run` after the inputs are loaded (src/main.rs:420-1233).
-/

namespace CallStack

/-- `enum OutputFormat` (main.rs:43-47). -/
inductive OutputFormat where
  | dot
  | top
  deriving DecidableEq, Repr

/-- main.rs:420-1065: the call graph before filtering, and the variables used later. -/
def callGraph (demangle : Str → Str) (ord : HashOrder) (search : TagSearch) (p : Program) (elf : Elf) :
    Except Panic (Build × Graph) :=
  match irGraph demangle p with
  | .error e => .error e
  | .ok st =>
    match machinePass search p elf st with
    | .error e => .error e
    | .ok st => .ok (st, addIndirects ord st)

/-- main.rs:420-1226: the graph that is printed, with its cycles. -/
def finalGraph (demangle : Str → Str) (ord : HashOrder) (search : TagSearch) (p : Program) (elf : Elf)
    (start : Option Str) : Except Panic (Graph × List (List Nat)) :=
  match callGraph demangle ord search p elf with
  | .error e => .error e
  | .ok (st, g) =>
    match applyStart demangle st.indices start g with
    | .error e => .error e
    | .ok g =>
      match analyzeMax st.hasStackUsageInfo g with
      | .error e => .error e
      | .ok (g, cycles) =>
        match shortenNodes demangle st.ambiguous g.nodes with
        | .error e => .error e
        | .ok nodes => .ok ({ g with nodes }, cycles)

/-- main.rs:420-1233: the text written to standard output. -/
def runText (demangle : Str → Str) (ord : HashOrder) (search : TagSearch) (p : Program) (elf : Elf)
    (start : Option Str) (format : OutputFormat) : Except Panic Str :=
  match finalGraph demangle ord search p elf start with
  | .error e => .error e
  | .ok (g, cycles) =>
    match format with
    | .dot => .ok (dotText demangle g cycles)
    | .top => .ok (topText demangle g)

end CallStack
