import Verif.Props.Recursion

/-!
The other graphs of the README, as runs of the model. (The tool has changed since these pictures were made: machine
code was not analysed then. They are reproduced for a target without such an analysis.)
-/

namespace CallStack

/-- README.md:112-160, with functions of the run time: `Reset` calls `main`, and `SysTick` is an exception
handler. -/
def exDirect : Program :=
  { target := .other
    defined := [(0x400, ⟨[c!"app::bar"], 2⟩), (0x402, ⟨[c!"app::foo"], 2⟩), (0x404, ⟨[c!"app::baz"], 2⟩),
      (0x406, ⟨[c!"main"], 2⟩), (0x408, ⟨[c!"SysTick"], 2⟩), (0x40a, ⟨[c!"Reset"], 2⟩),
      (0x40c, ⟨[c!"DefaultHandler_"], 2⟩), (0x40e, ⟨[c!"DefaultPreInit"], 2⟩), (0x410, ⟨[c!"HardFault_"], 2⟩),
      (0x412, ⟨[c!"HardFaultTrampoline"], 2⟩)]
    undefined := []
    stackSizes := [(c!"app::bar", 16), (c!"app::foo", 8), (c!"app::baz", 8), (c!"main", 0), (c!"SysTick", 0),
      (c!"Reset", 0), (c!"DefaultHandler_", 0), (c!"DefaultPreInit", 0), (c!"HardFault_", 0)]
    defines := [⟨c!"app::bar", exSig, [.asm []]⟩, ⟨c!"app::foo", exSig, [.asm []]⟩, ⟨c!"app::baz", exSig, []⟩,
      ⟨c!"main", exSig, [.directCall c!"app::foo", .directCall c!"app::bar"]⟩,
      ⟨c!"SysTick", exSig, [.directCall c!"app::baz"]⟩,
      ⟨c!"Reset", exSig, [.directCall c!"DefaultPreInit", .directCall c!"main"]⟩,
      ⟨c!"DefaultHandler_", exSig, []⟩, ⟨c!"DefaultPreInit", exSig, []⟩, ⟨c!"HardFault_", exSig, []⟩]
    declares := [] }

/-- The names, local usages and maxima of a graph. -/
def Graph.figures (g : Graph) : List (Str × Local × Option Max) := g.nodes.map (fun nd => (nd.name, nd.loc, nd.max))

/-- assets/direct.svg -/
example (search : TagSearch) : ∃ g cs, finalGraph id sameOrder search exDirect ⟨[], none⟩ none = .ok (g, cs) ∧
    g.figures = [(c!"app::bar", .exact 16, some (.exact 16)), (c!"app::foo", .exact 8, some (.exact 8)),
      (c!"app::baz", .exact 8, some (.exact 8)), (c!"main", .exact 0, some (.exact 16)),
      (c!"SysTick", .exact 0, some (.exact 8)), (c!"Reset", .exact 0, some (.exact 16)),
      (c!"DefaultHandler_", .exact 0, some (.exact 0)), (c!"DefaultPreInit", .exact 0, some (.exact 0)),
      (c!"HardFault_", .exact 0, some (.exact 0)), (c!"HardFaultTrampoline", .unknown, some (.lowerBound 0))] ∧
    g.edges.Perm [(3, 0), (3, 1), (4, 2), (5, 3), (5, 7)] ∧ cs = [] :=
  finalGraph_eval rfl search _ none (fun g cs => g.figures = _ ∧ g.edges.Perm _ ∧ cs = []) (by decide +kernel)

/-- assets/filtered.svg: the same program with the start point `main`. -/
example (search : TagSearch) : ∃ g cs, finalGraph id sameOrder search exDirect ⟨[], none⟩ (some c!"main") =
      .ok (g, cs) ∧
    g.figures.Perm [(c!"main", .exact 0, some (.exact 16)), (c!"app::bar", .exact 16, some (.exact 16)),
      (c!"app::foo", .exact 8, some (.exact 8))] ∧ g.edges.length = 2 :=
  finalGraph_eval rfl search _ _ (fun g _ => g.figures.Perm _ ∧ g.edges.length = 2) (by decide +kernel)

/-- README.md:484-521 -/
def exFnPtr : Program :=
  { target := .other
    defined := [(0x400, ⟨[c!"main"], 2⟩), (0x402, ⟨[c!"app::foo"], 2⟩), (0x404, ⟨[c!"app::bar"], 2⟩),
      (0x406, ⟨[c!"SysTick"], 2⟩)]
    undefined := []
    stackSizes := [(c!"main", 0), (c!"app::foo", 8), (c!"app::bar", 16), (c!"SysTick", 0)]
    defines := [⟨c!"main", exSig, [.indirectCall ⟨[], some (.integer 1)⟩]⟩,
      ⟨c!"app::foo", ⟨[], some (.integer 1)⟩, [.asm []]⟩, ⟨c!"app::bar", ⟨[], some (.integer 1)⟩, [.asm []]⟩,
      ⟨c!"SysTick", exSig, []⟩]
    declares := [] }

/-- assets/fn.svg: the node `i1 ()*` stands for the call through a function pointer. -/
example (search : TagSearch) : ∃ g cs, finalGraph id sameOrder search exFnPtr ⟨[], none⟩ (some c!"main") =
      .ok (g, cs) ∧
    g.figures.Perm [(c!"main", .exact 0, some (.exact 16)), (c!"i1 ()*", .exact 0, some (.exact 16)),
      (c!"app::foo", .exact 8, some (.exact 8)), (c!"app::bar", .exact 16, some (.exact 16))] ∧
    g.edges.length = 3 :=
  finalGraph_eval rfl search _ _ (fun g _ => g.figures.Perm _ ∧ g.edges.length = 3) (by decide +kernel)

/-- README.md:541-590 -/
def exLossy : Program :=
  { target := .other
    defined := [(0x400, ⟨[c!"main"], 2⟩), (0x402, ⟨[c!"app::baz"], 2⟩), (0x404, ⟨[c!"app::foo"], 2⟩),
      (0x406, ⟨[c!"app::bar"], 2⟩), (0x408, ⟨[c!"SysTick"], 2⟩)]
    undefined := []
    stackSizes := [(c!"main", 8), (c!"app::baz", 16), (c!"app::foo", 8), (c!"app::bar", 0), (c!"SysTick", 0)]
    defines := [⟨c!"main", exSig, [.indirectCall ⟨[], some (.integer 32)⟩, .directCall c!"app::baz"]⟩,
      ⟨c!"app::baz", ⟨[], some (.integer 32)⟩, [.asm []]⟩, ⟨c!"app::foo", ⟨[], some (.integer 32)⟩, [.asm []]⟩,
      ⟨c!"app::bar", ⟨[], some (.integer 32)⟩, []⟩, ⟨c!"SysTick", exSig, []⟩]
    declares := [] }

/-- assets/lossy.svg: `baz` is wrongly taken for a candidate, because LLVM-IR does not tell `u32` from `i32`. -/
example (search : TagSearch) : ∃ g cs, finalGraph id sameOrder search exLossy ⟨[], none⟩ (some c!"main") =
      .ok (g, cs) ∧
    g.figures.Perm [(c!"main", .exact 8, some (.exact 24)), (c!"i32 ()*", .exact 0, some (.exact 16)),
      (c!"app::baz", .exact 16, some (.exact 16)), (c!"app::foo", .exact 8, some (.exact 8)),
      (c!"app::bar", .exact 0, some (.exact 0))] ∧
    g.edges.length = 5 :=
  finalGraph_eval rfl search _ _ (fun g _ => g.figures.Perm _ ∧ g.edges.length = 5) (by decide +kernel)

end CallStack
