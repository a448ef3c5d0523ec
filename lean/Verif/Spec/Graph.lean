import Verif.Model.PetGraph

/-!
Specification vocabulary: reachability, recursion, call chains and their weight. Independent of how
the tool computes anything.
-/

namespace CallStack

/-- `Reach E a b`: `b` can be reached from `a` in zero or more `E`-steps. -/
inductive Reach (E : Nat → Nat → Prop) : Nat → Nat → Prop
  | refl (a : Nat) : Reach E a a
  | step {a b c : Nat} : E a b → Reach E b c → Reach E a c

/-- `a` can reach itself in one or more steps: the function is (mutually) recursive. -/
def Recursive (E : Nat → Nat → Prop) (a : Nat) : Prop := ∃ b, E a b ∧ Reach E b a

/-- Same recursion group: each can reach the other. -/
def SameGroup (E : Nat → Nat → Prop) (a b : Nat) : Prop := Reach E a b ∧ Reach E b a

/-- The call relation of a call graph. -/
def Graph.Calls (g : Graph) (a b : Nat) : Prop := (a, b) ∈ g.edges

/-- Local usage printed for node `i` (`unknown` for an index outside of the graph). -/
def Graph.locOf (g : Graph) (i : Nat) : Local :=
  match g.nodes[i]? with
  | some nd => nd.loc
  | none => .unknown

/-- Max printed for node `i` (`none` if no max is printed). -/
def Graph.maxOf? (g : Graph) (i : Nat) : Option Max :=
  match g.nodes[i]? with
  | some nd => nd.max
  | none => none

/-- Known number of bytes of a local usage (an unknown usage counts as 0). -/
def Local.bytes : Local → Nat
  | .exact n => n
  | .unknown => 0

/-- The local usage is known. -/
def Local.Known : Local → Prop
  | .exact _ => True
  | .unknown => False

/-- The number in a max, whether exact or a lower bound. -/
def Max.bytes : Max → Nat
  | .exact n => n
  | .lowerBound n => n

/-- Printed with `=`. -/
def Max.IsExact : Max → Prop
  | .exact _ => True
  | .lowerBound _ => False

/-- `CallChain E v l`: `l` is a chain of calls `v = l₀ → l₁ → ...` of any (positive) length. -/
inductive CallChain (E : Nat → Nat → Prop) : Nat → List Nat → Prop
  | single (v : Nat) : CallChain E v [v]
  | call {v w : Nat} {l : List Nat} : E v w → CallChain E w l → CallChain E v (v :: l)

/-- Sum of the known local usages along a list of functions. -/
def weight (loc : Nat → Local) (l : List Nat) : Nat := (l.map (fun i => (loc i).bytes)).sum

/-- A sequence of functions reachable from `v` and one after another, in pairwise different
recursion groups. -/
def GroupChain (E : Nat → Nat → Prop) (v : Nat) (us : List Nat) : Prop :=
  (∀ u ∈ us, Reach E v u) ∧ us.Pairwise (fun a b => Reach E a b ∧ ¬ Reach E b a)

/-- `n` is the weight of the heaviest `GroupChain` from `v`. -/
def Heaviest (E : Nat → Nat → Prop) (loc : Nat → Local) (v n : Nat) : Prop :=
  (∃ us, GroupChain E v us ∧ weight loc us = n) ∧ ∀ us, GroupChain E v us → weight loc us ≤ n

/-- Every function reachable from `v` has a known local usage, and those that are recursive use 0
bytes. -/
def BoundedKnown (E : Nat → Nat → Prop) (loc : Nat → Local) (v : Nat) : Prop :=
  ∀ u, Reach E v u → (loc u).Known ∧ (Recursive E u → (loc u).bytes = 0)

/-- What a computed max of `v` means. -/
def MaxSpec (E : Nat → Nat → Prop) (loc : Nat → Local) (v : Nat) (m : Max) : Prop :=
  Heaviest E loc v m.bytes ∧ (m.IsExact ↔ BoundedKnown E loc v)

/-- Two graphs that only differ in the `max` fields of their nodes. -/
def SameButMax (g g' : Graph) : Prop :=
  g'.edges = g.edges ∧
  g'.nodes.map (fun nd => { nd with max := none }) = g.nodes.map (fun nd => { nd with max := none })

/-- Sum of all known local usages of a graph. -/
def Graph.totalKnown (g : Graph) : Nat := (g.nodes.map (fun nd => nd.loc.bytes)).sum

/-- `π` renumbers the nodes of `g₁` into those of `g₂`, preserving local usages and calls. -/
structure Renumber (g₁ g₂ : Graph) (π : Nat → Nat) : Prop where
  lt : ∀ i < g₁.nodes.length, π i < g₂.nodes.length
  inj : ∀ i < g₁.nodes.length, ∀ j < g₁.nodes.length, π i = π j → i = j
  surj : ∀ j < g₂.nodes.length, ∃ i < g₁.nodes.length, π i = j
  loc : ∀ i < g₁.nodes.length, g₂.locOf (π i) = g₁.locOf i
  calls : ∀ i < g₁.nodes.length, ∀ j < g₁.nodes.length, (g₂.Calls (π i) (π j) ↔ g₁.Calls i j)

/-- Local usages are `u64`s (main.rs:470 and `Local::Exact(u64)`). -/
def Graph.LocalsU64 (g : Graph) : Prop := ∀ i, (g.locOf i).bytes < 2 ^ 64

/-- A list of components is a correct decomposition of the nodes `0..n` into recursion groups,
callees first. -/
structure SccOrder (E : Nat → Nat → Prop) (n : Nat) (sccs : List (List Nat)) : Prop where
  /-- no component is empty -/
  nonempty : ∀ c ∈ sccs, c ≠ []
  /-- every node is in exactly one component, once -/
  nodup : sccs.flatten.Nodup
  cover : ∀ i, i ∈ sccs.flatten ↔ i < n
  /-- a component is exactly a recursion group -/
  group : ∀ c ∈ sccs, ∀ a ∈ c, ∀ b, b ∈ c ↔ SameGroup E a b
  /-- a component comes after every other component it can reach -/
  order : sccs.Pairwise (fun c d => ∀ a ∈ c, ∀ b ∈ d, ¬ Reach E a b)

end CallStack
