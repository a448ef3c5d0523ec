import Verif.Spec.AnyEdges
import Verif.Spec.Indirect

/-!
Specification vocabulary for the nodes that stand for indirect calls, whatever the names of the functions.
-/

namespace CallStack

/-- `s` is a statement of a definition that is taken for the `a`-th live function. -/
def Program.TakenIn (p : Program) (a : Nat) (s : Stmt) : Prop :=
  ∃ d c, d ∈ p.defines ∧ p.TakenFor d.name c ∧ p.LastShown c a ∧ s ∈ d.stmts

/-- As `Program.IndirectNode`, but calls are those of the definitions that are taken for a function. -/
structure Program.IndirectNodeAny (p : Program) (chosen : Option Str) (g : Graph) (k : Nat) (sig : FnSig) :
    Prop where
  /-- dashed, without stack usage of its own -/
  node : ∃ nd, g.nodes[k]? = some nd ∧ nd.dashed = true ∧ nd.loc = .exact 0 ∧ LabelOf chosen sig nd.name
  /-- called exactly by the functions that a definition with a compatible indirect call is taken for -/
  callers : ∀ a, g.Calls a k ↔ ∃ sig', p.TakenIn a (.indirectCall sig') ∧ sig.Compatible sig'
  /-- calls all functions of type `sig`, except if that formats the chosen type -/
  callees : ¬ FormatsChosen chosen sig → ∀ j < p.defined.length, g.Calls k j ↔ p.TakenAs j sig
  /-- in which case it calls all defined formatting functions -/
  formatting : FormatsChosen chosen sig → ∀ j < p.defined.length,
    g.Calls k j ↔ ∃ s, p.FirstDefined j s ∧ s.FmtShape
  /-- nothing else is called but one unknown function -/
  others : ∀ j, p.defined.length ≤ j → g.Calls k j → j = k + 1 ∧
    g.nodes[j]? = some (mkNode c!"?" none false)
  /-- and that exactly if some live function has no type and is not an outlined one -/
  unknown : g.Calls k (k + 1) ↔ ∃ j n, p.Untyped j ∧ p.Principal j n ∧ ¬ OutlinedName n

end CallStack
