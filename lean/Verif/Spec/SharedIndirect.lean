import Verif.Spec.Indirect
import Verif.Spec.Shared

/-!
Specification vocabulary for the nodes that stand for indirect calls, if several functions may have the same names.
-/

namespace CallStack

/-- As `Program.IndirectNode`, but calls are those of the last function of a name. -/
structure Program.IndirectNodeShared (p : Program) (chosen : Option Str) (g : Graph) (k : Nat) (sig : FnSig) :
    Prop where
  /-- dashed, without stack usage of its own -/
  node : ∃ nd, g.nodes[k]? = some nd ∧ nd.dashed = true ∧ nd.loc = .exact 0 ∧ LabelOf chosen sig nd.name
  /-- called exactly by the last functions of names with a compatible indirect call -/
  callers : ∀ a, g.Calls a k ↔
    ∃ i sig', p.LastOf i a ∧ p.Contains i (.indirectCall sig') ∧ sig.Compatible sig'
  /-- calls all functions of type `sig`, except if that formats the chosen type -/
  callees : ¬ FormatsChosen chosen sig → ∀ j < p.defined.length, g.Calls k j ↔ p.TakenAs j sig
  /-- in which case it calls all defined formatting functions -/
  formatting : FormatsChosen chosen sig → ∀ j < p.defined.length,
    g.Calls k j ↔ ∃ s, p.FirstDefined j s ∧ s.FmtShape
  /-- nothing else is called but one unknown function -/
  others : ∀ j, p.defined.length ≤ j → g.Calls k j → j = k + 1 ∧
    g.nodes[j]? = some (mkNode c!"?" none false)
  /-- and that exactly if some live function has no type and is not an outlined one -/
  unknown : g.Calls k (k + 1) ↔ ∃ j n, p.Untyped j ∧ p.Principal j n ∧ ¬ OutlinedName n

end CallStack
