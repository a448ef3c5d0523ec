import Verif.Spec.AnyIndirect
import Verif.Spec.Figures

/-!
What the figures are made of if no machine code is analysed, whatever the names of the functions.
-/

namespace CallStack

/-- A definition that is taken for the `a`-th live function makes an indirect call that functions of type `sig` can be
the target of, and some live function has this type. -/
def Program.TypeFrom (p : Program) (a : Nat) (sig : FnSig) : Prop :=
  (∃ j, p.TakenAs j sig) ∧ ∃ sig', p.TakenIn a (.indirectCall sig') ∧ sig.Compatible sig'

/-- A definition that is taken for the `a`-th live function calls a name that the `b`-th one is the last to be shown
under, or makes an indirect call for which the latter is a candidate. -/
def Program.MayCallAny (p : Program) (chosen : Option Str) (a b : Nat) : Prop :=
  (∃ name before s, p.LastShown name b ∧ p.TakenAt before a s ∧ p.AimsAt before s name) ∨
    ∃ sig, p.TypeFrom a sig ∧ p.Candidate chosen sig b

/-- A definition that is taken for the `a`-th live function calls a name under which no function is shown, or makes an
indirect call while the type of some function is not known. -/
def Program.MayLeaveAny (p : Program) (a : Nat) : Prop :=
  (∃ name before s, (∀ j, ¬ p.Principal j name) ∧ p.TakenAt before a s ∧ p.AimsAt before s name) ∨
    ((∃ sig, p.TypeFrom a sig) ∧ ∃ j n, p.Untyped j ∧ p.Principal j n ∧ ¬ OutlinedName n)

end CallStack
