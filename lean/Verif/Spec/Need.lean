import Verif.Spec.Graph

/-!
How much stack a call can need, as far as the known frames tell.
-/

namespace CallStack

/-- Frame sizes that agree with what is known. -/
def Agrees (loc : Nat → Local) (frame : Nat → Nat) : Prop := ∀ u, (loc u).Known → frame u = (loc u).bytes

/-- A call of `v` can need `k` bytes: with some sizes for the frames that are not known, these are the frames along
a chain of calls, plus any amount if the last function may call something of which nothing is known. -/
def CanNeed (E : Nat → Nat → Prop) (leaves : Nat → Prop) (loc : Nat → Local) (v k : Nat) : Prop :=
  ∃ frame c x, Agrees loc frame ∧ CallChain E v c ∧ (x = 0 ∨ ∃ u, c.getLast? = some u ∧ leaves u) ∧
    k = (c.map frame).sum + x

end CallStack
