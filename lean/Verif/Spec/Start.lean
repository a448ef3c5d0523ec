import Verif.Spec.Log

/-!
Which function a start point selects, and what is kept.
-/

namespace CallStack

/-- The symbols that a start point that is not itself a symbol name refers to. -/
def StartMatches (demangle : Str → Str) (start key : Str) : Prop :=
  (start ++ c!"::h") <+: demangle key

/-- The function shown as `n` is the one that the start point `s` selects: it has this name, or there is none and
it is the only one with this name but for a hash. -/
def Program.Starts (p : Program) (demangle : Str → Str) (s n : Str) : Prop :=
  p.Shown n ∧ (n = s ∨ (¬ p.Shown s ∧ StartMatches demangle s n ∧
    ∀ n', p.Shown n' → StartMatches demangle s n' → n' = n))

/-- Node `v` is kept when the graph is filtered by the start point `s`: it can be reached from the function that
`s` selects. If `s` selects no function, every node is kept. -/
def Program.Kept (p : Program) (demangle : Str → Str) (indices : List (Str × Nat)) (g : Graph) (s : Str) (v : Nat) :
    Prop :=
  ∀ n i, (n, i) ∈ indices → p.Starts demangle s n → Reach g.Calls i v

end CallStack
