import Verif.Spec.Edges

/-!
What the statements of the LLVM-IR lead to, whatever the names of the functions.
-/

namespace CallStack

/-- The name `n` is taken for a function that is shown as `c`: it is a name of the last live function that has it. -/
def Program.TakenFor (p : Program) (n c : Str) : Prop :=
  ∃ j, p.LiveAt n j ∧ (∀ k, j < k → ¬ p.LiveAt n k) ∧ p.Principal j c

/-- The `i`-th live function is the last one that is shown as `c`. -/
def Program.LastShown (p : Program) (c : Str) (i : Nat) : Prop :=
  p.Principal i c ∧ ∀ k, i < k → ¬ p.Principal k c

/-- `s` is a statement of a definition that is taken for the `i`-th live function, and `before` are the statements of
live functions that are read before it. -/
def Program.TakenAt (p : Program) (before : Stmt → Prop) (i : Nat) (s : Stmt) : Prop :=
  ∃ ds₁ d ds₂ pre post c, p.defines = ds₁ ++ d :: ds₂ ∧ p.TakenFor d.name c ∧ p.LastShown c i ∧
    d.stmts = pre ++ s :: post ∧ ∀ t, before t ↔ t ∈ pre ∨ ∃ d' ∈ ds₁, (∃ j, p.LiveAt d'.name j) ∧ t ∈ d'.stmts

/-- The statement `s`, read after the statements `before`, leads to an edge to a node with the name `name`. -/
inductive Program.AimsAt (p : Program) (before : Stmt → Prop) : Stmt → Str → Prop
  /-- call through a bitcast -/
  | bitcast (name : Str) : p.AimsAt before (.bitcastCall (some name)) name
  /-- direct call of a live function, under any of its names -/
  | live {f name : Str} : ¬ IsIntrinsic f → p.TakenFor f name → (f = c!"memcmp" → p.NodeAfter before f) →
      p.AimsAt before (.directCall f) name
  /-- direct call of a function that is not in the executable -/
  | external {f : Str} : ¬ IsIntrinsic f → p.NotLive f → f ∈ p.undefined →
      (f = c!"memcmp" → p.NodeAfter before f) → p.AimsAt before (.directCall f) f
  /-- memory copy -/
  | copy {f r : Str} : p.target = .other → c!"llvm.memcpy." <+: f → r ∈ CopyRoutines →
      p.NodeAfter before r → p.AimsAt before (.directCall f) r
  /-- memory fill or move -/
  | fill {f r : Str} : p.target = .other → c!"llvm.memset." <+: f ∨ c!"llvm.memmove." <+: f →
      r ∈ FillRoutines → p.NodeAfter before r → p.AimsAt before (.directCall f) r

end CallStack
