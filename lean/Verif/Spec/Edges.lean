import Verif.Spec.Program

/-!
What the statements of the LLVM-IR lead to, in the order in which they are read.
-/

namespace CallStack

/-- `s` is a statement of the `i`-th live function, and `before` are the statements of live functions that are
read before it. -/
def Program.StmtAt (p : Program) (before : Stmt → Prop) (i : Nat) (s : Stmt) : Prop :=
  ∃ ds₁ d ds₂ pre post, p.defines = ds₁ ++ d :: ds₂ ∧ p.LiveAt d.name i ∧ d.stmts = pre ++ s :: post ∧
    ∀ t, before t ↔ t ∈ pre ∨ ∃ d' ∈ ds₁, (∃ j, p.LiveAt d'.name j) ∧ t ∈ d'.stmts

/-- After the statements `before` there is a node with the name `n`: a live function is shown under this name, or
it was called through a bitcast, or it is an undefined symbol that was called directly. -/
def Program.NodeAfter (p : Program) (before : Stmt → Prop) (n : Str) : Prop :=
  (∃ j, p.Principal j n) ∨ before (.bitcastCall (some n)) ∨
    (before (.directCall n) ∧ ¬ IsIntrinsic n ∧ n ≠ c!"memcmp" ∧ p.NotLive n ∧ n ∈ p.undefined)

/-- The statement `s`, read after the statements `before`, leads to an edge to the node with the name `name`. -/
inductive Program.LeadsTo (p : Program) (before : Stmt → Prop) : Stmt → Str → Prop
  /-- call through a bitcast -/
  | bitcast (name : Str) : p.LeadsTo before (.bitcastCall (some name)) name
  /-- direct call of a live function, under any of its names -/
  | live {f name : Str} {j : Nat} : ¬ IsIntrinsic f → p.LiveAt f j → p.Principal j name →
      (f = c!"memcmp" → p.NodeAfter before f) → p.LeadsTo before (.directCall f) name
  /-- direct call of a function that is not in the executable -/
  | external {f : Str} : ¬ IsIntrinsic f → p.NotLive f → f ∈ p.undefined →
      (f = c!"memcmp" → p.NodeAfter before f) → p.LeadsTo before (.directCall f) f
  /-- memory copy -/
  | copy {f r : Str} : p.target = .other → c!"llvm.memcpy." <+: f → r ∈ CopyRoutines →
      p.NodeAfter before r → p.LeadsTo before (.directCall f) r
  /-- memory fill or move -/
  | fill {f r : Str} : p.target = .other → c!"llvm.memset." <+: f ∨ c!"llvm.memmove." <+: f →
      r ∈ FillRoutines → p.NodeAfter before r → p.LeadsTo before (.directCall f) r

end CallStack
