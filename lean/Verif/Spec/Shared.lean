import Verif.Spec.Code
import Verif.Spec.Names
import Verif.Spec.Exec

/-!
Programs in which several functions have the same names, such as local functions of different object files.
-/

namespace CallStack

/-- Functions that share a name share all of their names, in the same order. -/
def Program.NamesAlike (p : Program) : Prop :=
  ∀ (i j a : Nat) (s : Sym) (b : Nat) (t : Sym) (n : Str), p.defined[i]? = some (a, s) →
    p.defined[j]? = some (b, t) → s.Named n → t.Named n → s.names = t.names

/-- The `m`-th live function is the last one with the names of the `i`-th one. -/
def Program.LastOf (p : Program) (i m : Nat) : Prop :=
  ∃ a s b t, p.defined[i]? = some (a, s) ∧ p.defined[m]? = some (b, t) ∧ t.names = s.names ∧
    ∀ k c u, m < k → p.defined[k]? = some (c, u) → u.names ≠ s.names

/-- A call from the `i`-th to the `j`-th live function that the LLVM-IR allows, or that on thumb targets is in the
machine code. -/
def Program.AnyCall (p : Program) (search : TagSearch) (elf : Elf) (i j : Nat) : Prop :=
  p.Call i j ∨
  (p.target.isThumb = true ∧ ∃ address size r t, p.Decoded search elf i address size r ∧
    LeavesTo r address size t ∧ p.StartsAt j t)

/-- What the `i`-th live function uses: what is found in its own code, or what the compiler reports under its
names. -/
def Program.Uses (p : Program) (search : TagSearch) (elf : Elf) (i k : Nat) : Prop :=
  (p.target.isThumb = true ∧ ∃ address size r, p.Decoded search elf i address size r ∧ r.stack = some k) ∨
  p.Frame i k

/-- The tool may keep the compiler's figure of a function or replace it without comparing both. -/
def Program.Lenient (p : Program) (i : Nat) : Prop :=
  (∃ x, p.Contains i (.asm x)) ∨ ∃ name, p.Principal i name ∧ OutlinedName name

/-- No other live function has the names of the `i`-th one. -/
def Program.Alone (p : Program) (i : Nat) : Prop :=
  ∀ j a s b t, p.defined[i]? = some (a, s) → p.defined[j]? = some (b, t) → t.names = s.names → j = i

/-- Either the `i`-th live function has its names for itself, or the tool has a figure for it and compares it with those
of the other functions of the names. -/
def Program.Settled (p : Program) (code : Nat → Nat × List CodeItem) (i : Nat) : Prop :=
  p.Alone i ∨ ¬ p.Lenient i ∧ (BranchesInside (code i).2 → ∃ k, p.Frame i k)

end CallStack
