import Verif.Spec.Program
import Verif.Spec.Code
import Verif.Spec.Graph

/-!
Specification vocabulary for the nodes that stand for indirect calls: the type under which a live function is
considered, and the type that is taken for the receiver of formatting functions.
-/

namespace CallStack

/-- The first name of the `j`-th live function (in symbol table order) that has a definition is defined with
type `sig`. -/
def Program.FirstDefined (p : Program) (j : Nat) (sig : FnSig) : Prop :=
  ∃ a s pre post d, p.defined[j]? = some (a, s) ∧ s.names = pre ++ d.name :: post ∧
    ¬ IsMappingSymbol d.name ∧ d ∈ p.defines ∧ d.sig = sig ∧
    ∀ n ∈ pre, IsMappingSymbol n ∨ ∀ d' ∈ p.defines, d'.name ≠ n

/-- The first name of the `j`-th live function (in symbol table order) that has a declaration with a type is
declared with type `sig`. -/
def Program.FirstDeclared (p : Program) (j : Nat) (sig : FnSig) : Prop :=
  ∃ a s pre post d, p.defined[j]? = some (a, s) ∧ s.names = pre ++ d.name :: post ∧
    ¬ IsMappingSymbol d.name ∧ d ∈ p.declares ∧ d.sig = some sig ∧
    ∀ n ∈ pre, IsMappingSymbol n ∨ ∀ d' ∈ p.declares, d'.name = n → d'.sig = none

/-- The type under which the `j`-th live function may be called indirectly: that of the first definition, or
that of the first declaration if it has no definition. -/
def Program.TakenAs (p : Program) (j : Nat) (sig : FnSig) : Prop :=
  p.FirstDefined j sig ∨ ((∀ s, ¬ p.FirstDefined j s) ∧ p.FirstDeclared j sig)

/-- Some live function formats the named type `v`. -/
def Program.Receiver (p : Program) (v : Str) : Prop := ∃ j sig, p.TakenAs j sig ∧ sig.Formats v

/-- Which named type stands for "any type" in calls of formatting functions: `fmt::Void` if live functions
format it, otherwise one whose name begins with `core::fmt::Void`, otherwise the only named type that is
formatted. -/
inductive Program.Chosen (p : Program) : Option Str → Prop
  | known : p.Receiver c!"fmt::Void" → p.Chosen (some c!"fmt::Void")
  | core {v : Str} : ¬ p.Receiver c!"fmt::Void" → p.Receiver v → c!"core::fmt::Void" <+: v →
      p.Chosen (some v)
  | only {v : Str} : ¬ p.Receiver c!"fmt::Void" → (∀ w, p.Receiver w → ¬ c!"core::fmt::Void" <+: w) →
      p.Receiver v → (∀ w, p.Receiver w → w = v) → p.Chosen (some v)
  | none : ¬ p.Receiver c!"fmt::Void" → (∀ w, p.Receiver w → ¬ c!"core::fmt::Void" <+: w) →
      (∀ v, p.Receiver v → ∃ w, p.Receiver w ∧ w ≠ v) → p.Chosen none

/-- `sig` is the type of formatting functions for the chosen type. -/
def FormatsChosen (chosen : Option Str) (sig : FnSig) : Prop := ∃ v, chosen = some v ∧ sig.Formats v

/-- Some live function contains an indirect call that may reach functions of type `sig`. -/
def Program.Called (p : Program) (sig : FnSig) : Prop :=
  ∃ i sig', p.Contains i (.indirectCall sig') ∧ sig.Compatible sig'

/-- The text shown for indirect calls of functions of type `sig`. -/
def LabelOf (chosen : Option Str) (sig : FnSig) (label : Str) : Prop :=
  (FormatsChosen chosen sig ∧ chosen ≠ some c!"fmt::Void" → label = fmtLabel) ∧
  (¬ (FormatsChosen chosen sig ∧ chosen ≠ some c!"fmt::Void") → label = sig.show ++ c!"*")

/-- Node `k` stands for the indirect calls that may reach functions of type `sig`. -/
structure Program.IndirectNode (p : Program) (chosen : Option Str) (g : Graph) (k : Nat) (sig : FnSig) :
    Prop where
  /-- dashed, without stack usage of its own -/
  node : ∃ nd, g.nodes[k]? = some nd ∧ nd.dashed = true ∧ nd.loc = .exact 0 ∧ LabelOf chosen sig nd.name
  /-- called exactly by the functions with a compatible indirect call -/
  callers : ∀ i, g.Calls i k ↔ ∃ sig', p.Contains i (.indirectCall sig') ∧ sig.Compatible sig'
  /-- calls all functions of type `sig`, except if that formats the chosen type -/
  callees : ¬ FormatsChosen chosen sig → ∀ j < p.defined.length, g.Calls k j ↔ p.TakenAs j sig
  /-- in which case it calls all defined formatting functions -/
  formatting : FormatsChosen chosen sig → ∀ j < p.defined.length,
    g.Calls k j ↔ ∃ s, p.FirstDefined j s ∧ s.FmtShape
  /-- nothing else is called but one unknown function -/
  others : ∀ j, p.defined.length ≤ j → g.Calls k j → j = k + 1 ∧
    g.nodes[j]? = some (mkNode c!"?" none false)
  /-- and that exactly if some live function has no type and is not an outlined one -/
  unknown : g.Calls k (k + 1) ↔ ∃ j n, p.Untyped j ∧ p.Principal j n ∧ ¬ OutlinedName n

end CallStack
