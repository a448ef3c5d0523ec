import Verif.Spec.ThumbRun
import Verif.Spec.Code
import Verif.Spec.Indirect

/-!
Executions of a whole Thumb program: which functions are active, where each is and how much stack it takes.
Interrupts are left out.
-/

namespace CallStack

/-- The `i`-th live function of a thumb program consists of these items. -/
def Program.HasCode (p : Program) (search : TagSearch) (elf : Elf) (i address : Nat)
    (items : List CodeItem) : Prop :=
  ∃ a s stext text tags, p.defined[i]? = some (a, s) ∧ elf.text = some (stext, text) ∧
    address = a % 2 ^ 32 ∧ Markers elf.symtab tags ∧
    CodeSize search tags address (s.size % 2 ^ 32) (codeBytes items).length ∧
    stext ≤ address ∧ address - stext + (codeBytes items).length ≤ text.length ∧
    (text.drop (address - stext)).take (codeBytes items).length = codeBytes items ∧
    CodeFits (p.target == .thumbv7m) tags address items

/-- A call of a function that has not returned yet. -/
structure Activation where
  fn : Nat
  /-- where it is, or where it continues after the call above it returns -/
  pos : Nat
  /-- the bytes of stack that it has taken and not yet given back -/
  depth : Int
  /-- it has jumped to the function above it for good -/
  left : Bool

/-- The bytes of stack in use. -/
def stackInUse (acts : List Activation) : Int := (acts.map Activation.depth).sum

/-- Where the `i`-th live function may go by a call or jump through a register: the calls of its LLVM-IR; or
anywhere, if it has none. -/
def Program.RegisterCall (p : Program) (i j : Nat) : Prop :=
  p.Call i j ∨ p.NoIr i ∧ j < p.defined.length

/-- One step of the program, the innermost activation first. `code i` is the address and the contents of the
`i`-th live function. -/
inductive ExecStep (p : Program) (code : Nat → Nat × List CodeItem) :
    List Activation → List Activation → Prop
  /-- within a function -/
  | inner {i pos pos' : Nat} {d d' : Int} {rest : List Activation} :
      CodeStep (code i).2 (pos, d) (pos', d') →
      ExecStep p code (⟨i, pos, d, false⟩ :: rest) (⟨i, pos', d', false⟩ :: rest)
  /-- BL -/
  | call {i j pos t : Nat} {d off : Int} {rest : List Activation} :
      InstrAt (code i).2 pos (.bl off) → (t : Int) = (code i).1 + pos + 4 + off → t < 2 ^ 32 →
      p.StartsAt j t →
      ExecStep p code (⟨i, pos, d, false⟩ :: rest) (⟨j, 0, 0, false⟩ :: ⟨i, pos + 4, d, false⟩ :: rest)
  /-- a branch to another function -/
  | jump {i j pos t : Nat} {ins : Instr} {d off : Int} {rest : List Activation} :
      InstrAt (code i).2 pos ins → ins.IsBranch off → (t : Int) = (code i).1 + pos + 4 + off →
      t < 2 ^ 32 → t < (code i).1 ∨ (code i).1 + (codeBytes (code i).2).length ≤ t → p.StartsAt j t →
      ExecStep p code (⟨i, pos, d, false⟩ :: rest) (⟨j, 0, 0, false⟩ :: ⟨i, pos, d, true⟩ :: rest)
  /-- BLX -/
  | callRegister {i j pos rm : Nat} {d : Int} {rest : List Activation} :
      InstrAt (code i).2 pos (.blx rm) → p.RegisterCall i j →
      ExecStep p code (⟨i, pos, d, false⟩ :: rest) (⟨j, 0, 0, false⟩ :: ⟨i, pos + 2, d, false⟩ :: rest)
  /-- BX, other than `bx lr` -/
  | jumpRegister {i j pos rm : Nat} {d : Int} {rest : List Activation} :
      InstrAt (code i).2 pos (.bx rm) → rm ≠ 14 → p.RegisterCall i j →
      ExecStep p code (⟨i, pos, d, false⟩ :: rest) (⟨j, 0, 0, false⟩ :: ⟨i, pos, d, true⟩ :: rest)
  /-- a return, after which all stack taken since the call has been given back -/
  | ret {i pos : Nat} {ins : Instr} {d d' : Int} {gone rest : List Activation} :
      InstrAt (code i).2 pos ins → ins.flow pos = .leave → ins.spEffect.Allows d d' →
      (∀ a ∈ gone, a.left = true) → d' + stackInUse gone = 0 →
      ExecStep p code (⟨i, pos, d, false⟩ :: (gone ++ rest)) rest

/-- A call of the `i`-th live function can lead to these activations. -/
inductive Execution (p : Program) (code : Nat → Nat × List CodeItem) (i : Nat) : List Activation → Prop
  | entry : Execution p code i [⟨i, 0, 0, false⟩]
  | step {acts acts' : List Activation} : Execution p code i acts → ExecStep p code acts acts' →
      Execution p code i acts'

/-- The function branches into itself. -/
def BranchesInside (items : List CodeItem) : Prop :=
  ∃ pos i off, InstrAt items pos i ∧ i.IsBranch off ∧
    0 ≤ (pos : Int) + 4 + off ∧ (pos : Int) + 4 + off < (codeBytes items).length

/-- If the tool relies on the compiler's figure alone for the `i`-th live function, it holds. It does so for functions
that branch into themselves and those made by the outliner. -/
def Program.FrameHolds (p : Program) (code : Nat → Nat × List CodeItem) (i : Nat) : Prop :=
  ∀ k, p.Frame i k →
    BranchesInside (code i).2 ∨ (∃ name, p.Principal i name ∧ OutlinedName name) →
    ∀ pos d, CodeRuns (code i).2 pos d → d ≤ k

/-- This is so for all live functions. -/
def Program.FramesHold (p : Program) (code : Nat → Nat × List CodeItem) : Prop := ∀ i, p.FrameHolds code i

end CallStack
