import Verif.Model.Output

/-!
LLVM types and function signatures (src/ir.rs:23-66, src/ir/ty.rs:15-162): representation, loose
equality and printing.
-/

namespace CallStack

/-- `enum Type` (ir/ty.rs:15-52). `Type::Fn(FnSig)` holds the two fields of `FnSig` directly. -/
inductive Ty where
  | alias (name : Str)
  | array (count : Nat) (ty : Ty)
  | double
  | float
  | integer (bits : Nat)
  | packedStruct (fields : List Ty)
  | struct (fields : List Ty)
  | fn (inputs : List Ty) (output : Option Ty)
  | pointer (ty : Ty)
  | opaquePointer
  | varargs
  | mvtVector (count : Nat) (ty : Ty)
  deriving Repr

/-- `struct FnSig` (ir.rs:23-27). -/
structure FnSig where
  inputs : List Ty
  output : Option Ty
  deriving Repr

mutual
/-- `derive(PartialEq)` of `Type` (ir/ty.rs:14): structural equality, decided field by field. -/
def Ty.decEq : (a b : Ty) → Decidable (a = b)
  | .alias a, b => by
    cases b
    case alias b => exact decidable_of_iff (a = b) (by simp)
    all_goals exact isFalse (by simp)
  | .array n a, b => by
    cases b
    case array m b =>
      have := Ty.decEq a b
      exact decidable_of_iff (n = m ∧ a = b) (by simp)
    all_goals exact isFalse (by simp)
  | .double, b => by
    cases b
    case double => exact isTrue rfl
    all_goals exact isFalse (by simp)
  | .float, b => by
    cases b
    case float => exact isTrue rfl
    all_goals exact isFalse (by simp)
  | .integer a, b => by
    cases b
    case integer b => exact decidable_of_iff (a = b) (by simp)
    all_goals exact isFalse (by simp)
  | .packedStruct a, b => by
    cases b
    case packedStruct b =>
      have := Ty.decEqs a b
      exact decidable_of_iff (a = b) (by simp)
    all_goals exact isFalse (by simp)
  | .struct a, b => by
    cases b
    case struct b =>
      have := Ty.decEqs a b
      exact decidable_of_iff (a = b) (by simp)
    all_goals exact isFalse (by simp)
  | .fn i o, b => by
    cases b
    case fn i' o' =>
      have := Ty.decEqs i i'
      have := Ty.decEqo o o'
      exact decidable_of_iff (i = i' ∧ o = o') (by simp)
    all_goals exact isFalse (by simp)
  | .pointer a, b => by
    cases b
    case pointer b =>
      have := Ty.decEq a b
      exact decidable_of_iff (a = b) (by simp)
    all_goals exact isFalse (by simp)
  | .opaquePointer, b => by
    cases b
    case opaquePointer => exact isTrue rfl
    all_goals exact isFalse (by simp)
  | .varargs, b => by
    cases b
    case varargs => exact isTrue rfl
    all_goals exact isFalse (by simp)
  | .mvtVector n a, b => by
    cases b
    case mvtVector m b =>
      have := Ty.decEq a b
      exact decidable_of_iff (n = m ∧ a = b) (by simp)
    all_goals exact isFalse (by simp)

/-- Equality of lists of types. -/
def Ty.decEqs : (a b : List Ty) → Decidable (a = b)
  | [], b => by
    cases b
    case nil => exact isTrue rfl
    all_goals exact isFalse (by simp)
  | x :: a, b => by
    cases b
    case nil => exact isFalse (by simp)
    case cons y b =>
      have := Ty.decEq x y
      have := Ty.decEqs a b
      exact decidable_of_iff (x = y ∧ a = b) (by simp)

/-- Equality of optional types. -/
def Ty.decEqo : (a b : Option Ty) → Decidable (a = b)
  | none, b => by
    cases b
    case none => exact isTrue rfl
    all_goals exact isFalse (by simp)
  | some x, b => by
    cases b
    case none => exact isFalse (by simp)
    case some y =>
      have := Ty.decEq x y
      exact decidable_of_iff (x = y) (by simp)
end

instance : DecidableEq Ty := Ty.decEq

deriving instance DecidableEq for FnSig

/-- `core::mem::discriminant` of a `Type`, as a number. -/
def Ty.discriminant : Ty → Nat
  | .alias _ => 0
  | .array _ _ => 1
  | .double => 2
  | .float => 3
  | .integer _ => 4
  | .packedStruct _ => 5
  | .struct _ => 6
  | .fn _ _ => 7
  | .pointer _ => 8
  | .opaquePointer => 9
  | .varargs => 10
  | .mvtVector _ _ => 11

/-- `Type::loosely_equal` (ir/ty.rs:55-72). -/
def Ty.looselyEqual : Ty → Ty → Bool
  | .opaquePointer, .opaquePointer => true
  | .opaquePointer, .pointer _ => true
  | .pointer _, .opaquePointer => true
  | .alias l0, .alias r0 => l0 == r0
  | .array l0 l1, .array r0 r1 => l0 == r0 && l1 == r1
  | .integer l0, .integer r0 => l0 == r0
  | .packedStruct l0, .packedStruct r0 => l0 == r0
  | .struct l0, .struct r0 => l0 == r0
  | .fn li lo, .fn ri ro => li == ri && lo == ro
  | .pointer l0, .pointer r0 => l0 == r0
  | .mvtVector l0 l1, .mvtVector r0 r1 => l0 == r0 && l1 == r1
  | self, other => self.discriminant == other.discriminant

/-- ir.rs:37-41: the outputs are compared loosely too. -/
def looselyEqualOutput : Option Ty → Option Ty → Bool
  | none, none => true
  | some lhs, some rhs => lhs.looselyEqual rhs
  | _, _ => false

/-- `FnSig::loosely_equal` (ir.rs:30-42). -/
def FnSig.looselyEqual (self other : FnSig) : Bool :=
  self.inputs.length == other.inputs.length
    && (self.inputs.zip other.inputs).all (fun p => p.1.looselyEqual p.2)
    && looselyEqualOutput self.output other.output

mutual
/-- `impl Display for Type` (ir/ty.rs:96-162). -/
def Ty.show : Ty → Str
  | .alias name => c!"%\"" ++ name ++ c!"\""
  | .array count ty => c!"[" ++ showNat count ++ c!" x " ++ ty.show ++ c!"]"
  | .double => c!"double"
  | .float => c!"float"
  | .opaquePointer => c!"ptr"
  | .integer n => c!"i" ++ showNat n
  | .packedStruct fields => c!"<" ++ showStruct fields ++ c!">"
  | .struct fields => showStruct fields
  | .fn inputs output => showOutput output ++ c!" (" ++ showInputs inputs ++ c!")"
  | .pointer ty => ty.show ++ c!"*"
  | .varargs => c!"..."
  | .mvtVector count ty => c!"<" ++ showNat count ++ c!" x " ++ ty.show ++ c!">"

/-- `fn fmt_struct` (ir/ty.rs:75-94). -/
def showStruct : List Ty → Str
  | [] => c!"{}"
  | t :: ts => c!"{" ++ t.show ++ showMore ts ++ c!" }"

/-- ir.rs:46-50: `void` stands for no output. -/
def showOutput : Option Ty → Str
  | some output => output.show
  | none => c!"void"

/-- ir.rs:53-62: inputs separated by `", "`. -/
def showInputs : List Ty → Str
  | [] => []
  | t :: ts => t.show ++ showMore ts

/-- The elements after the first one, each preceded by `", "`. -/
def showMore : List Ty → Str
  | [] => []
  | t :: ts => c!", " ++ t.show ++ showMore ts
end

/-- `impl Display for FnSig` (ir.rs:44-65). -/
def FnSig.show (sig : FnSig) : Str := (Ty.fn sig.inputs sig.output).show

end CallStack
