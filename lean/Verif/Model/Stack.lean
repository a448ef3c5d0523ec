import Verif.Model.Basic

/-!
Stack usage values: `Local`, `Max` and their arithmetic (src/main.rs:1388-1486).

The Rust code uses `u64`; the model uses `Nat` with checked additions: a sum that does not fit in 64
bits is `Panic.overflow`. With overflow checks off the Rust code wraps instead, see `Model/Release` and C95.
-/

namespace CallStack

/-- `enum Local` (main.rs:1410-1414): local stack usage of a function. -/
inductive Local where
  | exact (n : Nat)
  | unknown
  deriving DecidableEq, Repr

/-- `enum Max` (main.rs:1434-1438): stack usage including callees. -/
inductive Max where
  | exact (n : Nat)
  | lowerBound (n : Nat)
  deriving DecidableEq, Repr

/-- `impl Into<Max> for Local` (main.rs:1425-1432). -/
def Local.toMax : Local → Max
  | .exact n => .exact n
  | .unknown => .lowerBound 0

/-- `u64` addition. -/
def addU64 (a b : Nat) : Except Panic Nat :=
  if a + b < 2 ^ 64 then .ok (a + b) else .error .overflow

/-- Build a `Max` from the result of a checked addition. -/
def okMax (mk : Nat → Max) : Except Panic Nat → Except Panic Max
  | .ok n => .ok (mk n)
  | .error e => .error e

/-- `impl ops::Add<Local> for Max` (main.rs:1440-1451). -/
def Max.addLocal : Max → Local → Except Panic Max
  | .exact lhs, .exact rhs => okMax .exact (addU64 lhs rhs)
  | .exact lhs, .unknown => .ok (.lowerBound lhs)
  | .lowerBound lhs, .exact rhs => okMax .lowerBound (addU64 lhs rhs)
  | .lowerBound lhs, .unknown => .ok (.lowerBound lhs)

/-- `impl ops::Add<Max> for Max` (main.rs:1453-1464). -/
def Max.add : Max → Max → Except Panic Max
  | .exact lhs, .exact rhs => okMax .exact (addU64 lhs rhs)
  | .exact lhs, .lowerBound rhs => okMax .lowerBound (addU64 lhs rhs)
  | .lowerBound lhs, .exact rhs => okMax .lowerBound (addU64 lhs rhs)
  | .lowerBound lhs, .lowerBound rhs => okMax .lowerBound (addU64 lhs rhs)

/-- `fn max` (main.rs:1470-1477). -/
def Max.max : Max → Max → Max
  | .exact lhs, .exact rhs => .exact (Nat.max lhs rhs)
  | .exact lhs, .lowerBound rhs => .lowerBound (Nat.max lhs rhs)
  | .lowerBound lhs, .exact rhs => .lowerBound (Nat.max lhs rhs)
  | .lowerBound lhs, .lowerBound rhs => .lowerBound (Nat.max lhs rhs)

/-- `fn max_of` (main.rs:1466-1468): the first element folded with `max` over the others. -/
def maxOf : List Max → Option Max
  | [] => none
  | first :: rest => some (rest.foldl Max.max first)

/-- `struct Node` (main.rs:1388-1394). -/
structure Node where
  name : Str
  loc : Local
  max : Option Max
  dashed : Bool
  deriving DecidableEq, Repr

/-- The constructor function `Node(name, stack, dashed)` (main.rs:1397-1407). -/
def mkNode (name : Str) (stack : Option Nat) (dashed : Bool) : Node :=
  { name
    loc := match stack with
      | some n => .exact n
      | none => .unknown
    max := none
    dashed }

end CallStack
