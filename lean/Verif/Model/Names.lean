import Verif.Model.Filter

/-!
Symbol names: hash removal, ambiguity and shortening, outlined functions.
-/

namespace CallStack

/-- Length in bytes of the UTF-8 encoding (`str::len`). -/
def utf8Len : Str → Nat
  | [] => 0
  | c :: s => c.utf8Size + utf8Len s

/-- `s.get(k..)` together with `&s[..k]`: split at byte offset `k`, `none` unless `k` is a character
boundary within the string. -/
def splitAtByte : Str → Nat → Option (Str × Str)
  | s, 0 => some ([], s)
  | [], _ + 1 => none
  | c :: s, k + 1 =>
    if c.utf8Size ≤ k + 1 then
      match splitAtByte s (k + 1 - c.utf8Size) with
      | some (a, b) => some (c :: a, b)
      | none => none
    else none

/-- `fn dehash` (main.rs:1497-1514). -/
def dehash (demangled : Str) : Option Str :=
  let len := utf8Len demangled
  if len > 19 then
    match splitAtByte demangled (len - 19) with
    | some (pre, hash) => if startsWith hash c!"::h" then some pre else none
    | none => none
  else none

/-- `*ambiguous.entry(key).or_insert(0) += 1` (main.rs:508); a map as a list of entries. -/
def bump (key : Str) : List (Str × Nat) → List (Str × Nat)
  | [] => [(key, 1)]
  | (k, n) :: rest => if k = key then (k, n + 1) :: rest else (k, n) :: bump key rest

/-- main.rs:506-509: count the hashless name of one live symbol. -/
def countName (demangle : Str → Str) (ambiguous : List (Str × Nat)) (canonicalName : Str) :
    List (Str × Nat) :=
  match dehash (demangle canonicalName) with
  | some dehashed => bump dehashed ambiguous
  | none => ambiguous

/-- The map `ambiguous` after the loop main.rs:460-543 over the symbols has visited the live symbols
with these canonical names. -/
def ambiguousOf (demangle : Str → Str) (live : List Str) : List (Str × Nat) :=
  live.foldl (countName demangle) []

/-- main.rs:1219-1225: the new name of one node; `ambiguous[dehashed]` panics on a missing key. -/
def shortenName (demangle : Str → Str) (ambiguous : List (Str × Nat)) (name : Str) :
    Except Panic Str :=
  match dehash (demangle name) with
  | none => .ok name
  | some dehashed =>
    match lookupStr dehashed ambiguous with
    | none => .error (.missingAmbiguous dehashed)
    | some n => if n = 1 then .ok dehashed else .ok name

/-- main.rs:1217-1226: shorten the names of all nodes. -/
def shortenNodes (demangle : Str → Str) (ambiguous : List (Str × Nat)) :
    List Node → Except Panic (List Node)
  | [] => .ok []
  | nd :: rest =>
    match shortenName demangle ambiguous nd.name with
    | .error e => .error e
    | .ok name =>
      match shortenNodes demangle ambiguous rest with
      | .error e => .error e
      | .ok rest' => .ok ({ nd with name } :: rest')

/-- `str::strip_prefix`. -/
def stripPrefix : Str → Str → Option Str
  | s, [] => some s
  | [], _ :: _ => none
  | c :: s, p :: ps => if c = p then stripPrefix s ps else none

/-- Value of an ASCII decimal digit (`char::to_digit(10)`). -/
def digitVal (c : Char) : Option Nat :=
  if 48 ≤ c.toNat ∧ c.toNat ≤ 57 then some (c.toNat - 48) else none

/-- The digit loop of `u64::from_str_radix(_, 10)`: checked multiplication and addition. -/
def parseDigits (acc : Nat) : Str → Option Nat
  | [] => some acc
  | c :: s =>
    match digitVal c with
    | none => none                                      -- `InvalidDigit`
    | some d =>
      if acc * 10 < 2 ^ 64 ∧ acc * 10 + d < 2 ^ 64 then parseDigits (acc * 10 + d) s
      else none                                         -- `PosOverflow`

/-- `u64::from_str_radix(_, 10)` of the Rust standard library (also `u64::from_str`, and
`usize::from_str` on a 64-bit host). -/
def parseU64 (s : Str) : Option Nat :=
  match s with
  | [] => none                                          -- `Empty`
  | ['+'] => none                                       -- `InvalidDigit`
  | '+' :: rest => parseDigits 0 rest
  | _ => parseDigits 0 s

/-- `fn is_outlined_function` (main.rs:1534-1540). -/
def isOutlined (name : Str) : Bool :=
  match stripPrefix name c!"OUTLINED_FUNCTION_" with
  | some number => (parseU64 number).isSome
  | none => false

end CallStack
