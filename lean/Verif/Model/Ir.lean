import Verif.Model.Nom
import Verif.Model.Types

/-!
Parsers for identifiers, attributes, constants and types of LLVM-IR: src/ir.rs:99-303 and
src/ir/ty.rs:164-343.
-/

namespace CallStack

/-- `char::is_alphabetic` and `char::is_numeric` of the Rust standard library. The Unicode tables are
left open; only their values on ASCII are fixed. -/
structure CharClass where
  alphabetic : Char → Bool
  numeric : Char → Bool
  alphabetic_ascii : ∀ c : Char, c.toNat < 128 → alphabetic c =
    ((65 ≤ c.toNat && c.toNat ≤ 90) || (97 ≤ c.toNat && c.toNat ≤ 122))
  numeric_ascii : ∀ c : Char, c.toNat < 128 → numeric c = isDigit c

/-- `char::is_alphanumeric` -/
def CharClass.alphanumeric (u : CharClass) (c : Char) : Bool := u.alphabetic c || u.numeric c

/-- `fn comment` (ir.rs:102-106) -/
def commentP : P Unit := do
  charP ';'
  notLineEnding

/-- ir.rs:114: the characters of identifiers. -/
def identChar (u : CharClass) (c : Char) : Bool :=
  u.alphanumeric c || c == '-' || c == '$' || c == '.' || c == '_'

/-- `fn ident` (ir.rs:112-123) -/
def identP (u : CharClass) : P Str :=
  mapRes (takeWhile1 (identChar u)) (fun s => if s.head?.any isDigit then none else some s)

/-- `fn string` (ir.rs:298-303); escapes are not interpreted. -/
def stringP : P Str := do
  charP '"'
  let s ← takeUntilQuote
  charP '"'
  pure s

/-- `fn global` (ir.rs:128-136); a number is an unnamed global. -/
def globalP (u : CharClass) : P (Option Str) := do
  charP '@'
  alt [(do return some (← stringP)), (do let _ ← digit1; return none), (do return some (← identP u))]

/-- `fn local` (ir.rs:141-145) -/
def localP (u : CharClass) : P Unit := do
  charP '%'
  alt [(do let _ ← digit1), (do let _ ← identP u)]

/-- `fn null` (ir.rs:150-153) -/
def nullP : P Unit := tag c!"null"

/-- `fn undef` (ir.rs:155-158) -/
def undefP : P Unit := tag c!"undef"

/-- `fn name` (ir.rs:271-273) -/
def nameP (u : CharClass) : P Str := alt [stringP, identP u, digit1]

/-- `fn function` (ir.rs:278-282) -/
def functionP (u : CharClass) : P Str := do
  charP '@'
  nameP u

/-- `fn alias` (ir.rs:287-291) -/
def aliasP (u : CharClass) : P Str := do
  charP '%'
  nameP u

/-! ### Types -/

/-- `map_res(digit1, usize::from_str)` -/
def usizeP : P Nat := mapRes digit1 parseU64

/-- ty.rs:167-174, 182-189: the inside of arrays and vectors. `ty` is the parser for types. -/
def countedP (ty : P Ty) (mk : Nat → Ty → Ty) : P Ty := do
  let count ← usizeP
  space1
  charP 'x'
  space1
  let t ← ty
  pure (mk count t)

/-- `fn array` (ty.rs:164-177) -/
def arrayP (ty : P Ty) : P Ty := delimited (charP '[') (countedP ty .array) (charP ']')

/-- `fn mvt_vector` (ty.rs:179-192) -/
def mvtVectorP (ty : P Ty) : P Ty := delimited (charP '<') (countedP ty .mvtVector) (charP '>')

/-- `fn double` (ty.rs:194-196) -/
def doubleP : P Ty := do
  tag c!"double"
  pure .double

/-- `fn float` (ty.rs:198-200) -/
def floatP : P Ty := do
  tag c!"float"
  pure .float

/-- `fn opaque_pointer` (ty.rs:202-204) -/
def opaquePointerP : P Ty := do
  tag c!"ptr"
  pure .opaquePointer

/-- `fn integer` (ty.rs:206-210) -/
def integerP : P Ty := do
  charP 'i'
  let count ← usizeP
  pure (.integer count)

/-- `fn alias` (ty.rs:212-214) -/
def tyAliasP (u : CharClass) : P Ty := do
  let name ← aliasP u
  pure (.alias name)

/-- `fn varargs` (ty.rs:216-218) -/
def varargsP : P Ty := do
  tag c!"..."
  pure .varargs

/-- The separator of lists (ty.rs:224-227, 335-338 and elsewhere). -/
def commaP : P Unit := do
  charP ','
  space1

/-- `fn _struct` (ty.rs:220-233) -/
def fieldsP (ty : P Ty) : P (List Ty) := do
  charP '{'
  space0
  let fields ← sepList0 commaP ty
  space0
  charP '}'
  pure fields

/-- `fn packed_struct` (ty.rs:235-240) -/
def packedStructP (ty : P Ty) : P Ty := do
  charP '<'
  let fields ← fieldsP ty
  charP '>'
  pure (.packedStruct fields)

/-- `fn struct_` (ty.rs:242-244) -/
def structP (ty : P Ty) : P Ty := do
  let fields ← fieldsP ty
  pure (.struct fields)

/-- `fn fn_inputs` (ty.rs:331-343) -/
def fnInputsP (ty : P Ty) : P (List Ty) := do
  charP '('
  space0
  let inputs ← sepList0 commaP ty
  charP ')'
  pure inputs

/-- The loops ty.rs:259-268, 286-295, 312-321: one pointer for each star. -/
def starsP : Ty → P Ty
  | t, '*' :: r => starsP (.pointer t) r
  | t, i => .ok i t

/-- ty.rs:299-302: the inputs of a function type. -/
def fnTailP (ty : P Ty) : P (List Ty) := do
  space1
  fnInputsP ty

/-- The loop ty.rs:298-325, with a bound on the number of iterations. -/
def fnLoopF (ty : P Ty) : Nat → Ty → P Ty
  | 0, _, _ => .stuck
  | n + 1, t, i =>
    match opt (fnTailP ty) i with
    | .ok r (some inputs) =>
      match starsP (.fn inputs (some t)) r with
      | .ok r' t' => fnLoopF ty n t' r'
      | .error => .error
      | .stuck => .stuck
    | .ok _ none => .ok i t
    | .error => .error
    | .stuck => .stuck

/-- The loop ty.rs:298-325. -/
def fnLoopP (ty : P Ty) (t : Ty) : P Ty := fun i => fnLoopF ty (i.length + 1) t i

/-- ty.rs:272-283: the alternatives. -/
def baseP (u : CharClass) (ty : P Ty) : P Ty :=
  alt [arrayP ty, packedStructP ty, structP ty, tyAliasP u, doubleP, floatP, opaquePointerP, integerP,
    varargsP, mvtVectorP ty]

/-- The body of `fn type_` (ty.rs:246-329); `ty` stands for the recursive calls. -/
def typeBody (u : CharClass) (ty : P Ty) : P Ty := do
  match ← opt (tag c!"void") with
  | some () =>
    space1
    let inputs ← fnInputsP ty
    starsP (.fn inputs none)
  | none =>
    let t ← baseP u ty
    let t ← starsP t
    fnLoopP ty t

/-- `fn type_` (ty.rs:246-329) with a bound on the depth of the recursion. -/
def typeF (u : CharClass) : Nat → P Ty
  | 0 => fun _ => .stuck
  | n + 1 => typeBody u (typeF u n)

/-- `fn type_` (ty.rs:246-329) -/
def typeP (u : CharClass) : P Ty := fun i => typeF u (i.length + 1) i

/-! ### Attributes and constants -/

/-- What follows the name of an attribute (ir.rs:167-202). -/
inductive AttrKind where
  /-- a number in parentheses -/
  | number
  /-- a type in parentheses -/
  | type
  /-- spaces and a number -/
  | align
  /-- not an attribute -/
  | none
  /-- nothing -/
  | plain
  deriving DecidableEq, Repr

/-- ir.rs:167-202 -/
def attrKind (attr : Str) : AttrKind :=
  if [c!"dereferenceable", c!"dereferenceable_or_null", c!"alignstack"].contains attr then .number
  else if [c!"sret", c!"preallocated", c!"inalloca", c!"elementtype", c!"byval", c!"byref"].contains attr
  then .type
  else if attr = c!"align" then .align
  else if [c!"double", c!"float", c!"void", c!"ptr"].contains attr then .none
  else if [c!"bitcast", c!"getelementptr"].contains attr then .none
  else if [c!"alias", c!"global", c!"constant"].contains attr then .none
  else .plain

/-- `fn attribute` (ir.rs:164-205) -/
def attributeP (u : CharClass) : P Unit := do
  let attr ← takeWhile1 (fun c => u.alphabetic c || c == '_')
  match attrKind attr with
  | .number =>
    charP '('
    let _ ← digit1
    charP ')'
  | .type =>
    charP '('
    let _ ← typeP u
    charP ')'
  | .align =>
    space1
    let _ ← digit1
  | .none => P.fail
  | .plain => pure ()

/-- Attributes, each followed by spaces (define.rs:65-69 and elsewhere). -/
def attrsP (u : CharClass) : P Unit := do
  let _ ← many0 (do attributeP u; space1)

/-- Attributes, each preceded by spaces (define.rs:45-49, item.rs:154-158). -/
def attrsAfterP (u : CharClass) : P Unit := do
  let _ ← many0 (do space1; attributeP u)

/-- ir.rs:256-262: one index of a `getelementptr`. -/
def gepIndexP (u : CharClass) : P Unit := do
  charP ','
  space1
  let _ ← typeP u
  space1
  let _ ← digit1

/-- ir.rs:249-265 -/
def gepInnerP (u : CharClass) : P (Option Str) := do
  let _ ← typeP u
  charP ','
  space1
  let _ ← typeP u
  space1
  let name ← globalP u
  let _ ← many1 (gepIndexP u)
  pure name

/-- `fn getelementptr` (ir.rs:239-269) -/
def getelementptrP (u : CharClass) : P (Option Str) := do
  tag c!"getelementptr"
  space1
  let _ ← opt (do tag c!"inbounds"; space1)
  delimited (charP '(') (gepInnerP u) (charP ')')

/-- ir.rs:216-231 -/
def bitcastInnerP (u : CharClass) : P (Option Str) := do
  let _ ← typeP u
  space1
  let name ← alt [globalP u, getelementptrP u]
  space1
  tag c!"to"
  space1
  let _ ← typeP u
  pure name

/-- `fn bitcast` (ir.rs:211-233) -/
def bitcastP (u : CharClass) : P (Option Str) := do
  tag c!"bitcast"
  space1
  delimited (charP '(') (bitcastInnerP u) (charP ')')

end CallStack
