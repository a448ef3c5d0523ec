import Verif.Model.Names

/-!
The parser combinators of `nom` 7.1.3 which src/ir.rs and its submodules use, in their `complete`
versions on `&str`.

A parser maps its input to the rest of the input and a value, or to `nom::Err::Error`. Positions and
kinds of these errors are left out: they are only ever used to try the next alternative. (The one
`nom::Err::Failure` of the code is in `items`, see `Model/IrItem.lean`.) A third outcome, `stuck`, stands
for the error with which the repetition combinators of nom report a parser that does not consume
anything, and for a recursion of the model that ran out of fuel. In the model it ends the whole parse;
theorem C56 says that it never occurs.
-/

namespace CallStack

/-- `nom::IResult<&str, α>`. -/
inductive Res (α : Type) where
  | ok (rest : Str) (a : α)
  | error
  | stuck
  deriving DecidableEq, Repr

/-- A parser. -/
abbrev P (α : Type) := Str → Res α

/-- `let (i, a) = p(i)?; ..` -/
@[inline] def P.bind {α β : Type} (p : P α) (f : α → P β) : P β := fun i =>
  match p i with
  | .ok r a => f a r
  | .error => .error
  | .stuck => .stuck

/-- `Ok((i, a))` -/
@[inline] def P.pure {α : Type} (a : α) : P α := fun i => .ok i a

instance : Monad P where
  pure := P.pure
  bind := P.bind

/-- `Err(nom::Err::Error(..))` -/
def P.fail {α : Type} : P α := fun _ => .error

/-- `tag(t)` -/
def tag (t : Str) : P Unit := fun i =>
  match stripPrefix i t with
  | some r => .ok r ()
  | none => .error

/-- `char(c)` -/
def charP (c : Char) : P Unit := fun i =>
  match i with
  | d :: r => if d = c then .ok r () else .error
  | [] => .error

/-- The longest prefix of characters with a property, and the rest. -/
def spanP (f : Char → Bool) : Str → Str × Str
  | [] => ([], [])
  | c :: s => if f c then ((c :: (spanP f s).1), (spanP f s).2) else ([], c :: s)

/-- `take_while1(f)`; also `digit1`, `space1`, and `is_not` with the negated set. -/
def takeWhile1 (f : Char → Bool) : P Str := fun i =>
  match spanP f i with
  | ([], _) => .error
  | (c :: s, r) => .ok r (c :: s)

/-- `space0`: spaces and tabs. -/
def isSpace (c : Char) : Bool := c == ' ' || c == '\t'

/-- `space0` -/
def space0 : P Unit := fun i => .ok (spanP isSpace i).2 ()

/-- `space1` -/
def space1 : P Unit := do
  let _ ← takeWhile1 isSpace
  pure ()

/-- `AsChar::is_dec_digit`, `char::is_digit(10)` -/
def isDigit (c : Char) : Bool := 48 ≤ c.toNat && c.toNat ≤ 57

/-- `digit1` -/
def digit1 : P Str := takeWhile1 isDigit

/-- `map_res(p, f)` -/
def mapRes {α β : Type} (p : P α) (f : α → Option β) : P β := do
  match f (← p) with
  | some b => pure b
  | none => P.fail

/-- `opt(p)` -/
def opt {α : Type} (p : P α) : P (Option α) := fun i =>
  match p i with
  | .ok r a => .ok r (some a)
  | .error => .ok i none
  | .stuck => .stuck

/-- `alt((p, q))` -/
def orElse {α : Type} (p q : P α) : P α := fun i =>
  match p i with
  | .ok r a => .ok r a
  | .error => q i
  | .stuck => .stuck

/-- `alt((p1, .., pn))` -/
def alt {α : Type} : List (P α) → P α
  | [] => P.fail
  | [p] => p
  | p :: ps => orElse p (alt ps)

/-- `line_ending` -/
def lineEnding : P Unit := fun i =>
  match i with
  | '\n' :: r => .ok r ()
  | '\r' :: '\n' :: r => .ok r ()
  | _ => .error

/-- Neither `\r` nor `\n`. -/
def notEol (c : Char) : Bool := c != '\r' && c != '\n'

/-- `not_line_ending`: up to the first `\r` or `\n`; an error if that is a `\r` without `\n`. -/
def notLineEnding : P Unit := fun i =>
  match (spanP notEol i).2 with
  | '\r' :: '\n' :: r => .ok ('\r' :: '\n' :: r) ()
  | '\r' :: _ => .error
  | r => .ok r ()

/-- `take_until("\"")`: up to the first quote, which must exist. -/
def takeUntilQuote : P Str := fun i =>
  match spanP (fun c => c != '"') i with
  | (_, []) => .error
  | (s, c :: r) => .ok (c :: r) s

/-- `many0(p)` with a bound on the number of iterations. -/
def many0F {α : Type} (p : P α) : Nat → P (List α)
  | 0, _ => .stuck
  | n + 1, i =>
    match p i with
    | .error => .ok i []
    | .stuck => .stuck
    | .ok r a =>
      if r.length < i.length then
        match many0F p n r with
        | .ok r' as => .ok r' (a :: as)
        | .error => .error
        | .stuck => .stuck
      else .stuck

/-- `many0(p)` -/
def many0 {α : Type} (p : P α) : P (List α) := fun i => many0F p (i.length + 1) i

/-- `many1(p)` -/
def many1 {α : Type} (p : P α) : P (List α) := fun i =>
  match p i with
  | .error => .error
  | .stuck => .stuck
  | .ok r a =>
    match many0 p r with
    | .ok r' as => .ok r' (a :: as)
    | .error => .error
    | .stuck => .stuck

/-- The loop of `separated_list0` and `separated_list1` after the first element. If an element is
missing after a separator, the separator is not consumed. -/
def sepLoopF {α β : Type} (sep : P β) (p : P α) : Nat → P (List α)
  | 0, _ => .stuck
  | n + 1, i =>
    match sep i with
    | .error => .ok i []
    | .stuck => .stuck
    | .ok r _ =>
      if r.length < i.length then
        match p r with
        | .error => .ok i []
        | .stuck => .stuck
        | .ok r' a =>
          match sepLoopF sep p n r' with
          | .ok r'' as => .ok r'' (a :: as)
          | .error => .error
          | .stuck => .stuck
      else .stuck

/-- The loop of `separated_list0` and `separated_list1`. -/
def sepLoop {α β : Type} (sep : P β) (p : P α) : P (List α) := fun i =>
  sepLoopF sep p (i.length + 1) i

/-- `separated_list1(sep, p)` -/
def sepList1 {α β : Type} (sep : P β) (p : P α) : P (List α) := fun i =>
  match p i with
  | .error => .error
  | .stuck => .stuck
  | .ok r a =>
    match sepLoop sep p r with
    | .ok r' as => .ok r' (a :: as)
    | .error => .error
    | .stuck => .stuck

/-- `separated_list0(sep, p)` -/
def sepList0 {α β : Type} (sep : P β) (p : P α) : P (List α) := fun i =>
  match sepList1 sep p i with
  | .error => .ok i []
  | r => r

/-- `delimited(open, p, close)` -/
def delimited {α : Type} (opening : P Unit) (p : P α) (closing : P Unit) : P α := do
  opening
  let a ← p
  closing
  pure a

end CallStack
