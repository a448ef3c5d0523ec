import Verif.Model.Ir
import Verif.Model.Symbols

/-!
Parsers for statements, functions and the other items of an LLVM-IR file, and the entry point `parse`:
src/ir/define.rs:42-294, src/ir/item.rs:10-216, src/ir.rs:68-97.
-/

namespace CallStack

/-- `fn parameter` (define.rs:42-60) -/
def parameterP (u : CharClass) : P Ty := do
  let ty ← typeP u
  attrsAfterP u
  let _ ← opt (do space1; aliasP u)
  let _ ← opt (do space1; localP u)
  pure ty

/-- `alt((map(type_, Some), map(tag("void"), |_| None)))` (define.rs:70 and elsewhere) -/
def outputP (u : CharClass) : P (Option Ty) :=
  alt [(do return some (← typeP u)), (do tag c!"void"; return none)]

/-- `opt(|i| { tag("tail"); space1 })` (define.rs:127-131 and elsewhere) -/
def tailP : P Unit := do
  let _ ← opt (do tag c!"tail"; space1)

/-- `fn label` (define.rs:105-119) -/
def labelP (u : CharClass) : P Stmt := do
  alt [(do let _ ← identP u), (do let _ ← stringP), (do let _ ← digit1)]
  charP ':'
  let _ ← opt (do space1; commentP)
  pure .label

/-- `fn comment` (define.rs:121-124) -/
def stmtCommentP : P Stmt := do
  commentP
  pure .comment

/-- `fn asm` (define.rs:126-147) -/
def asmP (u : CharClass) : P Stmt := do
  tailP
  tag c!"call"
  space1
  let _ ← outputP u
  space1
  tag c!"asm"
  space1
  let _ ← many0 (do let _ ← identP u; space1)
  let s ← stringP
  notLineEnding
  pure (.asm s)

/-- define.rs:159-177: the value of an argument. -/
def valueP (u : CharClass) : P Unit :=
  alt [(do let _ ← bitcastP u), (do let _ ← getelementptrP u), localP u, (do let _ ← functionP u), nullP,
    undefP, (do let _ ← opt (charP '-'); let _ ← digit1), tag c!"true", tag c!"false"]

/-- `fn argument` (define.rs:152-179) -/
def argumentP (u : CharClass) : P Ty := do
  let ty ← typeP u
  space1
  attrsP u
  valueP u
  pure ty

/-- `fn bitcast_call` (define.rs:181-203) -/
def bitcastCallP (u : CharClass) : P Stmt := do
  tailP
  tag c!"call"
  space1
  attrsP u
  let _ ← outputP u
  space1
  let name ← bitcastP u
  notLineEnding
  pure (.bitcastCall name)

/-- `fn direct_call` (define.rs:205-226) -/
def directCallP (u : CharClass) : P Stmt := do
  tailP
  alt [tag c!"call", tag c!"invoke"]
  space1
  attrsP u
  let _ ← outputP u
  space1
  let name ← functionP u
  charP '('
  notLineEnding
  pure (.directCall name)

/-- `fn indirect_call` (define.rs:228-263); the word `call` is read as an attribute. -/
def indirectCallP (u : CharClass) : P Stmt := do
  tailP
  attrsP u
  let output ← outputP u
  space1
  localP u
  let inputs ← delimited (charP '(') (sepList0 commaP (argumentP u)) (charP ')')
  notLineEnding
  pure (.indirectCall ⟨inputs, output⟩)

/-- The characters of tokens (define.rs:268). -/
def tokenChar (c : Char) : Bool := c != ' ' && c != '\t' && c != '\r' && c != '\n'

/-- define.rs:268-274: a token other than `call`. -/
def tokenP : P Unit := mapRes (takeWhile1 tokenChar) (fun s => if s = c!"call" then none else some ())

/-- `fn other` (define.rs:265-278) -/
def otherP : P Stmt := do
  let _ ← sepList1 space1 tokenP
  pure .other

/-- `fn assign` (define.rs:281-287) -/
def assignP (u : CharClass) : P Stmt := do
  localP u
  space1
  charP '='
  space1
  alt [asmP u, bitcastCallP u, directCallP u, indirectCallP u, otherP]

/-- define.rs:290-293: a statement that begins with spaces. -/
def indentedP (u : CharClass) : P Stmt := do
  space1
  alt [assignP u, asmP u, bitcastCallP u, directCallP u, indirectCallP u, otherP]

/-- `fn stmt` (define.rs:289-294) -/
def stmtP (u : CharClass) : P Stmt := alt [labelP u, stmtCommentP, indentedP u]

/-- `fn parse` (define.rs:62-103) -/
def defineP (u : CharClass) : P Define := do
  tag c!"define"
  space1
  attrsP u
  let output ← outputP u
  space1
  let name ← functionP u
  charP '('
  let inputs ← sepList0 commaP (parameterP u)
  charP ')'
  notLineEnding
  lineEnding
  let stmts ← sepList1 (many1 lineEnding) (stmtP u)
  let _ ← opt lineEnding
  tag c!"}"
  pure ⟨name, ⟨inputs, output⟩, stmts⟩

/-- `enum Item` (item.rs:12-47) -/
inductive Item where
  | alias (name target : Str)
  | comment
  | sourceFilename
  | target
  | global
  | type
  | define (d : Define)
  | declare (d : Declare)
  | attributes
  | metadata
  | moduleAsm
  deriving DecidableEq, Repr

/-- `fn comment` (item.rs:55-58) -/
def itemCommentP : P Item := do
  commentP
  pure .comment

/-- `fn source_filename` (item.rs:60-67) -/
def sourceFilenameP : P Item := do
  tag c!"source_filename"
  space1
  charP '='
  notLineEnding
  pure .sourceFilename

/-- `fn target` (item.rs:69-78) -/
def targetP : P Item := do
  tag c!"target"
  space1
  alt [tag c!"datalayout", tag c!"triple"]
  space1
  charP '='
  notLineEnding
  pure .target

/-- `fn alias` (item.rs:80-100) -/
def itemAliasP (u : CharClass) : P Item := do
  let name ← functionP u
  space1
  charP '='
  space1
  attrsP u
  tag c!"alias"
  space1
  let _ ← typeP u
  space0
  charP ','
  space1
  let _ ← typeP u
  space1
  let alias ← functionP u
  pure (.alias name alias)

/-- `fn global` (item.rs:102-117) -/
def itemGlobalP (u : CharClass) : P Item := do
  let _ ← globalP u
  space1
  charP '='
  space1
  attrsP u
  alt [tag c!"global", tag c!"constant"]
  space1
  notLineEnding
  pure .global

/-- `fn type_` (item.rs:119-126) -/
def itemTypeP (u : CharClass) : P Item := do
  let _ ← aliasP u
  space1
  charP '='
  notLineEnding
  pure .type

/-- item.rs:152-160: one parameter of a declaration. -/
def declParamP (u : CharClass) : P Ty := do
  let ty ← typeP u
  attrsAfterP u
  pure ty

/-- item.rs:141-174: the rest of a declaration, after the opening parenthesis. -/
def declareRestP (u : CharClass) (output : Option Ty) (name : Str) : P Item :=
  if startsWith name c!"llvm." then do
    notLineEnding
    pure (.declare ⟨name, none⟩)
  else do
    let inputs ← sepList0 commaP (declParamP u)
    charP ')'
    notLineEnding
    pure (.declare ⟨name, some ⟨inputs, output⟩⟩)

/-- `fn declare` (item.rs:128-175) -/
def declareP (u : CharClass) : P Item := do
  tag c!"declare"
  space1
  attrsP u
  let output ← outputP u
  space1
  let name ← functionP u
  charP '('
  declareRestP u output name

/-- `fn attributes` (item.rs:177-184) -/
def attributesP : P Item := do
  tag c!"attributes"
  space1
  charP '#'
  notLineEnding
  pure .attributes

/-- `fn metadata` (item.rs:186-191) -/
def metadataP : P Item := do
  tag c!"!"
  notLineEnding
  pure .metadata

/-- `fn module_asm` (item.rs:193-200) -/
def moduleAsmP : P Item := do
  tag c!"module"
  space1
  tag c!"asm"
  space1
  let _ ← stringP
  pure .moduleAsm

/-- `fn item` (item.rs:202-216) -/
def itemP (u : CharClass) : P Item :=
  alt [itemCommentP, sourceFilenameP, targetP, itemTypeP u, itemGlobalP u, itemAliasP u,
    (do return .define (← defineP u)), declareP u, attributesP, metadataP, moduleAsmP]

/-! ### The whole file -/

/-- The result of `fn items`. -/
inductive ItemsRes where
  | ok (items : List Item)
  /-- `nom::Err::Failure` with the remaining input -/
  | failure (rest : Str)
  /-- see `Model/Nom.lean` -/
  | stuck
  deriving DecidableEq, Repr

/-- `fn items` (ir.rs:89-97). (`separated_list0` and `many0` return no errors but those of `stuck`.) -/
def itemsP (u : CharClass) (i : Str) : ItemsRes :=
  match sepList0 (many1 lineEnding) (itemP u) i with
  | .ok r items =>
    match many0 lineEnding r with
    | .ok [] _ => .ok items
    | .ok r' _ => .failure r'
    | _ => .stuck
  | _ => .stuck

/-- `ll.split_inclusive('\n')` -/
def splitInclusive : Str → List Str
  | [] => []
  | c :: s =>
    if c = '\n' then [c] :: splitInclusive s
    else
      match splitInclusive s with
      | [] => [[c]]
      | l :: ls => (c :: l) :: ls

/-- ir.rs:72-77: the number of the line that contains the byte offset `cur`; `n` lines precede. `none`
is the `unreachable!` of ir.rs:79. -/
def findLine : Nat → Nat → List Str → Option Nat
  | _, _, [] => none
  | cur, n, line :: rest => if utf8Len line ≤ cur then findLine (cur - utf8Len line) (n + 1) rest
    else some (n + 1)

/-- The result of `parse`. -/
inductive ParseRes where
  | ok (items : List Item)
  /-- an error that names this line -/
  | errorAt (line : Nat)
  | panic (p : Panic)
  deriving DecidableEq, Repr

/-- `pub fn parse` (ir.rs:68-87) -/
def parseIr (u : CharClass) (ll : Str) : ParseRes :=
  match itemsP u ll with
  | .ok items => .ok items
  | .failure rest =>
    match findLine (utf8Len ll - utf8Len rest) 0 (splitInclusive ll) with
    | some n => .errorAt n
    | none => .panic .parseLine
  | .stuck => .panic .fuel

end CallStack
