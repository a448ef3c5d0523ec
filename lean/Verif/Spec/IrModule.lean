import Verif.Spec.IrText

/-!
The textual format of LLVM-IR, continued: statements, definitions and whole modules. A relation
`XText u x s` says that `s` is a way to write `x`. Where the tool supports less than LLVM allows (for
example quoted names of local variables), the grammar is that of the supported part; the comments say so.
-/

namespace CallStack

/-- A line break. -/
def Eol (s : Str) : Prop := s = c!"\n" ∨ s = c!"\r\n"

/-- One or more line breaks. -/
inductive Eols : Str → Prop
  | one {e : Str} : Eol e → Eols e
  | cons {e s : Str} : Eol e → Eols s → Eols (e ++ s)

/-- `w` is one of the words of `s`, where words are separated by blanks. -/
def HasWord (w s : Str) : Prop :=
  ∃ a b, s = a ++ (w ++ b) ∧ (∀ c, a.getLast? = some c → c = ' ' ∨ c = '\t') ∧
    ∀ c, b.head? = some c → c = ' ' ∨ c = '\t'

/-- All line breaks of the text are inside quotes: an odd number of quotes precedes them. -/
def InLine (x : Str) : Prop := ∀ a c b, x = a ++ c :: b → c = '\n' ∨ c = '\r' → a.count '"' % 2 = 1

/-! ### Attributes -/

/-- Attributes with a number in parentheses. -/
def numberAttrs : List Str := [c!"dereferenceable", c!"dereferenceable_or_null", c!"alignstack"]

/-- Attributes with a type in parentheses. -/
def typeAttrs : List Str :=
  [c!"sret", c!"preallocated", c!"inalloca", c!"elementtype", c!"byval", c!"byref"]

/-- Words that are not attributes. -/
def keywords : List Str :=
  [c!"double", c!"float", c!"void", c!"ptr", c!"bitcast", c!"getelementptr", c!"alias", c!"global",
    c!"constant"]

/-- An attribute: of a function, parameter, global or call; also linkage and calling conventions. -/
inductive AttrText (u : CharClass) : Str → Prop
  | word {w : Str} : w ≠ [] → (∀ c ∈ w, u.alphabetic c = true ∨ c = '_') → w ∉ numberAttrs →
      w ∉ typeAttrs → w ≠ c!"align" → w ∉ keywords → AttrText u w
  | number {w ds : Str} : w ∈ numberAttrs → Digits ds → AttrText u (w ++ (c!"(" ++ (ds ++ c!")")))
  | type {w s : Str} {t : Ty} : w ∈ typeAttrs → TyText u t s → AttrText u (w ++ (c!"(" ++ (s ++ c!")")))
  | align {b ds : Str} : Blanks b → Digits ds → AttrText u (c!"align" ++ (b ++ ds))

/-- Attributes, each followed by blanks. -/
inductive AttrsText (u : CharClass) : Str → Prop
  | nil : AttrsText u []
  | cons {a b s : Str} : AttrText u a → Blanks b → AttrsText u s → AttrsText u (a ++ (b ++ s))

/-- Attributes, each preceded by blanks. -/
inductive AttrsAfterText (u : CharClass) : Str → Prop
  | nil : AttrsAfterText u []
  | cons {b a s : Str} : Blanks b → AttrText u a → AttrsAfterText u s → AttrsAfterText u (b ++ (a ++ s))

/-- What a function returns. -/
inductive OutText (u : CharClass) : Option Ty → Str → Prop
  | void : OutText u none c!"void"
  | some {t : Ty} {s : Str} : TyText u t s → OutText u (some t) s

/-! ### Constants and arguments -/

/-- A global variable or function; those with a number have no name. -/
inductive GlobalText (u : CharClass) : Option Str → Str → Prop
  | quoted {name : Str} : '"' ∉ name → GlobalText u (some name) ('@' :: '"' :: (name ++ ['"']))
  | plain {name : Str} : Ident u name → GlobalText u (some name) ('@' :: name)
  | number {ds : Str} : Digits ds → GlobalText u none ('@' :: ds)

/-- A local variable. (Names in quotes are not supported.) -/
inductive LocalText (u : CharClass) : Str → Prop
  | plain {name : Str} : Ident u name → LocalText u ('%' :: name)
  | number {ds : Str} : Digits ds → LocalText u ('%' :: ds)

/-- The indices of a `getelementptr`. -/
inductive IndicesText (u : CharClass) : Str → Prop
  | one {b s b' ds : Str} {t : Ty} : Blanks b → TyText u t s → Blanks b' → Digits ds →
      IndicesText u (c!"," ++ (b ++ (s ++ (b' ++ ds))))
  | cons {b s b' ds r : Str} {t : Ty} : Blanks b → TyText u t s → Blanks b' → Digits ds →
      IndicesText u r → IndicesText u (c!"," ++ (b ++ (s ++ (b' ++ (ds ++ r)))))

/-- `inbounds`, or nothing. -/
inductive InboundsText : Str → Prop
  | nil : InboundsText []
  | inbounds {b : Str} : Blanks b → InboundsText (c!"inbounds" ++ b)

/-- `getelementptr inbounds ({ i8 }, { i8 }* @name, i32 0, i32 0)` -/
inductive GepText (u : CharClass) : Option Str → Str → Prop
  | mk {b n t1 b1 t2 b2 g is : Str} {ty1 ty2 : Ty} {name : Option Str} : Blanks b → InboundsText n →
      TyText u ty1 t1 → Blanks b1 → TyText u ty2 t2 → Blanks b2 → GlobalText u name g →
      IndicesText u is → GepText u name
        (c!"getelementptr" ++ (b ++ (n ++ (c!"(" ++ (t1 ++ (c!"," ++ (b1 ++ (t2 ++ (b2 ++ (g ++ (is ++ c!")")))))))))))

/-- The operand of a `bitcast`. -/
inductive OperandText (u : CharClass) : Option Str → Str → Prop
  | global {name : Option Str} {s : Str} : GlobalText u name s → OperandText u name s
  | gep {name : Option Str} {s : Str} : GepText u name s → OperandText u name s

/-- `bitcast (i8* @name to i16*)` -/
inductive BitcastText (u : CharClass) : Option Str → Str → Prop
  | mk {b t1 b1 g b2 b3 t2 : Str} {ty1 ty2 : Ty} {name : Option Str} : Blanks b → TyText u ty1 t1 →
      Blanks b1 → OperandText u name g → Blanks b2 → Blanks b3 → TyText u ty2 t2 →
      BitcastText u name
        (c!"bitcast" ++ (b ++ (c!"(" ++ (t1 ++ (b1 ++ (g ++ (b2 ++ (c!"to" ++ (b3 ++ (t2 ++ c!")"))))))))))

/-- The value of an argument. (`poison`, `zeroinitializer`, floating point numbers and other constants are
not supported.) -/
inductive ValueText (u : CharClass) : Str → Prop
  | bitcast {name : Option Str} {s : Str} : BitcastText u name s → ValueText u s
  | gep {name : Option Str} {s : Str} : GepText u name s → ValueText u s
  | var {s : Str} : LocalText u s → ValueText u s
  | global {name s : Str} : NameText u name s → ValueText u ('@' :: s)
  | null : ValueText u c!"null"
  | undef : ValueText u c!"undef"
  | number {ds : Str} : Digits ds → ValueText u ds
  | negative {ds : Str} : Digits ds → ValueText u ('-' :: ds)
  | true : ValueText u c!"true"
  | false : ValueText u c!"false"

/-- An argument of an indirect call. -/
inductive ArgText (u : CharClass) : Ty → Str → Prop
  | mk {t : Ty} {s b a v : Str} : TyText u t s → Blanks b → AttrsText u a → ValueText u v →
      ArgText u t (s ++ (b ++ (a ++ v)))

/-- A parameter of a definition. -/
inductive ParamText (u : CharClass) : Ty → Str → Prop
  | unnamed {t : Ty} {s a : Str} : TyText u t s → AttrsAfterText u a → ParamText u t (s ++ a)
  | named {t : Ty} {s a b name n : Str} : TyText u t s → AttrsAfterText u a → Blanks b →
      NameText u name n → ParamText u t (s ++ (a ++ (b ++ (c!"%" ++ n))))

/-- A parameter of a declaration. -/
inductive DeclParamText (u : CharClass) : Ty → Str → Prop
  | mk {t : Ty} {s a : Str} : TyText u t s → AttrsAfterText u a → DeclParamText u t (s ++ a)

/-- A list with commas. -/
inductive ListText (one : Ty → Str → Prop) : List Ty → Str → Prop
  | nil : ListText one [] []
  | one {t : Ty} {s : Str} : one t s → ListText one [t] s
  | cons {t t' : Ty} {ts : List Ty} {s b s' : Str} : one t s → Blanks b →
      ListText one (t' :: ts) s' → ListText one (t :: t' :: ts) (s ++ (c!"," ++ (b ++ s')))

/-! ### Statements -/

/-- `tail`, or nothing. -/
inductive TailText : Str → Prop
  | nil : TailText []
  | tail {b : Str} : Blanks b → TailText (c!"tail" ++ b)

/-- `call` or `invoke`. -/
inductive CallText : Str → Prop
  | call : CallText c!"call"
  | invoke : CallText c!"invoke"

/-- The words between `asm` and the assembly code. -/
inductive AsmFlagsText (u : CharClass) : Str → Prop
  | nil : AsmFlagsText u []
  | cons {w b s : Str} : Ident u w → Blanks b → AsmFlagsText u s → AsmFlagsText u (w ++ (b ++ s))

/-- A local variable directly followed by an opening parenthesis occurs in the text. -/
def CallsLocal (u : CharClass) (s : Str) : Prop :=
  ∃ a n b, s = a ++ ('%' :: (n ++ '(' :: b)) ∧ ∀ c ∈ n, IdentChar u c

/-- Any other instruction: it neither begins nor ends with a blank, its quotes are closed, and it contains
neither `call` nor `invoke` nor `%name(`. -/
def OtherText (u : CharClass) (s : Str) : Prop :=
  s ≠ [] ∧ OneLine s ∧ (∀ c, s.head? = some c → c ≠ ' ' ∧ c ≠ '\t') ∧
    (∀ c, s.getLast? = some c → c ≠ ' ' ∧ c ≠ '\t') ∧ ¬ HasWord c!"call" s ∧ ¬ HasWord c!"invoke" s ∧
    ¬ CallsLocal u s ∧ s.count '"' % 2 = 0

/-- An instruction, without the variable it is assigned to. -/
inductive InstrText (u : CharClass) : Stmt → Str → Prop
  /-- `tail call void asm sideeffect "cpsid i", "~{memory}"()` -/
  | asm {t b1 o b2 b3 f s e : Str} {out : Option Ty} : TailText t → Blanks b1 → OutText u out o →
      Blanks b2 → Blanks b3 → AsmFlagsText u f → '"' ∉ s → OneLine e →
      InstrText u (.asm s)
        (t ++ (c!"call" ++ (b1 ++ (o ++ (b2 ++ (c!"asm" ++ (b3 ++ (f ++ ('"' :: (s ++ ('"' :: e)))))))))))
  /-- `tail call void bitcast (i8* (i8*)* @name to void (i8*)*)(i8* %x)` -/
  | bitcast {t b1 a o b2 c e : Str} {out : Option Ty} {name : Option Str} : TailText t → Blanks b1 →
      AttrsText u a → OutText u out o → Blanks b2 → BitcastText u name c → OneLine e →
      InstrText u (.bitcastCall name) (t ++ (c!"call" ++ (b1 ++ (a ++ (o ++ (b2 ++ (c ++ e)))))))
  /-- `tail call fastcc noundef i32 @name(i8* %x) #3, !dbg !7` -/
  | direct {t c b1 a o b2 name n e : Str} {out : Option Ty} : TailText t → CallText c → Blanks b1 →
      AttrsText u a → OutText u out o → Blanks b2 → NameText u name n → OneLine e →
      InstrText u (.directCall name)
        (t ++ (c ++ (b1 ++ (a ++ (o ++ (b2 ++ (c!"@" ++ (n ++ (c!"(" ++ e)))))))))
  /-- `tail call noundef i32 %f(i8* noundef %x) #3, !dbg !7` -/
  | indirect {t c b1 a o b2 l s e : Str} {out : Option Ty} {ins : List Ty} : TailText t → CallText c →
      Blanks b1 → AttrsText u a → OutText u out o → Blanks b2 → LocalText u l →
      ListText (ArgText u) ins s → OneLine e →
      InstrText u (.indirectCall ⟨ins, out⟩)
        (t ++ (c ++ (b1 ++ (a ++ (o ++ (b2 ++ (l ++ (c!"(" ++ (s ++ (c!")" ++ e))))))))))
  | other {s : Str} : OtherText u s → InstrText u .other s

/-- The name of a label. -/
inductive LabelText (u : CharClass) : Str → Prop
  | plain {name : Str} : Ident u name → LabelText u name
  | quoted {name : Str} : '"' ∉ name → LabelText u ('"' :: (name ++ ['"']))
  | number {ds : Str} : Digits ds → LabelText u ds

/-- One line of the body of a function. -/
inductive StmtText (u : CharClass) : Stmt → Str → Prop
  | label {l : Str} : LabelText u l → StmtText u .label (l ++ c!":")
  | labelComment {l b e : Str} : LabelText u l → Blanks b → OneLine e →
      StmtText u .label (l ++ (c!":" ++ (b ++ (c!";" ++ e))))
  | comment {e : Str} : OneLine e → StmtText u .comment (c!";" ++ e)
  | instr {b s : Str} {st : Stmt} : Blanks b → s.head? ≠ some '%' → InstrText u st s →
      StmtText u st (b ++ s)
  | assign {b l b1 b2 s : Str} {st : Stmt} : Blanks b → LocalText u l → Blanks b1 → Blanks b2 →
      InstrText u st s → StmtText u st (b ++ (l ++ (b1 ++ (c!"=" ++ (b2 ++ s)))))

/-- The body of a function. -/
inductive BodyText (u : CharClass) : List Stmt → Str → Prop
  | one {st : Stmt} {s : Str} : StmtText u st s → BodyText u [st] s
  | cons {st : Stmt} {sts : List Stmt} {s e s' : Str} : StmtText u st s → Eols e → BodyText u sts s' →
      BodyText u (st :: sts) (s ++ (e ++ s'))

/-! ### Items -/

/-- A definition. -/
inductive DefineText (u : CharClass) : Define → Str → Prop
  | mk {b1 a o b2 name n ps e l s l' : Str} {out : Option Ty} {ins : List Ty} {sts : List Stmt} :
      Blanks b1 → AttrsText u a → OutText u out o → Blanks b2 → NameText u name n →
      ListText (ParamText u) ins ps → OneLine e → Eol l → BodyText u sts s → Eol l' →
      DefineText u ⟨name, ⟨ins, out⟩, sts⟩
        (c!"define" ++ (b1 ++ (a ++ (o ++ (b2 ++ (c!"@" ++ (n ++ (c!"(" ++ (ps ++ (c!")" ++ (e ++ (l ++ (s ++
          (l' ++ c!"}"))))))))))))))

/-- A declaration. The parameters of intrinsics are not read. -/
inductive DeclareText (u : CharClass) : Declare → Str → Prop
  | intrinsic {b1 a o b2 name n e : Str} {out : Option Ty} : Blanks b1 → AttrsText u a →
      OutText u out o → Blanks b2 → NameText u name n → c!"llvm." <+: name → OneLine e →
      DeclareText u ⟨name, none⟩
        (c!"declare" ++ (b1 ++ (a ++ (o ++ (b2 ++ (c!"@" ++ (n ++ (c!"(" ++ e))))))))
  | function {b1 a o b2 name n ps e : Str} {out : Option Ty} {ins : List Ty} : Blanks b1 →
      AttrsText u a → OutText u out o → Blanks b2 → NameText u name n → ¬ c!"llvm." <+: name →
      ListText (DeclParamText u) ins ps → OneLine e →
      DeclareText u ⟨name, some ⟨ins, out⟩⟩
        (c!"declare" ++ (b1 ++ (a ++ (o ++ (b2 ++ (c!"@" ++ (n ++ (c!"(" ++ (ps ++ (c!")" ++ e))))))))))

/-- `global` or `constant`. -/
inductive GlobalKind : Str → Prop
  | global : GlobalKind c!"global"
  | constant : GlobalKind c!"constant"

/-- `datalayout` or `triple`. -/
inductive TargetKind : Str → Prop
  | datalayout : TargetKind c!"datalayout"
  | triple : TargetKind c!"triple"

/-- An item of a module. -/
inductive ItemText (u : CharClass) : Item → Str → Prop
  | comment {e : Str} : OneLine e → ItemText u .comment (c!";" ++ e)
  | sourceFilename {b e : Str} : Blanks b → OneLine e →
      ItemText u .sourceFilename (c!"source_filename" ++ (b ++ (c!"=" ++ e)))
  | target {b k b' e : Str} : Blanks b → TargetKind k → Blanks b' → OneLine e →
      ItemText u .target (c!"target" ++ (b ++ (k ++ (b' ++ (c!"=" ++ e)))))
  | type {name n b e : Str} : NameText u name n → Blanks b → OneLine e →
      ItemText u .type (c!"%" ++ (n ++ (b ++ (c!"=" ++ e))))
  | global {name : Option Str} {g b b' a k b2 e : Str} : GlobalText u name g → Blanks b → Blanks b' →
      AttrsText u a → GlobalKind k → Blanks b2 → OneLine e →
      (∀ c, e.head? = some c → c ≠ ' ' ∧ c ≠ '\t') →
      ItemText u .global (g ++ (b ++ (c!"=" ++ (b' ++ (a ++ (k ++ (b2 ++ e)))))))
  | alias {name n b b' a b1 t1 b2 b3 t2 b4 target n' : Str} {ty1 ty2 : Ty} : NameText u name n →
      Blanks b → Blanks b' → AttrsText u a → Blanks b1 → TyText u ty1 t1 → OptBlanks b2 → Blanks b3 →
      TyText u ty2 t2 → Blanks b4 → NameText u target n' →
      ItemText u (.alias name target)
        (c!"@" ++ (n ++ (b ++ (c!"=" ++ (b' ++ (a ++ (c!"alias" ++ (b1 ++ (t1 ++ (b2 ++ (c!"," ++ (b3 ++ (t2 ++
          (b4 ++ (c!"@" ++ n')))))))))))))))
  | define {d : Define} {s : Str} : DefineText u d s → ItemText u (.define d) s
  | declare {d : Declare} {s : Str} : DeclareText u d s → ItemText u (.declare d) s
  | attributes {b e : Str} : Blanks b → OneLine e →
      ItemText u .attributes (c!"attributes" ++ (b ++ (c!"#" ++ e)))
  | metadata {e : Str} : OneLine e → ItemText u .metadata (c!"!" ++ e)
  | moduleAsm {b b' s : Str} : Blanks b → Blanks b' → '"' ∉ s →
      ItemText u .moduleAsm (c!"module" ++ (b ++ (c!"asm" ++ (b' ++ ('"' :: (s ++ c!"\""))))))

/-- The items of a module, without the line breaks at the end. -/
inductive ItemsText (u : CharClass) : List Item → Str → Prop
  | one {x : Item} {s : Str} : ItemText u x s → ItemsText u [x] s
  | cons {x : Item} {xs : List Item} {s e s' : Str} : ItemText u x s → Eols e → ItemsText u xs s' →
      ItemsText u (x :: xs) (s ++ (e ++ s'))

/-- A module. -/
inductive ModuleText (u : CharClass) : List Item → Str → Prop
  | empty : ModuleText u [] []
  | eols {e : Str} : Eols e → ModuleText u [] e
  | items {xs : List Item} {s : Str} : ItemsText u xs s → ModuleText u xs s
  | itemsEol {xs : List Item} {s e : Str} : ItemsText u xs s → Eols e → ModuleText u xs (s ++ e)

end CallStack
