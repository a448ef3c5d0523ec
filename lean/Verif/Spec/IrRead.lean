import Verif.Spec.IrCover

/-!
What the text of an accepted LLVM-IR file looks like. The relations follow the grammar `ModuleText` and
differ from it only where the tool is more tolerant: the words of an indirect call before the type need
not contain `call`, a parameter may be followed by two names, the `}` of a definition may follow the last
statement directly, and an instruction without interest is any line without the word `call`.
-/

namespace CallStack

/-- Nothing, or blanks and a name. -/
inductive OptName (one : Str → Prop) : Str → Prop
  | nil : OptName one []
  | name {b s : Str} : Blanks b → one s → OptName one (b ++ s)

/-- A parameter of a definition. -/
inductive ParamRead (u : CharClass) : Ty → Str → Prop
  | mk {t : Ty} {s a x y : Str} : TyText u t s → AttrsAfterText u a →
      OptName (fun w => ∃ name n, w = c!"%" ++ n ∧ NameText u name n) x → OptName (LocalText u) y →
      ParamRead u t (s ++ (a ++ (x ++ y)))

/-- An instruction, without the variable it is assigned to. -/
inductive InstrRead (u : CharClass) : Stmt → Str → Prop
  /-- inline assembly, the call of a cast function and a direct call are as in the grammar -/
  | call {st : Stmt} {s : Str} : st ≠ .other → (∀ sig, st ≠ .indirectCall sig) → InstrText u st s →
      InstrRead u st s
  /-- `tail call noundef i32 %f(i8* noundef %x) #3, !dbg !7`, where `a` is `call noundef ` -/
  | indirect {t a o b l s e : Str} {out : Option Ty} {ins : List Ty} : TailText t → AttrsText u a →
      OutText u out o → Blanks b → LocalText u l → ListText (ArgText u) ins s → OneLine e →
      InstrRead u (.indirectCall ⟨ins, out⟩)
        (t ++ (a ++ (o ++ (b ++ (l ++ (c!"(" ++ (s ++ (c!")" ++ e))))))))
  | other {s : Str} : s ≠ [] → OneLine s → ¬ HasWord c!"call" s → InstrRead u .other s

/-- One line of the body of a function. -/
inductive StmtRead (u : CharClass) : Stmt → Str → Prop
  | label {l : Str} : LabelText u l → StmtRead u .label (l ++ c!":")
  | labelComment {l b e : Str} : LabelText u l → Blanks b → OneLine e →
      StmtRead u .label (l ++ (c!":" ++ (b ++ (c!";" ++ e))))
  | comment {e : Str} : OneLine e → StmtRead u .comment (c!";" ++ e)
  | instr {b s : Str} {st : Stmt} : Blanks b → InstrRead u st s → StmtRead u st (b ++ s)
  | assign {b l b1 b2 s : Str} {st : Stmt} : Blanks b → LocalText u l → Blanks b1 → Blanks b2 →
      InstrRead u st s → StmtRead u st (b ++ (l ++ (b1 ++ (c!"=" ++ (b2 ++ s)))))

/-- A definition. -/
inductive DefineRead (u : CharClass) : Define → Str → Prop
  | mk {b1 a o b2 name n ps e l s l' : Str} {out : Option Ty} {ins : List Ty} {sts : List Stmt} :
      Blanks b1 → AttrsText u a → OutText u out o → Blanks b2 → NameText u name n →
      ListText (ParamRead u) ins ps → OneLine e → Eol l → Pieces (StmtRead u) sts s → l' = [] ∨ Eol l' →
      DefineRead u ⟨name, ⟨ins, out⟩, sts⟩
        (c!"define" ++ (b1 ++ (a ++ (o ++ (b2 ++ (c!"@" ++ (n ++ (c!"(" ++ (ps ++ (c!")" ++ (e ++ (l ++ (s ++
          (l' ++ c!"}"))))))))))))))

/-- An item of a module. -/
inductive ItemRead (u : CharClass) : Item → Str → Prop
  /-- all but definitions are as in the grammar -/
  | item {x : Item} {s : Str} : (∀ d, x ≠ .define d) → ItemText u x s → ItemRead u x s
  | define {d : Define} {s : Str} : DefineRead u d s → ItemRead u (.define d) s

/-- A file: its items and line breaks. -/
inductive FileRead (u : CharClass) : List Item → Str → Prop
  | empty {e : Str} : e = [] ∨ Eols e → FileRead u [] e
  | items {items : List Item} {s e : Str} : Pieces (ItemRead u) items s → e = [] ∨ Eols e →
      FileRead u items (s ++ e)

/-- One instruction line without the word `call`: it neither begins nor ends with a blank, and its quotes are
closed. -/
structure CallFreeLine (s : Str) : Prop where
  ne : s ≠ []
  oneLine : OneLine s
  first : ∀ c, s.head? = some c → c ≠ ' ' ∧ c ≠ '\t'
  last : ∀ c, s.getLast? = some c → c ≠ ' ' ∧ c ≠ '\t'
  quotes : s.count '"' % 2 = 0
  noCall : ¬ HasWord c!"call" s

/-- The variable to which the result of an instruction is assigned, or nothing. -/
inductive AssignText (u : CharClass) (s : Str) : Str → Prop
  | none : s.head? ≠ some '%' → AssignText u s []
  | some {l b1 b2 : Str} : LocalText u l → Blanks b1 → Blanks b2 →
      AssignText u s (l ++ (b1 ++ (c!"=" ++ b2)))

end CallStack
