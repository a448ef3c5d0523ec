import Verif.Spec.IrModule

/-!
How an accepted LLVM-IR file is divided among the items and statements that were read from it.
-/

namespace CallStack

/-- Pieces of text, one for each entry of the list, with one or more line breaks between them. -/
inductive Pieces {α : Type} (one : α → Str → Prop) : List α → Str → Prop
  | one {a : α} {x : Str} : one a x → Pieces one [a] x
  | cons {a : α} {as : List α} {x e y : Str} : one a x → Eols e → Pieces one as y →
      Pieces one (a :: as) (x ++ (e ++ y))

/-- The text of a statement: line breaks occur in it only inside quotes. If nothing is recorded about the
statement then it is a single line without the word `call`. Comments begin with `;`, labels with their
name and a colon; all other statements begin with a blank. -/
structure StmtPiece (u : CharClass) (st : Stmt) (x : Str) : Prop where
  inLine : InLine x
  other : st = .other → OneLine x ∧ ¬ HasWord c!"call" x
  comment : st = .comment → ∃ e, x = c!";" ++ e ∧ OneLine e
  label : st = .label → ∃ l e, x = l ++ (c!":" ++ e) ∧ LabelText u l ∧ OneLine e
  indented : st ≠ .comment → st ≠ .label → ∃ b y, x = b ++ y ∧ Blanks b
  direct : ∀ name, st = .directCall name →
    ∃ a n b, x = a ++ (c!"@" ++ (n ++ (c!"(" ++ b))) ∧ NameText u name n

/-- The text of a definition: a head that begins with `define`, line breaks, the statements and `}`. -/
inductive DefinePiece (u : CharClass) : Define → Str → Prop
  | mk {d : Define} {h l s l' : Str} : InLine (c!"define" ++ h) → Eol l → Pieces (StmtPiece u) d.stmts s →
      l' = [] ∨ Eol l' → DefinePiece u d (c!"define" ++ (h ++ (l ++ (s ++ (l' ++ c!"}")))))

/-- The text of an item. -/
inductive ItemPiece (u : CharClass) : Item → Str → Prop
  | define {d : Define} {x : Str} : DefinePiece u d x → ItemPiece u (.define d) x
  | other {it : Item} {x : Str} : (∀ d, it ≠ .define d) → InLine x → ItemPiece u it x

/-- A file: its items and line breaks. -/
inductive FilePiece (u : CharClass) : List Item → Str → Prop
  | empty {e : Str} : e = [] ∨ Eols e → FilePiece u [] e
  | items {items : List Item} {s e : Str} : Pieces (ItemPiece u) items s → e = [] ∨ Eols e →
      FilePiece u items (s ++ e)

end CallStack
