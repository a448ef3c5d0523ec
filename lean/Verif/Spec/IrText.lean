import Verif.Model.IrItem
import Verif.Spec.Names

/-!
The textual format of LLVM-IR, as far as the tool reads it, as a grammar: which texts denote a given
type, statement, definition or module. The grammar follows the LLVM language reference; it says nothing
about how the text is read.
-/

namespace CallStack

/-- Spaces and tabs, at least one. -/
def Blanks (s : Str) : Prop := s ≠ [] ∧ ∀ c ∈ s, c = ' ' ∨ c = '\t'

/-- Spaces and tabs. -/
def OptBlanks (s : Str) : Prop := ∀ c ∈ s, c = ' ' ∨ c = '\t'

/-- Decimal digits, at least one. -/
def Digits (s : Str) : Prop := s ≠ [] ∧ ∀ c ∈ s, c ∈ c!"0123456789"

/-- Text without line break. -/
def OneLine (s : Str) : Prop := ∀ c ∈ s, c ≠ '\n' ∧ c ≠ '\r'

/-- The characters of names that need no quotes. -/
def IdentChar (u : CharClass) (c : Char) : Prop :=
  u.alphabetic c = true ∨ u.numeric c = true ∨ c ∈ c!"-$._"

/-- A name without quotes which is not a number. -/
def Ident (u : CharClass) (s : Str) : Prop :=
  s ≠ [] ∧ (∀ c ∈ s, IdentChar u c) ∧ ∀ c, s.head? = some c → c ∉ c!"0123456789"

/-- A name as it is written after `@` or `%`. -/
inductive NameText (u : CharClass) : Str → Str → Prop
  | quoted {name : Str} : '"' ∉ name → NameText u name ('"' :: (name ++ ['"']))
  | plain {name : Str} : Ident u name → NameText u name name
  | number {name : Str} : Digits name → NameText u name name

/-- The function type `void (..)`, or a pointer to it. -/
inductive Ty.VoidFn : Ty → Prop
  | fn (inputs : List Ty) : VoidFn (.fn inputs none)
  | pointer {t : Ty} : VoidFn t → VoidFn (.pointer t)

mutual
/-- A type as it is written. A function that returns (a pointer to) a `void` function is not included:
the tool cannot read it. -/
inductive TyText (u : CharClass) : Ty → Str → Prop
  | alias {name s : Str} : NameText u name s → TyText u (.alias name) ('%' :: s)
  | array {n : Nat} {t : Ty} {ds b b' s : Str} : n < 2 ^ 64 → IsDecimal ds n → Blanks b → Blanks b' →
      TyText u t s → TyText u (.array n t) (c!"[" ++ (ds ++ (b ++ (c!"x" ++ (b' ++ (s ++ c!"]"))))))
  | mvtVector {n : Nat} {t : Ty} {ds b b' s : Str} : n < 2 ^ 64 → IsDecimal ds n → Blanks b → Blanks b' →
      TyText u t s → TyText u (.mvtVector n t) (c!"<" ++ (ds ++ (b ++ (c!"x" ++ (b' ++ (s ++ c!">"))))))
  | double : TyText u .double c!"double"
  | float : TyText u .float c!"float"
  | opaquePointer : TyText u .opaquePointer c!"ptr"
  | integer {n : Nat} {ds : Str} : n < 2 ^ 64 → IsDecimal ds n → TyText u (.integer n) (c!"i" ++ ds)
  | varargs : TyText u .varargs c!"..."
  | struct {ts : List Ty} {b b' s : Str} : OptBlanks b → OptBlanks b' → TysText u ts s →
      TyText u (.struct ts) (c!"{" ++ (b ++ (s ++ (b' ++ c!"}"))))
  | packedStruct {ts : List Ty} {b b' s : Str} : OptBlanks b → OptBlanks b' → TysText u ts s →
      TyText u (.packedStruct ts) (c!"<{" ++ (b ++ (s ++ (b' ++ c!"}>"))))
  | voidFn {ts : List Ty} {b b' s : Str} : Blanks b → OptBlanks b' → TysText u ts s →
      TyText u (.fn ts none) (c!"void" ++ (b ++ (c!"(" ++ (b' ++ (s ++ c!")")))))
  | fn {ts : List Ty} {t : Ty} {o b b' s : Str} : TyText u t o → ¬ t.VoidFn → Blanks b → OptBlanks b' →
      TysText u ts s → TyText u (.fn ts (some t)) (o ++ (b ++ (c!"(" ++ (b' ++ (s ++ c!")")))))
  | pointer {t : Ty} {s : Str} : TyText u t s → TyText u (.pointer t) (s ++ c!"*")

/-- Types separated by commas. -/
inductive TysText (u : CharClass) : List Ty → Str → Prop
  | nil : TysText u [] []
  | one {t : Ty} {s : Str} : TyText u t s → TysText u [t] s
  | cons {t t' : Ty} {ts : List Ty} {s b s' : Str} : TyText u t s → Blanks b →
      TysText u (t' :: ts) s' → TysText u (t :: t' :: ts) (s ++ (c!"," ++ (b ++ s')))
end

/-- Text after which a type is complete: it goes on neither with a character of a name, nor with a `*`,
nor with blanks and an opening parenthesis. -/
def EndsType (u : CharClass) (k : Str) : Prop :=
  (∀ c, k.head? = some c → ¬ IdentChar u c ∧ c ≠ '*') ∧
    ∀ b k', Blanks b → k = b ++ k' → k'.head? ≠ some '('

mutual
/-- Types which can be written down and read: no quote in names, 64 bit sizes, and no function that
returns (a pointer to) a `void` function. -/
def Ty.WF : Ty → Prop
  | .alias name => '"' ∉ name
  | .array n t => n < 2 ^ 64 ∧ t.WF
  | .mvtVector n t => n < 2 ^ 64 ∧ t.WF
  | .double => True
  | .float => True
  | .opaquePointer => True
  | .varargs => True
  | .integer n => n < 2 ^ 64
  | .packedStruct ts => Ty.WFs ts
  | .struct ts => Ty.WFs ts
  | .fn ts none => Ty.WFs ts
  | .fn ts (some t) => Ty.WFs ts ∧ t.WF ∧ ¬ t.VoidFn
  | .pointer t => t.WF

/-- All types of a list can be read. -/
def Ty.WFs : List Ty → Prop
  | [] => True
  | t :: ts => t.WF ∧ Ty.WFs ts
end

/-- All parts of a signature can be read. (The signature as a whole may return a `void` function.) -/
def FnSig.WF (sig : FnSig) : Prop := Ty.WFs sig.inputs ∧ ∀ t, sig.output = some t → t.WF

/-- The signature that a statement contains. -/
def Stmt.SigWF : Stmt → Prop
  | .indirectCall sig => sig.WF
  | _ => True

/-- All signatures of a definition. -/
def Define.SigsWF (d : Define) : Prop := d.sig.WF ∧ ∀ s ∈ d.stmts, s.SigWF

/-- All signatures of an item. -/
def Item.SigsWF : Item → Prop
  | .define d => d.SigsWF
  | .declare d => ∀ sig, d.sig = some sig → sig.WF
  | _ => True

end CallStack
