import Verif.Spec.Program
import Verif.Spec.Names

/-!
Specification vocabulary for the machine code of a program. What the instructions mean is in
`Verif.Spec.Thumb`; here the result `r` of decoding a function is taken as given.
-/

namespace CallStack

/-- The label of the node for formatting functions. -/
def fmtLabel : Str := c!"i1 (%\"fmt::Void\", %\"core::fmt::Formatter\"*)*"

/-- The name of a mapping symbol: from its address on there is data (`$d`) or code (`$t`). -/
inductive MarkerName : Str → Tag → Prop
  | data (rest : Str) : MarkerName ('$' :: 'd' :: rest) .data
  | thumb (rest : Str) : MarkerName ('$' :: 't' :: rest) .thumb

/-- The mapping symbols of a symbol table in the order of the table. -/
inductive MarkersIn : List (Nat × Str) → List (Nat × Tag) → Prop
  | nil : MarkersIn [] []
  | marker (value : Nat) {name : Str} {tag : Tag} {symtab : List (Nat × Str)} {l : List (Nat × Tag)} :
      MarkerName name tag → MarkersIn symtab l →
      MarkersIn ((value, name) :: symtab) ((value % 2 ^ 32, tag) :: l)
  | other (value : Nat) {name : Str} {symtab : List (Nat × Str)} {l : List (Nat × Tag)} :
      (∀ tag, ¬ MarkerName name tag) → MarkersIn symtab l → MarkersIn ((value, name) :: symtab) l

/-- The mapping symbols of a symbol table in the order of their addresses; those at the same address in the
order of the table. -/
def Markers (symtab : List (Nat × Str)) (tags : List (Nat × Tag)) : Prop :=
  tags.Pairwise (fun x y => x.1 ≤ y.1) ∧ ∃ l, MarkersIn symtab l ∧
    ∀ a, tags.filter (fun t => t.1 = a) = l.filter (fun t => t.1 = a)

/-- The number of bytes that are taken for the code of the function at `address`, where `declared` is the
size in the symbol table. Without such a size, the code extends up to the next mapping symbol, provided that
there is code on both sides of it. -/
inductive CodeSize (search : TagSearch) (tags : List (Nat × Tag)) (address : Nat) : Nat → Nat → Prop
  | declared (n : Nat) : n ≠ 0 → CodeSize search tags address n n
  | next (k stop : Nat) : search.find tags address = some k → tags[k]? = some (address, .thumb) →
      tags[k + 1]? = some (stop, .thumb) → CodeSize search tags address 0 (stop - address)
  | empty : (∀ k stop, search.find tags address = some k → tags[k]? = some (address, .thumb) →
      tags[k + 1]? ≠ some (stop, .thumb)) → CodeSize search tags address 0 0

/-- The `i`-th live function occupies `size` bytes of the code section from `address`, and decoding them
gives `r`. -/
def Program.Decoded (p : Program) (search : TagSearch) (elf : Elf) (i address size : Nat)
    (r : ThumbState) : Prop :=
  ∃ a s stext text tags, p.defined[i]? = some (a, s) ∧ elf.text = some (stext, text) ∧
    address = a % 2 ^ 32 ∧ Markers elf.symtab tags ∧
    CodeSize search tags address (s.size % 2 ^ 32) size ∧
    stext ≤ address ∧ address - stext + size ≤ text.length ∧
    thumbAnalyze search ((text.drop (address - stext)).take size) address (p.target == .thumbv7m)
      tags = .ok r

/-- The function calls or jumps to the address `t` outside of itself: the target of a BL, or of a B
unless it is inside. -/
def LeavesTo (r : ThumbState) (address size t : Nat) : Prop :=
  (∃ off ∈ r.bls, (t : Int) = (address + off) % 2 ^ 64) ∨
  (∃ off ∈ r.bs, (t : Int) = (address + off) % 2 ^ 32 ∧ (t < address ∨ address + size ≤ t))

/-- The `j`-th live function starts at `a`. -/
def Program.StartsAt (p : Program) (j a : Nat) : Prop := ∃ s, p.defined[j]? = some (a, s)

/-- The LLVM-IR defines none of the names of the `i`-th live function. -/
def Program.NoIr (p : Program) (i : Nat) : Prop := ∀ d ∈ p.defines, ¬ p.LiveAt d.name i

/-- How the local usage is chosen from the compiler's figure `llvm`, the figure `ours` found in the machine
code, whether the function modifies SP (`sp`), contains inline assembly (`asm`) or was made by the
outliner (`outlined`). No rule applies when the tool refuses to choose. -/
inductive LocalPolicy (sp asm outlined : Prop) : Option Nat → Option Nat → Local → Prop
  /-- no figure from the compiler: use ours -/
  | ours (k : Nat) : (k ≠ 0 ↔ sp) → LocalPolicy sp asm outlined none (some k) (.exact k)
  /-- no figure at all, and SP is not touched -/
  | zero : ¬ sp → LocalPolicy sp asm outlined none none (.exact 0)
  /-- no figure at all -/
  | giveUp : sp → LocalPolicy sp asm outlined none none .unknown
  /-- only the compiler's figure -/
  | only (n : Nat) : (n ≠ 0 ↔ sp) → LocalPolicy sp asm outlined (some n) none (.exact n)
  /-- both agree -/
  | agree (n : Nat) : (n ≠ 0 ↔ sp) → LocalPolicy sp asm outlined (some n) (some n) (.exact n)
  /-- inline assembly: ours -/
  | asm (n k : Nat) : n ≠ k → asm → (k ≠ 0 ↔ sp) → LocalPolicy sp asm outlined (some n) (some k) (.exact k)
  /-- outlined, and the compiler claims 0: ours -/
  | outlinedZero (k : Nat) : k ≠ 0 → ¬ asm → outlined → sp →
      LocalPolicy sp asm outlined (some 0) (some k) (.exact k)
  /-- outlined, and the compiler claims something else: the compiler's -/
  | outlined (n k : Nat) : n ≠ k → n ≠ 0 → k ≠ 0 → ¬ asm → outlined → sp →
      LocalPolicy sp asm outlined (some n) (some k) (.exact n)

/-- The compiler's figure for the `i`-th live function, if there is one. -/
def Program.FrameOpt (p : Program) (i : Nat) : Option Nat → Prop
  | some k => p.Frame i k
  | none => ∀ k, ¬ p.Frame i k

/-- Nothing in the machine code of the `i`-th live function stops the tool: its first symbol name is not a
mapping symbol, its bytes lie in the code section and can be decoded, one of the rules of `LocalPolicy`
applies, and it leaves itself only towards starts of live functions. -/
def Program.CodeOk (p : Program) (search : TagSearch) (elf : Elf) (i : Nat) : Prop :=
  (∃ a s first rest, p.defined[i]? = some (a, s) ∧ s.names = first :: rest ∧ ¬ IsMappingSymbol first) ∧
  ∃ address size r llvm name loc, p.Decoded search elf i address size r ∧ p.FrameOpt i llvm ∧
    p.Principal i name ∧
    LocalPolicy (r.modifiesSp = true) (∃ x, p.Contains i (.asm x)) (OutlinedName name) llvm r.stack loc ∧
    ∀ t, LeavesTo r address size t → ∃ j, p.StartsAt j t

/-- A figure that is known for the frame of the `i`-th live function: the compiler's, or the one found in
the machine code. -/
def Program.Figure (p : Program) (search : TagSearch) (elf : Elf) (i k : Nat) : Prop :=
  p.Frame i k ∨ (p.target.isThumb = true ∧ ∃ address size r, p.Decoded search elf i address size r ∧
    r.stack = some k)

/-- The name does not look as if it ended in a hash, even after demangling. -/
def NoHash (demangle : Str → Str) (name : Str) : Prop := ∀ path, ¬ HashOf path (demangle name)

/-- Nothing but live functions is shown under a name that looks as if it ended in a hash: neither the
functions that are called but are not in the executable, nor the types of functions that may be called
through pointers, nor the label of unknown functions. -/
structure Program.HashesLive (p : Program) (demangle : Str → Str) : Prop where
  external : ∀ i f, p.Contains i (.directCall f) → p.NotLive f → f ∈ p.undefined → NoHash demangle f
  bitcast : ∀ i f, p.Contains i (.bitcastCall (some f)) → (∃ j, p.Principal j f) ∨ NoHash demangle f
  type : ∀ j sig, p.DefinedSig j sig ∨ p.DeclaredSig j sig → NoHash demangle (sig.show ++ c!"*")
  formatter : NoHash demangle fmtLabel
  unknown : NoHash demangle c!"?"

end CallStack
