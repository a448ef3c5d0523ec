import Verif.Spec.Code
import Verif.Spec.Thumb
import Verif.Spec.Start

/-!
When what the message of a panic says is the case.
-/

namespace CallStack

/-- The value of a hexadecimal digit. -/
def hexDigitValue (c : Char) : Nat := if c.toNat < 97 then c.toNat - 48 else c.toNat - 87

/-- `s` is the number `n` in hexadecimal digits. -/
def IsHex (s : Str) (n : Nat) : Prop :=
  s ≠ [] ∧ (∀ c ∈ s, c ∈ c!"0123456789abcdef") ∧ s.foldl (fun n c => 16 * n + hexDigitValue c) 0 = n

/-- A byte is shown with two digits. -/
def TwoDigits (s : Str) (byte : Nat) : Prop := 2 ≤ s.length ∧ (byte < 256 → s.length = 2)

/-- The code of the `i`-th live function of a thumb program is the `size` bytes from `address`, with the mapping
symbols `tags`. -/
def Program.Extent (p : Program) (search : TagSearch) (elf : Elf) (i address size : Nat)
    (tags : List (Nat × Tag)) : Prop :=
  p.target.isThumb = true ∧ ∃ a s, p.defined[i]? = some (a, s) ∧ address = a % 2 ^ 32 ∧
    Markers elf.symtab tags ∧ CodeSize search tags address (s.size % 2 ^ 32) size

/-- What the tool says when it panics, with what is the case then. The text is `none` where the message is one of the
standard library. -/
inductive Program.Says (p : Program) (demangle : Str → Str) (ord : HashOrder) (search : TagSearch) (elf : Elf)
    (start : Option Str) : Panic → Option Str → Prop
  /-- a live function calls a nameless cast -/
  | unnamed (i : Nat) : p.Contains i (.bitcastCall none) →
      p.Says demangle ord search elf start .unnamedBitcast (some c!"BUG? unnamed symbol is being invoked")
  /-- a live function calls an intrinsic that the tool does not know; not on thumb targets -/
  | intrinsic (i : Nat) (f : Str) : p.Contains i (.directCall f) → IsIntrinsic f → p.target = .other →
      ¬ NoCodeIntrinsic f → ¬ InlineIntrinsic f → ¬ MemoryIntrinsic f →
      p.Says demangle ord search elf start (.unhandledIntrinsic f)
        (some (c!"BUG: unhandled llvm intrinsic: " ++ f))
  /-- a live function calls one that the symbol table does not mention -/
  | callee (i : Nat) (f : Str) : p.Contains i (.directCall f) → ¬ IsIntrinsic f → p.NotLive f →
      f ∉ p.undefined →
      p.Says demangle ord search elf start (.unknownCallee f) (some (c!"BUG: callee `" ++ f ++ c!"` is unknown"))
  /-- the code modifies SP, but by nothing in total -/
  | stackVsSp (i address size : Nat) (r : ThumbState) (name : Str) : p.target.isThumb = true →
      p.Decoded search elf i address size r → p.Principal i name →
      r.stack = some 0 → r.modifiesSp = true →
      p.Says demangle ord search elf start .stackVsSp
        (some (c!"BUG: our analysis reported that `" ++ name ++
          c!"` both uses 0 bytes of stack and it does modify SP"))
  /-- the figure of the compiler, which is shown, is not the one found in the code -/
  | llvmVsOurs (i address size n k : Nat) (r : ThumbState) (name figure : Str) : p.target.isThumb = true →
      p.Decoded search elf i address size r → p.Principal i name → p.Frame i n →
      r.stack = some k → n ≠ k → (∀ x, ¬ p.Contains i (.asm x)) → ¬ OutlinedName name → IsDecimal figure n →
      p.Says demangle ord search elf start .llvmVsOurs
        (some (c!"BUG: LLVM reported that `" ++ name ++ c!"` uses " ++ figure ++
          c!" bytes of stack but this doesn't match our analysis"))
  /-- the figure of the compiler, which is shown, does not go with whether the code modifies SP; the code has no
  figure of its own, or it has no influence since the function was outlined -/
  | llvmVsSp (i address size n : Nat) (r : ThumbState) (name figure : Str) : p.target.isThumb = true →
      p.Decoded search elf i address size r → p.Principal i name → p.Frame i n →
      ¬ (n ≠ 0 ↔ r.modifiesSp = true) →
      r.stack = none ∨ (r.stack = some 0 ∧ n ≠ 0 ∧ OutlinedName name ∧ ∀ x, ¬ p.Contains i (.asm x)) →
      IsDecimal figure n →
      p.Says demangle ord search elf start .llvmVsSp
        (some (c!"BUG: LLVM reported that `" ++ name ++ c!"` uses " ++ figure ++
          c!" bytes of stack but this doesn't match our analysis"))
  /-- the code calls or jumps to an address outside of the function at which no function starts -/
  | symbol (i address size t : Nat) (r : ThumbState) (number : Str) : p.target.isThumb = true →
      p.Decoded search elf i address size r → LeavesTo r address size t → (∀ j, ¬ p.StartsAt j t) →
      IsDecimal number t →
      p.Says demangle ord search elf start (.noSymbolAt t) (some (c!"BUG? no symbol at address " ++ number))
  /-- the code ends with the first half of a 32-bit instruction, or with BKPT, which is taken for one, or with no
  instruction at all -/
  | instruction (i address size stext lo hi : Nat) (tags : List (Nat × Tag)) (text code tail : List Nat)
      (high low : Str) :
      p.Extent search elf i address size tags → elf.text = some (stext, text) → stext ≤ address →
      (text.drop (address - stext)).take size = code ++ lo :: hi :: tail → code.length % 2 = 0 →
      tail.length ≤ 1 → (address + code.length, Tag.data) ∉ tags ∨ (address + code.length, Tag.thumb) ∈ tags →
      (lo < 256 → hi < 256 → Wide (256 * hi + lo) ∨ hi = 0xBE ∨ Unallocated16 (p.target == .thumbv7m) hi lo) →
      IsHex high hi → IsHex low lo → TwoDigits high hi → TwoDigits low lo →
      p.Says demangle ord search elf start .unknownInstruction (some (c!"BUG: unknown instruction " ++ high ++ low))
  /-- inside of the code begins a literal pool, and the next mapping symbol, whose address is shown, is that of another
  one -/
  | tag (i address size a b k : Nat) (tags : List (Nat × Tag)) (blanks number : Str) :
      p.Extent search elf i address size tags → tags[k]? = some (a, .data) → tags[k + 1]? = some (b, .data) →
      address ≤ a → a < address + size → (a - address) % 2 = 0 → (∀ c ∈ blanks, c = ' ') → blanks.length = 8 - number.length →
      IsHex number b → (number.head? = some '0' → b = 0 ∧ number = c!"0") →
      p.Says demangle ord search elf start .expectedThumbTag
        (some (c!"BUG: expected a thumb tag at " ++ blanks ++ c!"0x" ++ number ++
          c!" but found another data tag"))
  /-- all names of a symbol are mapping symbols -/
  | noNames (i a : Nat) (s : Sym) : p.defined[i]? = some (a, s) → (∀ n, ¬ s.Named n) →
      p.Says demangle ord search elf start .noNames none
  /-- the first name of a symbol is a mapping symbol -/
  | missingKey (i a : Nat) (s : Sym) (n : Str) (rest : List Str) : p.target.isThumb = true →
      p.defined[i]? = some (a, s) → s.names = n :: rest → IsMappingSymbol n →
      p.Says demangle ord search elf start (.missingKey n) none
  /-- the code is not within the section -/
  | sliceRange (i address size stext : Nat) (tags : List (Nat × Tag)) (text : List Nat) :
      p.Extent search elf i address size tags → elf.text = some (stext, text) →
      address < stext ∨ stext + text.length < address + size →
      p.Says demangle ord search elf start .sliceRange none
  /-- the heaviest chain of calls from a node that is kept does not fit in 64 bits -/
  | overflow (st : Build) (g : Graph) (v k : Nat) : callGraph demangle ord search p elf = .ok (st, g) →
      v < g.nodes.length → (∀ s, start = some s → p.Kept demangle st.indices g s v) →
      2 ^ 64 ≤ k → Heaviest g.Calls g.locOf v k → (∃ i n, p.Frame i n) →
      p.Says demangle ord search elf start .overflow none
  /-- a node that is kept looks as if it had a hash, and no live function has the same name up to a hash -/
  | missingAmbiguous (st : Build) (g : Graph) (v : Nat) (nd : Node) (path : Str) :
      callGraph demangle ord search p elf = .ok (st, g) → g.nodes[v]? = some nd →
      (∀ s, start = some s → p.Kept demangle st.indices g s v) → HashOf path (demangle nd.name) →
      (∀ i other, p.Principal i other → ¬ HashOf path (demangle other)) →
      p.Says demangle ord search elf start (.missingAmbiguous path) none

end CallStack
