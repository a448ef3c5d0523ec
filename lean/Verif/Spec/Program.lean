import Verif.Model.Machine
import Verif.Spec.Types

/-!
Specification vocabulary for programs: live functions, their names, types and reported stack usage,
and the calls that the LLVM-IR contains. Functions are numbered by their position in the address
ordered symbol table of the executable.
-/

namespace CallStack

/-- The mapping symbols `$a`, `$a.*`, `$x`, `$x.*`, which are not function names. -/
def IsMappingSymbol (n : Str) : Prop :=
  n = c!"$a" ∨ c!"$a." <+: n ∨ n = c!"$x" ∨ c!"$x." <+: n

/-- `n` is a name of the function at symbol table entry `s`. -/
def Sym.Named (s : Sym) (n : Str) : Prop := n ∈ s.names ∧ ¬ IsMappingSymbol n

/-- `n` is a name of the `i`-th live function. -/
def Program.LiveAt (p : Program) (n : Str) (i : Nat) : Prop :=
  ∃ a s, p.defined[i]? = some (a, s) ∧ s.Named n

/-- `n` is a name of no live function. -/
def Program.NotLive (p : Program) (n : Str) : Prop := ∀ i, ¬ p.LiveAt n i

/-- No name is given to two different addresses. -/
def Program.NamesOnce (p : Program) : Prop :=
  ∀ n i j, p.LiveAt n i → p.LiveAt n j → i = j

/-- The addresses are the keys of a map in increasing order. -/
def Program.Addressed (p : Program) : Prop := p.defined.Pairwise (fun x y => x.1 < y.1)

/-- At most one definition per name (they are the values of a map). -/
def Program.DefinesOnce (p : Program) : Prop := (p.defines.map (·.name)).Nodup

/-- The stack size the compiler reports for a name. -/
def Program.Reported (p : Program) (n : Str) (k : Nat) : Prop := mget n p.stackSizes = some k

/-- Reported sizes are 64 bit numbers. -/
def Program.SizesU64 (p : Program) : Prop := ∀ n k, p.Reported n k → k < 2 ^ 64

/-- The code section of a 32 bit executable. -/
def Elf.Fits32 (elf : Elf) : Prop := ∀ stext text, elf.text = some (stext, text) → text.length < 2 ^ 32

/-- The compiler's stack size for the `i`-th live function is `k`: the figure reported for the first of
its names (in symbol table order) that has one. -/
def Program.Frame (p : Program) (i k : Nat) : Prop :=
  ∃ a s pre n post, p.defined[i]? = some (a, s) ∧ s.names = pre ++ n :: post ∧
    ¬ IsMappingSymbol n ∧ p.Reported n k ∧
    ∀ n' ∈ pre, IsMappingSymbol n' ∨ ∀ k', ¬ p.Reported n' k'

/-- `n` is the name under which the `i`-th live function is shown: the first of its names (in symbol
table order) with a reported size, or the first one if none has. -/
def Program.Principal (p : Program) (i : Nat) (n : Str) : Prop :=
  ∃ a s pre post, p.defined[i]? = some (a, s) ∧ s.names = pre ++ n :: post ∧ ¬ IsMappingSymbol n ∧
    (((∃ k, p.Reported n k) ∧ ∀ n' ∈ pre, IsMappingSymbol n' ∨ ∀ k', ¬ p.Reported n' k') ∨
      ((∀ n', s.Named n' → ∀ k', ¬ p.Reported n' k') ∧ ∀ n' ∈ pre, IsMappingSymbol n'))

/-- The body of the `i`-th live function, as far as the LLVM-IR has one under any of its names,
contains the statement `s`. -/
def Program.Contains (p : Program) (i : Nat) (s : Stmt) : Prop :=
  ∃ d ∈ p.defines, p.LiveAt d.name i ∧ s ∈ d.stmts

/-- `llvm.` names denote compiler intrinsics. -/
def IsIntrinsic (n : Str) : Prop := c!"llvm." <+: n

/-- The `i`-th live function directly calls the `j`-th one, under any name of the latter. -/
def Program.DirectCall (p : Program) (i j : Nat) : Prop :=
  ∃ f, p.Contains i (.directCall f) ∧ ¬ IsIntrinsic f ∧ p.LiveAt f j

/-- The `j`-th live function has the signature `sig` in some definition of one of its names. -/
def Program.DefinedSig (p : Program) (j : Nat) (sig : FnSig) : Prop :=
  ∃ d ∈ p.defines, p.LiveAt d.name j ∧ d.sig = sig

/-- The `j`-th live function has the signature `sig` in some declaration of one of its names. -/
def Program.DeclaredSig (p : Program) (j : Nat) (sig : FnSig) : Prop :=
  ∃ d ∈ p.declares, p.LiveAt d.name j ∧ d.sig = some sig

/-- At most one declaration per name (they are the values of a map). -/
def Program.DeclaresOnce (p : Program) : Prop := (p.declares.map (·.name)).Nodup

/-- `sig` is the type of the `j`-th live function: the only one among its definitions, or among its
declarations if it has no definition. -/
def Program.TypedAs (p : Program) (j : Nat) (sig : FnSig) : Prop :=
  (p.DefinedSig j sig ∧ ∀ sig', p.DefinedSig j sig' → sig' = sig) ∨
  ((∀ sig', ¬ p.DefinedSig j sig') ∧ p.DeclaredSig j sig ∧ ∀ sig', p.DeclaredSig j sig' → sig' = sig)

/-- Nothing is known about the type of the `j`-th live function. -/
def Program.Untyped (p : Program) (j : Nat) : Prop :=
  (∃ n, p.LiveAt n j) ∧ ∀ sig, ¬ p.DefinedSig j sig ∧ ¬ p.DeclaredSig j sig

/-- The `i`-th live function contains an indirect call with a type that is compatible with a type of the
`j`-th one. -/
def Program.IndirectCall (p : Program) (i j : Nat) : Prop :=
  ∃ sig sig', p.Contains i (.indirectCall sig) ∧ sig'.Compatible sig ∧
    (p.DefinedSig j sig' ∨ ((∀ s, ¬ p.DefinedSig j s) ∧ p.DeclaredSig j sig'))

/-- A call that the LLVM-IR of the program allows. -/
def Program.Call (p : Program) (i j : Nat) : Prop := p.DirectCall i j ∨ p.IndirectCall i j

/-- The program avoids the cases in which calls are known to be dropped: `memcmp` is shown under this
name, no function has two types, and formatting functions are defined in the LLVM-IR. -/
structure Program.Unambiguous (p : Program) : Prop where
  memcmp : ∀ j, p.LiveAt c!"memcmp" j → p.Principal j c!"memcmp"
  defined : ∀ j s s', p.DefinedSig j s → p.DefinedSig j s' → s = s'
  declared : ∀ j s s', (∀ s, ¬ p.DefinedSig j s) → p.DeclaredSig j s → p.DeclaredSig j s' → s = s'
  formatting : ∀ j s, (∀ s, ¬ p.DefinedSig j s) → p.DeclaredSig j s → ¬ s.FmtShape

/-- Intrinsics that produce no code, a trap or an optimisation hint. -/
def NoCodeIntrinsic (f : Str) : Prop :=
  f = c!"llvm.dbg.value" ∨ f = c!"llvm.dbg.declare" ∨ f = c!"llvm.assume" ∨ f = c!"llvm.trap" ∨
  f = c!"llvm.x86.sse2.pause" ∨ f = c!"llvm.experimental.noalias.scope.decl" ∨
  c!"llvm.lifetime.start" <+: f ∨ c!"llvm.lifetime.end" <+: f

/-- Intrinsics that are assumed to be lowered to inline instructions. -/
def InlineIntrinsic (f : Str) : Prop :=
  ∃ op ∈ [c!"abs", c!"bswap", c!"ctlz", c!"cttz", c!"sadd.with.overflow", c!"smul.with.overflow",
      c!"ssub.with.overflow", c!"uadd.sat", c!"uadd.with.overflow", c!"umax", c!"umin",
      c!"umul.with.overflow", c!"usub.sat", c!"usub.with.overflow", c!"vector.reduce",
      c!"x86.sse2.pmovmskb"], c!"llvm." ++ op ++ c!"." <+: f

/-- Intrinsics for block copies, moves and fills. -/
def MemoryIntrinsic (f : Str) : Prop :=
  c!"llvm.memcpy." <+: f ∨ c!"llvm.memset." <+: f ∨ c!"llvm.memmove." <+: f

/-- Routines that may implement a memory copy, and a memory fill. -/
def CopyRoutines : List Str := [c!"memcpy", c!"__aeabi_memcpy", c!"__aeabi_memcpy4"]

def FillRoutines : List Str :=
  [c!"memset", c!"__aeabi_memset", c!"__aeabi_memset4", c!"memclr", c!"__aeabi_memclr",
    c!"__aeabi_memclr4"]

/-- The statement `s` names the node `k` with name `name` as a callee. -/
inductive Program.Justifies (p : Program) : Stmt → Nat → Str → Prop
  /-- call through a bitcast of a function -/
  | bitcast (k : Nat) (name : Str) : p.Justifies (.bitcastCall (some name)) k name
  /-- direct call of a live function, under any of its names -/
  | live {f : Str} {k : Nat} (name : Str) : ¬ IsIntrinsic f → p.LiveAt f k →
      p.Justifies (.directCall f) k name
  /-- direct call of a function that is not in the executable -/
  | external {f : Str} (k : Nat) : ¬ IsIntrinsic f → p.NotLive f → f ∈ p.undefined →
      p.Justifies (.directCall f) k f
  /-- memory copy -/
  | copy {f r : Str} (k : Nat) : c!"llvm.memcpy." <+: f → r ∈ CopyRoutines →
      p.Justifies (.directCall f) k r
  /-- memory fill or move -/
  | fill {f r : Str} (k : Nat) : c!"llvm.memset." <+: f ∨ c!"llvm.memmove." <+: f → r ∈ FillRoutines →
      p.Justifies (.directCall f) k r

/-- A statement that the tool knows how to handle: bitcasts name a function, intrinsics are documented
ones (or left to the machine code analysis), other functions are in the executable or among its
undefined symbols. `memcmp` may also be unknown altogether. -/
def Program.Acceptable (p : Program) : Stmt → Prop
  | .bitcastCall sym => sym ≠ none
  | .directCall f =>
    (IsIntrinsic f → p.target ≠ .other ∨ NoCodeIntrinsic f ∨ InlineIntrinsic f ∨ MemoryIntrinsic f) ∧
    (¬ IsIntrinsic f → (∃ j, p.LiveAt f j) ∨ f ∈ p.undefined ∨ f = c!"memcmp")
  | _ => True

/-- In the order in which the live definitions are read, some direct call of `f` comes after a call of `f`
through a bitcast. -/
def Program.CallsAfterBitcast (p : Program) (f : Str) : Prop :=
  ∃ ds₁ d ds₂ pre post, p.defines = ds₁ ++ d :: ds₂ ∧ (∃ i, p.LiveAt d.name i) ∧
    d.stmts = pre ++ .directCall f :: post ∧
    (.bitcastCall (some f) ∈ pre ∨
      ∃ d' ∈ ds₁, (∃ i, p.LiveAt d'.name i) ∧ .bitcastCall (some f) ∈ d'.stmts)

/-- The statement `s` makes a node of the name `r` if there is none: a call through a bitcast, or a direct call of
an undefined symbol other than `memcmp`. -/
def Program.Creates (p : Program) (s : Stmt) (r : Str) : Prop :=
  s = .bitcastCall (some r) ∨
    (s = .directCall r ∧ ¬ IsIntrinsic r ∧ r ≠ c!"memcmp" ∧ p.NotLive r ∧ r ∈ p.undefined)

/-- The statement `s` leads to an edge, to `r`, only if there is a node of that name already. -/
inductive Program.Needs (p : Program) : Stmt → Str → Prop
  | memcmp : p.Needs (.directCall c!"memcmp") c!"memcmp"
  | copy {f r : Str} : p.target = .other → c!"llvm.memcpy." <+: f → r ∈ CopyRoutines → p.Needs (.directCall f) r
  | fill {f r : Str} : p.target = .other → c!"llvm.memset." <+: f ∨ c!"llvm.memmove." <+: f →
      r ∈ FillRoutines → p.Needs (.directCall f) r

/-- If a function has a statement that needs a node of the name `r`, then a live function is shown under that
name, or the function has itself a statement that makes the node (and `memcmp` is an undefined symbol), or no
live function has. (C40: the edges do not depend on the order of the definitions.) -/
def Program.OrderSafe (p : Program) : Prop :=
  ∀ i s r, p.Contains i s → p.Needs s r → (∃ j, p.Principal j r) ∨
    ((∃ s', p.Contains i s' ∧ p.Creates s' r) ∧ (r = c!"memcmp" → p.NotLive r ∧ r ∈ p.undefined)) ∨
    ∀ k s', p.Contains k s' → ¬ p.Creates s' r

/-- The same program with the definitions and declarations, the entries of hash maps, in other orders. -/
structure Program.Reordered (p p' : Program) : Prop where
  target : p'.target = p.target
  defined : p'.defined = p.defined
  undefined : p'.undefined = p.undefined
  stackSizes : p'.stackSizes = p.stackSizes
  defines : p'.defines.Perm p.defines
  declares : p'.declares.Perm p.declares

/-- `sig` is `fn(&v, &mut core::fmt::Formatter) -> core::fmt::Result` for a named type `v`. -/
def FnSig.Formats (sig : FnSig) (v : Str) : Prop :=
  sig.inputs = [.pointer (.alias v), .pointer (.alias c!"core::fmt::Formatter")] ∧
    sig.output = some (.integer 1)

/-- At most one type with a name that begins with `core::fmt::Void` is formatted by live functions. -/
def Program.OneVoid (p : Program) : Prop :=
  ∀ j j' sig sig' v v', p.DefinedSig j sig ∨ p.DeclaredSig j sig →
    p.DefinedSig j' sig' ∨ p.DeclaredSig j' sig' → sig.Formats v → sig'.Formats v' →
    c!"core::fmt::Void" <+: v → c!"core::fmt::Void" <+: v' → v = v'

/-- Function `i` has an edge to a node named `name`. -/
def Graph.CallsName (g : Graph) (i : Nat) (name : Str) : Prop :=
  ∃ j nd, (i, j) ∈ g.edges ∧ g.nodes[j]? = some nd ∧ nd.name = name

end CallStack
