import Verif.Model.Driver

/-!
Specification vocabulary for the command lines of `rustc` and `cargo`, for streams of lines, and for
choosing and loading files.
-/

namespace CallStack

/-! ### The command line of rustc -/

/-- What one option of `rustc` says, as far as it matters here. -/
inductive RustcOpt where
  | ext (e : Extern)
  | crateName (name : Str)
  | outDir (dir : Str)
  | extraFilename (x : Str)
  | other
  deriving DecidableEq, Repr

/-- The value of `--extern`: `name`, `name=path`, or one of these after options and a colon. -/
inductive ExternText : Str → Str → Extern → Prop
  | mk {o name : Str} : '=' ∉ name → ':' ∉ name → '=' ∉ o → ExternText o (o ++ name) ⟨name, none⟩
  | path {o name path : Str} : '=' ∉ name → ':' ∉ name → '=' ∉ o →
      ExternText o (o ++ (name ++ '=' :: path)) ⟨name, some path⟩

/-- Options of extern crates, as `rustc` accepts them. -/
def ExternOptions (o : Str) : Prop := o = [] ∨ ∃ w, o = w ++ c!":"

/-- The two ways to write the name of the code generation option. -/
def ExtraFilenameKey (k : Str) : Prop := k = c!"extra-filename" ∨ k = c!"extra_filename"

/-- `v` is a value of the long option `name`, and means `o`. -/
inductive LongValue : Str → Str → RustcOpt → Prop
  | ext {o v : Str} {e : Extern} : ExternOptions o → ExternText o v e → LongValue c!"--extern" v (.ext e)
  | crateName (v : Str) : LongValue c!"--crate-name" v (.crateName v)
  | outDir (v : Str) : LongValue c!"--out-dir" v (.outDir v)
  | extraFilename {k : Str} (x : Str) : ExtraFilenameKey k →
      LongValue c!"--codegen" (k ++ '=' :: x) (.extraFilename x)
  | codegen {v : Str} : (∀ k, ExtraFilenameKey k → v ≠ k ∧ ¬ k ++ c!"=" <+: v) →
      LongValue c!"--codegen" v .other

/-- The long options above. -/
def LongNames : List Str := [c!"--extern", c!"--crate-name", c!"--out-dir", c!"--codegen"]

/-- The argument is none of the options above. -/
def Foreign (a : Str) : Prop :=
  a ∉ LongNames ∧ (∀ n ∈ LongNames, ¬ n ++ c!"=" <+: a) ∧ ¬ c!"-C" <+: a

/-- How `rustc` reads its arguments: long options with their value in the next argument or after `=`, `-C`
for `--codegen` with its value in the next or in the same argument, and other options, of which some
(`valued`) have their value in the next argument. -/
inductive RustcReads (valued : Str → Prop) : List Str → List RustcOpt → Prop
  | nil : RustcReads valued [] []
  | long {name v : Str} {o : RustcOpt} {rest : List Str} {os : List RustcOpt} : LongValue name v o →
      RustcReads valued rest os → RustcReads valued (name :: v :: rest) (o :: os)
  | joined {name v : Str} {o : RustcOpt} {rest : List Str} {os : List RustcOpt} : LongValue name v o →
      RustcReads valued rest os → RustcReads valued ((name ++ '=' :: v) :: rest) (o :: os)
  | short {v : Str} {o : RustcOpt} {rest : List Str} {os : List RustcOpt} : LongValue c!"--codegen" v o →
      RustcReads valued rest os → RustcReads valued (c!"-C" :: v :: rest) (o :: os)
  | shortJoined {v : Str} {o : RustcOpt} {rest : List Str} {os : List RustcOpt} : v ≠ [] →
      LongValue c!"--codegen" v o → RustcReads valued rest os →
      RustcReads valued ((c!"-C" ++ v) :: rest) (o :: os)
  | valued {a v : Str} {rest : List Str} {os : List RustcOpt} : Foreign a → valued a →
      RustcReads valued rest os → RustcReads valued (a :: v :: rest) (.other :: os)
  | flag {a : Str} {rest : List Str} {os : List RustcOpt} : Foreign a → ¬ valued a →
      RustcReads valued rest os → RustcReads valued (a :: rest) (.other :: os)

/-- The forms that cargo uses: long options have their value in the next argument, `-C` is not written
`--codegen`, `extra-filename` is written with a dash, the only option of extern crates is `noprelude`, and
the values of other options do not look like the options above. -/
structure CargoStyle (valued : Str → Prop) (args : List Str) : Prop where
  separate : ∀ a ∈ args, ∀ n ∈ LongNames, ¬ n ++ c!"=" <+: a
  short : c!"--codegen" ∉ args
  dash : ∀ a ∈ args, ¬ c!"extra_filename" <+: a ∧ ¬ c!"-Cextra_filename" <+: a
  noprelude : ∀ v o e, [c!"--extern", v] <:+: args → ExternOptions o → ExternText o v e → o ≠ [] → o = c!"noprelude:"
  values : ∀ a v, [a, v] <:+: args → valued a → Foreign v

/-- The extern crates of a list of options. -/
def externsOf (os : List RustcOpt) : List Extern :=
  os.filterMap (fun o => match o with | .ext e => some e | _ => none)

/-- The last crate name. -/
def crateNameOf (os : List RustcOpt) : Option Str :=
  (os.filterMap (fun o => match o with | .crateName n => some n | _ => none)).getLast?

/-- The last output directory. -/
def outDirOf (os : List RustcOpt) : Option Str :=
  (os.filterMap (fun o => match o with | .outDir n => some n | _ => none)).getLast?

/-- The last extra file name. -/
def extraOf (os : List RustcOpt) : Option Str :=
  (os.filterMap (fun o => match o with | .extraFilename n => some n | _ => none)).getLast?

/-! ### The command line of cargo -/

/-- What `cargo rustc` is asked to do. -/
structure CargoRequest where
  target : Option Str := none
  features : Option Str := none
  allFeatures : Bool := false
  «example» : Option Str := none
  bin : Option Str := none
  release : Bool := false
  unstable : List Str := []
  color : Option Str := none
  /-- arguments for the compiler -/
  rustc : List Str := []
  deriving DecidableEq, Repr

/-- How `cargo rustc` reads its arguments. Options with a value have it in the next argument, which does not
begin with a dash, or after `=`; an option with a value is given at most once. Anything else is refused. -/
def cargoReads : List Str → Option CargoRequest
  | [] => some {}
  | [a] =>
    if a = c!"--" then some {}
    else single a {}
  | a :: v :: rest =>
    if a = c!"--" then some { rustc := v :: rest }
    else if a ∈ [c!"--target", c!"--features", c!"--example", c!"--bin"] then
      if v.head? = some '-' then none
      else
        match cargoReads rest with
        | none => none
        | some r =>
          if a = c!"--target" then if r.target = none then some { r with target := some v } else none
          else if a = c!"--features" then if r.features = none then some { r with features := some v } else none
          else if a = c!"--example" then if r.example = none then some { r with «example» := some v } else none
          else if r.bin = none then some { r with bin := some v } else none
    else
      match cargoReads (v :: rest) with
      | none => none
      | some r => single a r
where
  /-- An option without value, or with its value in the same argument. -/
  single (a : Str) (r : CargoRequest) : Option CargoRequest :=
    if a = c!"--all-features" then some { r with allFeatures := true }
    else if a = c!"--release" then some { r with release := true }
    else if c!"-Z" <+: a then some { r with unstable := a.drop 2 :: r.unstable }
    else if c!"--color=" <+: a then
      if r.color = none then some { r with color := some (a.drop 8) } else none
    else none

/-! ### Streams of lines -/

/-- A line on the standard error of cargo: an announcement of the wrapper, or any other line. -/
inductive Msg where
  | rlib (path : Str)
  | ll (path : Str)
  | line (text : Str)

/-- The text of a line. -/
def Msg.text : Msg → Str
  | .rlib path => c!"@CARGO_CALL_STACK:compiler_builtins_rlib_path@" ++ path
  | .ll path => c!"@CARGO_CALL_STACK:compiler_builtins_ll_path@" ++ path
  | .line text => text

/-- The announced rlib. -/
def Msg.rlib? : Msg → Option Str
  | .rlib path => some path
  | _ => none

/-- The announced LLVM-IR file. -/
def Msg.ll? : Msg → Option Str
  | .ll path => some path
  | _ => none

/-- Any other line. -/
def Msg.line? : Msg → Option Str
  | .line text => some text
  | _ => none

/-- Other lines do not look like announcements. No line contains a line break or ends with a carriage
return. -/
def Msg.Proper (m : Msg) : Prop :=
  '\n' ∉ m.text ∧ m.text.getLast? ≠ some '\r' ∧
    ∀ t, m = .line t → ¬ c!"@CARGO_CALL_STACK:compiler_builtins_rlib_path@" <+: t ∧
      ¬ c!"@CARGO_CALL_STACK:compiler_builtins_ll_path@" <+: t

/-- The lines as they are written one after the other. -/
inductive StreamText : List Msg → Str → Prop
  | nil : StreamText [] []
  | line {m : Msg} {ms : List Msg} {e s : Str} : e = c!"\n" ∨ e = c!"\r\n" → StreamText ms s →
      StreamText (m :: ms) (m.text ++ (e ++ s))
  | last {m : Msg} : m.text ≠ [] → StreamText [m] m.text

/-! ### Files -/

/-- The name of the crate for a binary or example: dashes become underscores. -/
inductive CrateName : Str → Str → Prop
  | nil : CrateName [] []
  | dash {f c : Str} : CrateName f c → CrateName ('-' :: f) ('_' :: c)
  | char {f c : Str} {x : Char} : x ≠ '-' → CrateName f c → CrateName (x :: f) (x :: c)

/-- A file `name-hash.ll` for the binary or example. -/
def LlFile (file name : Str) : Prop := ∃ c x, CrateName file c ∧ name = c ++ (c!"-" ++ (x ++ c!".ll"))

/-- `d` is the last definition of its name. -/
def LastDefine (items : List Item) (d : Define) : Prop :=
  ∃ pre post, items = pre ++ .define d :: post ∧ ∀ d', .define d' ∈ post → d'.name ≠ d.name

/-- `d` is the last declaration of its name. -/
def LastDeclare (items : List Item) (d : Declare) : Prop :=
  ∃ pre post, items = pre ++ .declare d :: post ∧ ∀ d', .declare d' ∈ post → d'.name ≠ d.name

/-- The members of the archive that are objects of compiler_builtins. -/
def BuiltinsObject (id : Option Str) : Prop :=
  ∃ a b, id = some (a ++ (c!"compiler_builtins" ++ b)) ∧ c!".o" <:+ a ++ (c!"compiler_builtins" ++ b)

/-- The stack sizes reported by the objects of compiler_builtins, in the order of the archive. -/
inductive ArchiveSizes : List (Option Str × List (Str × Nat)) → List (Str × Nat) → Prop
  | nil : ArchiveSizes [] []
  | object {e : Option Str × List (Str × Nat)} {es : List (Option Str × List (Str × Nat))}
      {l : List (Str × Nat)} : BuiltinsObject e.1 → ArchiveSizes es l → ArchiveSizes (e :: es) (e.2 ++ l)
  | other {e : Option Str × List (Str × Nat)} {es : List (Option Str × List (Str × Nat))}
      {l : List (Str × Nat)} : ¬ BuiltinsObject e.1 → ArchiveSizes es l → ArchiveSizes (e :: es) l

/-- `k` is the last size reported for `n`. -/
def LastSize (l : List (Str × Nat)) (n : Str) (k : Nat) : Prop :=
  ∃ pre post, l = pre ++ (n, k) :: post ∧ ∀ e ∈ post, e.1 ≠ n

/-- The target cargo builds for: the flag, else the configuration, else the host. -/
def BuiltFor (config flag : Option Str) (host t : Str) : Prop :=
  flag = some t ∨ (flag = none ∧ config = some t) ∨ (flag = none ∧ config = none ∧ t = host)

end CallStack
