import Verif.Model.Tool
import Verif.Spec.Driver

/-!
What it means that the tool has done its work.
-/

namespace CallStack

/-- The toolchain is the supported one, or the user has opted out. -/
def World.Supported (w : World) (host : Str) : Prop :=
  ∃ hash, w.toolchain = some (hash, host) ∧
    (hash = some c!"2b603f95a48f10f931a61dd208fe3e5ffd64e491" ∨
      w.optOut = some c!"I won't open issues about unsupported toolchains")

/-- Exactly one of `--example` and `--bin` is given, with the value `file`. -/
def Args.Selects (args : Args) (file : Str) : Prop :=
  (args.example = some file ∧ args.bin = none) ∨ (args.example = none ∧ args.bin = some file)

/-- The lines of a text: they end with `\n` or `\r\n`, the last one may end with the text. -/
inductive TextLines : Str → List Str → Prop
  | nil : TextLines [] []
  | lf {l s : Str} {ls : List Str} : '\n' ∉ l → l.getLast? ≠ some '\r' → TextLines s ls →
      TextLines (l ++ (c!"\n" ++ s)) (l :: ls)
  | crlf {l s : Str} {ls : List Str} : '\n' ∉ l → TextLines s ls → TextLines (l ++ (c!"\r\n" ++ s)) (l :: ls)
  | last {l : Str} : '\n' ∉ l → l ≠ [] → TextLines l [l]

/-- `path` is what follows `marker` in the last line that begins with it. -/
def LastMarked (marker stderr path : Str) : Prop :=
  ∃ pre post, TextLines stderr (pre ++ (marker ++ path) :: post) ∧ ∀ l ∈ post, ¬ marker <+: l

/-- The target the tool asks rustc about: of the configuration, else of the flag, else the host. -/
def AskedTarget (config flag : Option Str) (host t : Str) : Prop :=
  config = some t ∨ (config = none ∧ flag = some t) ∨ (config = none ∧ flag = none ∧ t = host)

/-- cargo was started for `file` and ended with status `code` after writing `stderr`. `cargoArgs` is described by
C64, `touch` by C78. -/
def World.Built (w : World) (cl : Cli) (file host : Str) (config : Option Str) (code : Option Int)
    (stderr : Str) : Prop :=
  w.Supported host ∧ cl.args.Selects file ∧ w.config = some config ∧
    (∃ touched, touch w.settable w.srcExists w.walkSrc w.walkRoot = some touched) ∧
    ∃ target cfg lines noStd, AskedTarget config cl.args.target host target ∧ w.cfg target = some cfg ∧
      TextLines cfg lines ∧ (noStd = true ↔ c!"target_os=\"none\"" ∈ lines) ∧
      w.cargo (cargoArgs cl.args file noStd) = some (code, stderr)

/-- `file` is the first file with the largest modification time that holds LLVM-IR of the crate. -/
def NewestLl (file : Str) (entries : List (Str × Int)) (name : Str) : Prop :=
  ∃ pre t post, entries = pre ++ (name, t) :: post ∧ LlFile file name ∧
    (∀ e ∈ pre, LlFile file e.1 → e.2 < t) ∧ ∀ e ∈ post, LlFile file e.1 → e.2 ≤ t

/-- The files that belong to the build with the standard error `stderr`, all of them readable: the executable,
the newest LLVM-IR of the crate and the object file beside it, and the files of compiler_builtins that were
announced last. -/
structure World.Inputs (w : World) (cl : Cli) (file host : Str) (config : Option Str) (stderr : Str)
    (inp : Inputs) : Prop where
  config : inp.config = config
  flag : inp.flag = cl.args.target
  host : inp.host = host
  app : ∃ entries stem, w.entries = some entries ∧ NewestLl file entries (stem ++ c!".ll") ∧
    w.appText (stem ++ c!".ll") = some inp.ll ∧ w.object (stem ++ c!".o") = true ∧
    w.objSizes (stem ++ c!".o") = some inp.objSizes
  builtins : ∃ rlib ll, LastMarked c!"@CARGO_CALL_STACK:compiler_builtins_rlib_path@" stderr rlib ∧
    LastMarked c!"@CARGO_CALL_STACK:compiler_builtins_ll_path@" stderr ll ∧
    w.builtinsText ll = some inp.builtinsLl ∧ w.archive rlib = some inp.archive
  executable : w.executable = true
  symbols : w.symbols = some (inp.defined, inp.undefined)

/-- What the crates that read object files promise: the symbols come from a map by address, and sizes are 64 bit
numbers. -/
structure World.Typed (w : World) : Prop where
  symbols : ∀ defined undefined, w.symbols = some (defined, undefined) → defined.Pairwise (fun x y => x.1 < y.1)
  object : ∀ path l, w.objSizes path = some l → ∀ e ∈ l, e.2 < 2 ^ 64
  archive : ∀ path l, w.archive path = some l → ∀ m ∈ l, ∀ e ∈ m.2, e.2 < 2 ^ 64

/-- A file name with the extension `rs`. -/
def RustFile (name : Str) : Prop := ∃ stem, stem ≠ [] ∧ name = stem ++ c!".rs"

/-- Files of the package `pkg` whose change makes cargo compile the selected binary or example again, by cargo's
conventions: the root of its crate, and the root of the library that all binaries and examples of the package use. -/
inductive Triggers (pkg : Str) (args : Args) : Str → Prop
  | library : Triggers pkg args c!"src/lib.rs"
  | exampleFile {e : Str} : args.example = some e → Triggers pkg args (c!"examples/" ++ (e ++ c!".rs"))
  | exampleDir {e : Str} : args.example = some e → Triggers pkg args (c!"examples/" ++ (e ++ c!"/main.rs"))
  | main : args.bin = some pkg → Triggers pkg args c!"src/main.rs"
  | binFile {b : Str} : args.bin = some b → Triggers pkg args (c!"src/bin/" ++ (b ++ c!".rs"))
  | binDir {b : Str} : args.bin = some b → Triggers pkg args (c!"src/bin/" ++ (b ++ c!"/main.rs"))

end CallStack
