import Verif.Model.Driver

/-!
The whole program (src/main.rs:84-1233) as a function of what it reads from its environment.

Standard error is in Model/Stderr. Not modelled: the clap parser, the crate
`cargo_project`, and parsing of object files; their results are fields of `World`. Failures of
`ElfFile::new` in the pass over the machine code, after the same file has already been parsed, are left
out; failures of writing to standard output are in Model/Write.
-/

namespace CallStack

/-- How the process ends: with an exit status and a text on standard output, or by a panic. -/
inductive End where
  | exit (code : Int) (stdout : Str)
  | panic
  deriving DecidableEq, Repr

/-- The command line, as clap returns it (main.rs:47-83). -/
structure Cli where
  args : Args
  start : Option Str := none
  format : OutputFormat := .dot

/-- What the program reads. Results that are `Option`s are `none` if the operation fails. -/
structure World where
  /-- whether `CARGO_CALL_STACK_RUSTC_WRAPPER` is set -/
  wrapperVar : Bool
  /-- the arguments of the process -/
  argv : List Str
  /-- the status of a compiler, `some none` if it was killed -/
  compiler : Str → List Str → Option (Option Int)
  /-- commit hash and host of the toolchain -/
  toolchain : Option (Option Str × Str)
  optOut : Option Str
  /-- the parsed arguments, or the status and the text with which clap ends the process -/
  cli : Except (Int × Str) Cli
  /-- the target in `.cargo/config` -/
  config : Option (Option Str)
  /-- output of `rustc --print=cfg` for a target -/
  cfg : Str → Option Str
  /-- whether the times of a file, relative to the root of the project, can be set -/
  settable : Str → Bool
  srcExists : Bool
  /-- the entries below `src` and below the root: path and file name -/
  walkSrc : List (Option (Str × Str))
  walkRoot : List (Option (Str × Str))
  /-- exit status and standard error of cargo -/
  cargo : List Str → Option (Option Int × Str)
  /-- whether the executable can be read -/
  executable : Bool
  /-- the directory of the LLVM-IR: file names and modification times -/
  entries : Option (List (Str × Int))
  appText : Str → Option Str
  builtinsText : Str → Option Str
  /-- whether an object file can be read, and the stack sizes in it -/
  object : Str → Bool
  objSizes : Str → Option (List (Str × Nat))
  archive : Str → Option (List (Option Str × List (Str × Nat)))
  /-- the symbols of the executable -/
  symbols : Option (List (Nat × Sym) × List Str)
  elf : Elf

/-- The operator `?`: `main` (main.rs:84-92) turns errors into status 1. -/
def orExit {α : Type} (o : Option α) (k : α → End) : End :=
  match o with
  | none => .exit 1 []
  | some a => k a

/-- main.rs:216-226: the first entry with the extension `rs`. -/
def touchFirst (settable : Str → Bool) : List (Option (Str × Str)) → Option (Option Str)
  | [] => some none
  | none :: _ => none
  | some (path, name) :: rest =>
    if (stemExt name).any (fun e => e.2 == c!"rs") then
      if settable path then some (some path) else none
    else touchFirst settable rest

/-- main.rs:209-228: the file whose times are set; `none` is an error, `some none` that there is no such
file. -/
def touch (settable : Str → Bool) (srcExists : Bool) (walkSrc walkRoot : List (Option (Str × Str))) :
    Option (Option Str) :=
  if settable c!"src/main.rs" then some (some c!"src/main.rs")
  else if settable c!"src/lib.rs" then some (some c!"src/lib.rs")
  else touchFirst settable (if srcExists then walkSrc else walkRoot)

/-- `wrapper` (wrapper.rs:25-58) within `main`. -/
def wrapperEnd (w : World) : End :=
  match (wrapper w.argv).command with
  | .error .noRustcPath => .panic
  | .error _ => .exit 1 []
  | .ok (prog, args) => orExit (w.compiler prog args) fun code => .exit (wrapperExit code) []

/-- main.rs:262-1233: what is done after a successful build of `file` that announced `rlib` and `ll`. -/
def afterBuild (u : CharClass) (demangle : Str → Str) (ord : HashOrder) (search : TagSearch) (w : World)
    (cl : Cli) (file host : Str) (config : Option Str) (rlib ll : Str) : End :=
  if w.executable = false then .exit 1 []
  else orExit w.entries fun entries =>
  match selectLl file entries with
  | none => .panic
  | some name =>
    orExit (w.appText name) fun app =>
    if w.object (objName name) = false then .exit 1 []
    else orExit (w.builtinsText ll) fun builtins =>
    match parseIr u app with
    | .errorAt _ => .exit 1 []
    | .panic _ => .panic
    | .ok items =>
      match parseIr u builtins with
      | .errorAt _ => .exit 1 []
      | .panic _ => .panic
      | .ok builtinsItems =>
        orExit (w.objSizes (objName name)) fun objSizes =>
        orExit (w.archive rlib) fun archive =>
        orExit w.symbols fun (defined, undefined) =>
        match runText demangle ord search
          (buildProgram ord ⟨config, cl.args.target, host, app, builtins, objSizes, archive, defined,
            undefined⟩ items builtinsItems) w.elf cl.start cl.format with
        | .error _ => .panic
        | .ok text => .exit 0 text

/-- main.rs:84-1233 -/
def tool (u : CharClass) (demangle : Str → Str) (ord : HashOrder) (search : TagSearch) (w : World) :
    End :=
  if w.wrapperVar then wrapperEnd w
  else orExit w.toolchain fun (hash, host) =>
  if startup false hash w.optOut = .unsupported then .exit 1 []
  else match w.cli with
  | .error (code, text) => .exit code text
  | .ok cl =>
    orExit cl.args.file fun file =>
    orExit w.config fun config =>
    orExit (w.cfg (analysedTarget config cl.args.target host)) fun cfg =>
    orExit (touch w.settable w.srcExists w.walkSrc w.walkRoot) fun _ =>
    orExit (w.cargo (cargoArgs cl.args file (isNoStd cfg))) fun (code, stderr) =>
    match buildEnd code (readStderr stderr) with
    | .exit c => .exit c []
    | .panic _ => .panic
    | .paths rlib ll => afterBuild u demangle ord search w cl file host config rlib ll

end CallStack
