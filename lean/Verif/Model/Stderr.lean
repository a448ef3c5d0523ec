import Verif.Model.Tool
import Verif.Model.LogText

/-!
What the process writes to standard error (src/main.rs:84-1137, src/wrapper.rs): lines of cargo that are passed on,
the explanation for other toolchains, `--verbose`, warnings, and the line with which `main` reports an error.

Simplified: if cargo cannot be started, or if reading its output fails, no line of it is passed on. Not modelled: the
message of a panic, and what compilers that the wrapper starts write themselves. Reasons given by the operating system
or by other crates are parameters (`Why`).
-/

namespace CallStack

/-- The errors that `main` reports. File names of the directory of the LLVM-IR are relative to it. -/
inductive Cause where
  /-- `rustc_version::version_meta()?` main.rs:108 -/
  | toolchain
  /-- main.rs:126 -/
  | unsupported
  /-- main.rs:137 -/
  | selection
  /-- main.rs:141-142 -/
  | project
  /-- main.rs:148-151 -/
  | cfg (target : Str)
  /-- main.rs:219-224 -/
  | touch
  /-- main.rs:234-251 -/
  | cargo
  /-- main.rs:263, 265 -/
  | exePath
  /-- main.rs:268-269 -/
  | executable
  /-- main.rs:283-293 -/
  | entries
  /-- main.rs:310-311 -/
  | appText (name : Str)
  /-- main.rs:312-313 -/
  | object (name : Str)
  /-- main.rs:315-321 -/
  | builtinsText (path : Str)
  /-- main.rs:323-329 -/
  | appIr (name : Str) (line : Nat)
  /-- main.rs:330-336 -/
  | builtinsIr (path : Str) (line : Nat)
  /-- main.rs:365 -/
  | objSizes (name : Str)
  /-- main.rs:371-373 -/
  | archiveOpen (path : Str)
  /-- main.rs:377-386 -/
  | archive (path : Str)
  /-- main.rs:396 -/
  | symbols
  /-- wrapper.rs:31, 46 -/
  | wrapper (e : WrapErr)
  /-- wrapper.rs:54-56 -/
  | spawn (rustc : Str)
  deriving DecidableEq, Repr

/-- Texts that other programs determine, and settings that matter only for messages. -/
structure Why where
  /-- `--verbose` -/
  verbose : Bool
  /-- the path of the executable, `none` if it cannot be determined -/
  exePath : Option Str
  /-- the directory of the LLVM-IR -/
  dir : Str
  /-- whether an archive can be opened -/
  opens : Str → Bool
  /-- the reason given for an error -/
  reason : Cause → Str
  /-- the kind of a parse error, as nom prints it (see `parseText`) -/
  parseKind : Cause → Str

/-- `e.path()` main.rs:286 -/
def Why.path (y : Why) (name : Str) : Str := y.dir ++ c!"/" ++ name

/-- wrapper.rs:46, 88, 106, 113, 124, 136, 149 -/
def WrapErr.text : WrapErr → Str
  | .missingArgument opt => c!"missing argument for `" ++ opt ++ c!"`"
  | .missingExtraFilename => c!"missing value for `-Cextra-filename`"
  | .missingCrateName => c!"missing `--crate-name` argument"
  | .missingOutDir => c!"missing `--out-dir` argument"
  | .noRustcPath => []

/-- ir.rs:76, 82-85. `kind` is what nom's error looks like up to the place, for instance `Failure("Eof`. -/
def parseText (kind : Str) (line : Nat) : Str :=
  c!"BUG: failed to parse LLVM IR; please submit a cargo-call-stack bug report and attach the `.ll` file: " ++ kind ++
  c!" in line " ++ showNat line ++ c!"\")"

/-- What an error says. -/
def Cause.text (y : Why) : Cause → Str
  | .unsupported => c!"unsupported rust toolchain"
  | .selection => c!"Please specify either --example <NAME> or --bin <NAME>."
  | .executable => c!"couldn't open ELF file `" ++ y.exePath.getD [] ++ c!"`: " ++ y.reason .executable
  | .appText name => c!"couldn't read LLVM IR from `" ++ y.path name ++ c!"`: " ++ y.reason (.appText name)
  | .object name => c!"couldn't read object file `" ++ y.path name ++ c!"`: " ++ y.reason (.object name)
  | .builtinsText path =>
    c!"couldn't read `compiler_builtins` LLVM IR from `" ++ path ++ c!"`: " ++ y.reason (.builtinsText path)
  | .appIr name line =>
    c!"failed to parse application's LLVM IR from `" ++ y.path name ++ c!"`: " ++
    parseText (y.parseKind (.appIr name line)) line
  | .builtinsIr path line =>
    c!"failed to parse `compiler_builtins` LLVM IR from `" ++ path ++ c!"`: " ++
    parseText (y.parseKind (.builtinsIr path line)) line
  | .archiveOpen path => c!"couldn't open `" ++ path ++ c!"`: " ++ y.reason (.archiveOpen path)
  | .wrapper e => e.text
  | .spawn rustc => c!"failed to spawn `" ++ rustc ++ c!"`: " ++ y.reason (.spawn rustc)
  | c => y.reason c

/-- A piece of the output on standard error. -/
inductive ErrLine where
  /-- a line of cargo, main.rs:247 -/
  | passed (line : Str)
  /-- main.rs:113-124 -/
  | explanation
  /-- the arguments of cargo, main.rs:231 -/
  | command (args : List Str)
  /-- for the parent process, wrapper.rs:36, 49 -/
  | announced (line : Str)
  /-- a warning or an error of the logger -/
  | log (m : LogMsg)
  /-- main.rs:88 -/
  | error (c : Cause)
  deriving DecidableEq, Repr

/-- The end of the process and all it has written to standard error. -/
structure Outcome where
  stop : End
  lines : List ErrLine

/-- `Err(e)` main.rs:87-90 -/
def Outcome.fail (c : Cause) : Outcome := ⟨.exit 1 [], [.error c]⟩

/-- The operator `?`. -/
def orFail {α : Type} (o : Option α) (c : Cause) (k : α → Outcome) : Outcome :=
  match o with
  | none => .fail c
  | some a => k a

/-- Lines that are written before. -/
def Outcome.after (ls : List ErrLine) (o : Outcome) : Outcome := ⟨o.stop, ls ++ o.lines⟩

/-- `wrapper` (wrapper.rs:25-58) within `main`. -/
def wrapperOutcome (w : World) : Outcome :=
  .after ((wrapper w.argv).stderr.map .announced)
    (match (wrapper w.argv).command with
      | .error .noRustcPath => ⟨.panic, []⟩
      | .error e => .fail (.wrapper e)
      | .ok (prog, args) => orFail (w.compiler prog args) (.spawn prog) fun code => ⟨.exit (wrapperExit code) [], []⟩)

/-- main.rs:262-1233 -/
def afterBuildOutcome (u : CharClass) (demangle : Str → Str) (ord : HashOrder) (search : TagSearch) (y : Why)
    (w : World) (cl : Cli) (file host : Str) (config : Option Str) (rlib ll : Str) : Outcome :=
  if w.executable = false then .fail (if y.exePath.isSome then .executable else .exePath)
  else orFail w.entries .entries fun entries =>
  match selectLl file entries with
  | none => ⟨.panic, []⟩
  | some name =>
    orFail (w.appText name) (.appText name) fun app =>
    if w.object (objName name) = false then .fail (.object (objName name))
    else orFail (w.builtinsText ll) (.builtinsText ll) fun builtins =>
    match parseIr u app with
    | .errorAt line => .fail (.appIr name line)
    | .panic _ => ⟨.panic, []⟩
    | .ok items =>
      match parseIr u builtins with
      | .errorAt line => .fail (.builtinsIr ll line)
      | .panic _ => ⟨.panic, []⟩
      | .ok builtinsItems =>
        orFail (w.objSizes (objName name)) (.objSizes (objName name)) fun objSizes =>
        orFail (w.archive rlib) (if y.opens rlib then .archive rlib else .archiveOpen rlib) fun archive =>
        orFail w.symbols .symbols fun (defined, undefined) =>
        let p := buildProgram ord ⟨config, cl.args.target, host, app, builtins, objSizes, archive, defined,
          undefined⟩ items builtinsItems
        ⟨match runText demangle ord search p w.elf cl.start cl.format with
          | .error _ => .panic
          | .ok text => .exit 0 text,
         (runLog demangle ord search p w.elf cl.start).map .log⟩

/-- main.rs:84-1233. If clap ends the process it also writes what there is to write. -/
def toolOutcome (u : CharClass) (demangle : Str → Str) (ord : HashOrder) (search : TagSearch) (y : Why) (w : World) :
    Outcome :=
  if w.wrapperVar then wrapperOutcome w
  else orFail w.toolchain .toolchain fun (hash, host) =>
  if startup false hash w.optOut = .unsupported then .after [.explanation] (.fail .unsupported)
  else match w.cli with
  | .error (code, text) => ⟨.exit code text, []⟩
  | .ok cl =>
    orFail cl.args.file .selection fun file =>
    orFail w.config .project fun config =>
    let target := analysedTarget config cl.args.target host
    orFail (w.cfg target) (.cfg target) fun cfg =>
    orFail (touch w.settable w.srcExists w.walkSrc w.walkRoot) .touch fun _ =>
    let args := cargoArgs cl.args file (isNoStd cfg)
    .after (if y.verbose then [.command args] else [])
      (orFail (w.cargo args) .cargo fun (code, stderr) =>
        .after ((readStderr stderr).echoed.map .passed)
          (match buildEnd code (readStderr stderr) with
            | .exit c => ⟨.exit c [], []⟩
            | .panic _ => ⟨.panic, []⟩
            | .paths rlib ll => afterBuildOutcome u demangle ord search y w cl file host config rlib ll))

end CallStack
