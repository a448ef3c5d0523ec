import Verif.Model.Filter

/-!
The `rustc` wrapper (src/wrapper.rs).

Arguments are strings (`env::args` panics on arguments that are not Unicode; those are not modelled).
Starting the compiler is not modelled: the result of the wrapper is the command that it starts.
-/

namespace CallStack

/-- `COMPILER_BUILTINS_RLIB_PATH_MARKER` (wrapper.rs:20-21) -/
def rlibMarker : Str := c!"@CARGO_CALL_STACK:compiler_builtins_rlib_path@"

/-- `COMPILER_BUILTINS_LL_PATH_MARKER` (wrapper.rs:22-23) -/
def llMarker : Str := c!"@CARGO_CALL_STACK:compiler_builtins_ll_path@"

/-- `struct Extern` (wrapper.rs:67-70) -/
structure Extern where
  crateName : Str
  path : Option Str
  deriving DecidableEq, Repr

/-- `struct RustcArgs` (wrapper.rs:60-65) -/
structure RustcArgs where
  extraFilename : Str
  crateName : Str
  outDir : Option Str
  externCrates : List Extern
  deriving DecidableEq, Repr

/-- The errors of the wrapper. -/
inductive WrapErr where
  /-- "missing argument for `opt`" wrapper.rs:88, 106, 113, 124 -/
  | missingArgument (opt : Str)
  /-- "missing value for `-Cextra-filename`" wrapper.rs:136 -/
  | missingExtraFilename
  /-- "missing `--crate-name` argument" wrapper.rs:149 -/
  | missingCrateName
  /-- "missing `--out-dir` argument" wrapper.rs:47 -/
  | missingOutDir
  /-- `args.next().unwrap()` wrapper.rs:27 -/
  | noRustcPath
  deriving DecidableEq, Repr

/-- `splitn(2, '=')`: the part before the first `=`, and the rest if there is one. -/
def splitEq : Str → Str × Option Str
  | [] => ([], none)
  | c :: s => if c = '=' then ([], some s) else (c :: (splitEq s).1, (splitEq s).2)

/-- The local variables of `RustcArgs::parse` (wrapper.rs:77-80). -/
structure ArgState where
  extraFilename : Option Str := none
  crateName : Option Str := none
  outDir : Option Str := none
  externCrates : List Extern := []
  deriving DecidableEq, Repr

/-- wrapper.rs:89-101 -/
def parseExtern (arg : Str) : Extern :=
  let arg := if startsWith arg c!"noprelude:" then arg.drop c!"noprelude:".length else arg
  ⟨(splitEq arg).1, (splitEq arg).2⟩

/-- wrapper.rs:128-141 -/
def parseCodegen (arg : Str) (st : ArgState) : Except WrapErr ArgState :=
  if (splitEq arg).1 = c!"extra-filename" then
    match (splitEq arg).2 with
    | none => .error .missingExtraFilename
    | some v => .ok { st with extraFilename := some v }
  else .ok st

/-- The loop of `RustcArgs::parse` (wrapper.rs:82-145). -/
def parseArgsLoop : List Str → ArgState → Except WrapErr ArgState
  | [], st => .ok st
  | arg :: rest, st =>
    if arg = c!"--extern" then
      match rest with
      | [] => .error (.missingArgument c!"--extern")
      | v :: rest' => parseArgsLoop rest' { st with externCrates := st.externCrates ++ [parseExtern v] }
    else if arg = c!"--crate-name" then
      match rest with
      | [] => .error (.missingArgument c!"--crate-name")
      | v :: rest' => parseArgsLoop rest' { st with crateName := some v }
    else if arg = c!"--out-dir" then
      match rest with
      | [] => .error (.missingArgument c!"--out-dir")
      | v :: rest' => parseArgsLoop rest' { st with outDir := some v }
    else if startsWith arg c!"-C" then
      if arg.drop c!"-C".length = [] then
        match rest with
        | [] => .error (.missingArgument c!"-C")
        | v :: rest' =>
          match parseCodegen v st with
          | .error e => .error e
          | .ok st => parseArgsLoop rest' st
      else
        match parseCodegen (arg.drop c!"-C".length) st with
        | .error e => .error e
        | .ok st => parseArgsLoop rest st
    else parseArgsLoop rest st

/-- `RustcArgs::parse` (wrapper.rs:73-153) -/
def RustcArgs.parse (args : List Str) : Except WrapErr RustcArgs :=
  match parseArgsLoop args {} with
  | .error e => .error e
  | .ok st =>
    match st.crateName with
    | none => .error .missingCrateName
    | some name => .ok ⟨st.extraFilename.getD [], name, st.outDir, st.externCrates⟩

/-- What the wrapper does: lines on standard error and, if there is no error, the program it starts with
its arguments. -/
structure WrapperRun where
  stderr : List Str
  command : Except WrapErr (Str × List Str)
  deriving DecidableEq, Repr

/-- wrapper.rs:33-40: one crate. -/
def announceRlib (ext : Extern) : List Str :=
  if ext.crateName = c!"compiler_builtins" then
    match ext.path with
    | some path => [rlibMarker ++ path]
    | none => []
  else []

/-- wrapper.rs:47-49 -/
def builtinsLlPath (outDir : Str) (args : RustcArgs) : Str :=
  outDir ++ c!"/" ++ args.crateName ++ args.extraFilename ++ c!".ll"

/-- `wrapper` (wrapper.rs:25-58) up to the start of the compiler; `argv` are the arguments of the process,
including its own path. -/
def wrapper (argv : List Str) : WrapperRun :=
  match argv.drop 1 with
  | [] => ⟨[], .error .noRustcPath⟩
  | rustc :: rustcArgs =>
    match RustcArgs.parse rustcArgs with
    | .error e => ⟨[], .error e⟩
    | .ok args =>
      let rlibs := args.externCrates.flatMap announceRlib
      if args.crateName = c!"compiler_builtins" then
        match args.outDir with
        | none => ⟨rlibs, .error .missingOutDir⟩
        | some outDir =>
          ⟨rlibs ++ [llMarker ++ builtinsLlPath outDir args],
            .ok (rustc, c!"--emit=llvm-ir" :: c!"-Zemit-stack-sizes" :: rustcArgs)⟩
      else ⟨rlibs, .ok (rustc, c!"-Zemit-stack-sizes" :: rustcArgs)⟩

/-- wrapper.rs:55-57 and main.rs:85: the exit status of the wrapper, from the one of the compiler (`none` if
it was killed by a signal). -/
def wrapperExit (code : Option Int) : Int := code.getD (-1)

end CallStack
