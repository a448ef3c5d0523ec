import Verif.Model.Wrapper
import Verif.Model.Run
import Verif.Model.IrItem

/-!
The part of `run` before the graph is built (src/main.rs:103-418): toolchain check, cargo invocation,
paths announced by the wrapper, choice of the LLVM-IR file, and loading of the program.

Not modelled: starting processes, reading files, the clap parser and the crate `cargo_project`; their
results are arguments.
-/

namespace CallStack

/-! ### Toolchain (main.rs:103-126) -/

/-- `SUPPORTED_NIGHTLY_HASH` (main.rs:97) -/
def supportedHash : Str := c!"2b603f95a48f10f931a61dd208fe3e5ffd64e491"

/-- `UNSUPPORTED_MODE_VALUE` (main.rs:100) -/
def unsupportedValue : Str := c!"I won't open issues about unsupported toolchains"

/-- How the program continues after the checks at its start. -/
inductive Startup where
  | wrapper
  | unsupported
  | proceed
  deriving DecidableEq, Repr

/-- main.rs:104-126. `wrapperVar`: whether `CARGO_CALL_STACK_RUSTC_WRAPPER` is set; `hash`: the commit
hash of the toolchain; `optOut`: the variable `CARGO_CALL_STACK_UNSPPORTED_NIGHTLY`, if set and Unicode. -/
def startup (wrapperVar : Bool) (hash optOut : Option Str) : Startup :=
  if wrapperVar then .wrapper
  else if hash ≠ some supportedHash ∧ optOut ≠ some unsupportedValue then .unsupported
  else .proceed

/-! ### Command line (main.rs:49-81, 130-203) -/

/-- `struct Args` (main.rs:49-81), as far as it is used before the analysis. -/
structure Args where
  target : Option Str := none
  bin : Option Str := none
  «example» : Option Str := none
  features : Option Str := none
  allFeatures : Bool := false
  deriving DecidableEq, Repr

/-- main.rs:133-137; `none` is the error "Please specify either --example <NAME> or --bin <NAME>." -/
def Args.file (args : Args) : Option Str :=
  match args.example, args.bin with
  | some f, none => some f
  | none, some f => some f
  | _, _ => none

/-- main.rs:143: the target that is analysed. `config` is `project.target()`, the target in
`.cargo/config`. -/
def analysedTarget (config flag : Option Str) (host : Str) : Str := (config.or flag).getD host

/-- A finished line, from its characters in reverse: a carriage return at its end is dropped. -/
def lineOf (cur : Str) : Str := (if cur.head? = some '\r' then cur.tail else cur).reverse

/-- The lines of a text as `BufRead::lines` and `str::lines` return them: without `\n` or `\r\n`. `cur` is
the current line in reverse. -/
def textLinesAux : Str → Str → List Str
  | cur, [] => if cur = [] then [] else [cur.reverse]
  | cur, c :: s =>
    if c = '\n' then lineOf cur :: textLinesAux [] s
    else textLinesAux (c :: cur) s

/-- `lines()` -/
def textLines (s : Str) : List Str := textLinesAux [] s

/-- main.rs:145-157: whether the output of `rustc --print=cfg` says that the target has no operating
system. -/
def isNoStd (cfg : Str) : Bool :=
  (textLines cfg).any (fun line =>
    startsWith line c!"target_os=" && line.drop c!"target_os=".length == c!"\"none\"")

/-- main.rs:159-203: the arguments of `cargo`; the profile is always `Release`. -/
def cargoArgs (args : Args) (file : Str) (noStd : Bool) : List Str :=
  [c!"rustc"] ++
  (match args.target with
    | some target => [c!"--target", target]
    | none => []) ++
  (if args.allFeatures then [c!"--all-features"]
    else match args.features with
      | some features => [c!"--features", features]
      | none => []) ++
  (if args.example.isSome then [c!"--example", file] else []) ++
  (if args.bin.isSome then [c!"--bin", file] else []) ++
  [c!"--release"] ++
  [if noStd then c!"-Zbuild-std=core,alloc,compiler_builtins" else c!"-Zbuild-std"] ++
  [c!"--color=always", c!"--", c!"--emit=llvm-ir,obj", c!"-C", c!"embed-bitcode=yes", c!"-C", c!"lto=fat"]

/-! ### Paths announced by the wrapper (main.rs:234-260) -/

/-- The variables of the loop, and the lines that are passed on. -/
structure Announced where
  rlib : Option Str := none
  ll : Option Str := none
  echoed : List Str := []
  deriving DecidableEq, Repr

/-- main.rs:239-249 -/
def markerStep (st : Announced) (line : Str) : Announced :=
  if startsWith line rlibMarker then { st with rlib := some (line.drop rlibMarker.length) }
  else if startsWith line llMarker then { st with ll := some (line.drop llMarker.length) }
  else { st with echoed := st.echoed ++ [line] }

/-- main.rs:236-249: reading the standard error of cargo. -/
def readStderr (stderr : Str) : Announced := (textLines stderr).foldl markerStep {}

/-- The end of a child process that was waited for. -/
inductive BuildEnd where
  /-- `return Ok(..)` main.rs:253-255 -/
  | exit (code : Int)
  | paths (rlib ll : Str)
  | panic (p : Panic)
  deriving DecidableEq, Repr

/-- main.rs:251-260. `code` is the exit status of cargo, `none` if it was killed by a signal. -/
def buildEnd (code : Option Int) (a : Announced) : BuildEnd :=
  if code ≠ some 0 then .exit (code.getD 1)
  else
    match a.rlib with
    | none => .panic .missingPath
    | some rlib =>
      match a.ll with
      | none => .panic .missingPath
      | some ll => .paths rlib ll

/-! ### Choice of the LLVM-IR file (main.rs:271-310) -/

/-- Split at the last `.`. -/
def rsplitDot : Str → Option (Str × Str)
  | [] => none
  | c :: s =>
    match rsplitDot s with
    | some (a, b) => some (c :: a, b)
    | none => if c = '.' then some ([], s) else none

/-- `Path::file_stem` and `Path::extension` of a file name, if it has an extension. -/
def stemExt (name : Str) : Option (Str × Str) :=
  if name = c!".." then none
  else
    match rsplitDot name with
    | some ([], _) => none
    | r => r

/-- main.rs:275 -/
def llPrefix (file : Str) : Str := file.map (fun c => if c = '-' then '_' else c) ++ c!"-"

/-- main.rs:287-291 -/
def isCandidate (file name : Str) : Bool :=
  match stemExt name with
  | some (stem, ext) => ext == c!"ll" && startsWith stem (llPrefix file)
  | none => false

/-- main.rs:293-303: one directory entry, with its modification time. -/
def llStep (file : Str) (best : Option (Str × Int)) (e : Str × Int) : Option (Str × Int) :=
  if isCandidate file e.1 then
    match best with
    | none => some e
    | some b => if e.2 > b.2 then some e else some b
  else best

/-- main.rs:271-308: the chosen file name; `none` is the panic "unreachable". -/
def selectLl (file : Str) (entries : List (Str × Int)) : Option Str :=
  (entries.foldl (llStep file) none).map (·.1)

/-- main.rs:309: `ll_path.with_extension("o")` -/
def objName (ll : Str) : Str :=
  match stemExt ll with
  | some (stem, _) => stem ++ c!".o"
  | none => ll ++ c!".o"

/-! ### Loading the program (main.rs:323-418) -/

/-- main.rs:340-342 -/
def collectDefine (m : List (Str × Define)) : Item → List (Str × Define)
  | .define d => mset d.name d m
  | _ => m

/-- main.rs:344-346 -/
def collectDeclare (m : List (Str × Declare)) : Item → List (Str × Declare)
  | .declare d => mset d.name d m
  | _ => m

/-- `str::contains` -/
def containsStr : Str → Str → Bool
  | [], w => startsWith [] w
  | c :: s, w => startsWith (c :: s) w || containsStr s w

/-- main.rs:377-393: one member of the archive: its file name (`none` if it is not Unicode) and the stack
sizes it reports. -/
def archiveStep (m : List (Str × Nat)) (entry : Option Str × List (Str × Nat)) : List (Str × Nat) :=
  match entry.1 with
  | some id =>
    if containsStr id c!"compiler_builtins" && startsWith id.reverse c!".o".reverse then
      entry.2.foldl (fun m e => mset e.1 e.2 m) m
    else m
  | none => m

/-- main.rs:365-393: the stack sizes of the object file, overridden by those of the objects in the archive
with a suitable name. -/
def loadSizes (obj : List (Str × Nat)) (archive : List (Option Str × List (Str × Nat))) : List (Str × Nat) :=
  archive.foldl archiveStep (obj.foldl (fun m e => mset e.1 e.2 m) [])

/-- The files and settings that are read. -/
structure Inputs where
  /-- `project.target()` -/
  config : Option Str
  /-- `--target` -/
  flag : Option Str
  host : Str
  /-- LLVM-IR of the application and of compiler_builtins -/
  ll : Str
  builtinsLl : Str
  /-- stack sizes in the object file and the archive -/
  objSizes : List (Str × Nat)
  archive : List (Option Str × List (Str × Nat))
  /-- symbols of the executable -/
  defined : List (Nat × Sym)
  undefined : List Str

/-- Failures while loading. -/
inductive LoadErr where
  /-- "failed to parse application's LLVM IR" main.rs:323-329 -/
  | appIr (line : Nat)
  /-- "failed to parse `compiler_builtins` LLVM IR" main.rs:330-336 -/
  | builtinsIr (line : Nat)
  | panic (p : Panic)
  deriving DecidableEq, Repr

/-- main.rs:337-418: the program, from the items. The values of the hash maps come in any order. -/
def buildProgram (ord : HashOrder) (inp : Inputs) (items builtins : List Item) : Program :=
  let target := targetOf (analysedTarget inp.config inp.flag inp.host)
  { target
    defined := clearThumb target.isThumb inp.defined
    undefined := inp.undefined.map stripVersion
    stackSizes := loadSizes inp.objSizes inp.archive
    defines := ord.perm _ 0 (((items ++ builtins).foldl collectDefine []).map (·.2))
    declares := ord.perm _ 1 (((items ++ builtins).foldl collectDeclare []).map (·.2)) }

/-- main.rs:323-418 -/
def loadProgram (u : CharClass) (ord : HashOrder) (inp : Inputs) : Except LoadErr Program :=
  match parseIr u inp.ll with
  | .errorAt line => .error (.appIr line)
  | .panic p => .error (.panic p)
  | .ok items =>
    match parseIr u inp.builtinsLl with
    | .errorAt line => .error (.builtinsIr line)
    | .panic p => .error (.panic p)
    | .ok builtins => .ok (buildProgram ord inp items builtins)

/-- main.rs:323-1233: the text written to standard output, from the contents of the files. -/
def runFiles (u : CharClass) (demangle : Str → Str) (ord : HashOrder) (search : TagSearch) (inp : Inputs)
    (elf : Elf) (start : Option Str) (format : OutputFormat) : Except LoadErr Str :=
  match loadProgram u ord inp with
  | .error e => .error e
  | .ok p =>
    match runText demangle ord search p elf start format with
    | .error e => .error (.panic e)
    | .ok s => .ok s

end CallStack
