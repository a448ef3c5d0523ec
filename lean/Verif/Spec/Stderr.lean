import Verif.Model.Stderr
import Verif.Spec.Tool

/-!
When what an error message says is the case.
-/

namespace CallStack

/-- cargo has ended with status 0 after writing `stderr`, and `name` is the newest LLVM-IR file of the program. -/
def World.Newest (w : World) (cl : Cli) (name : Str) : Prop :=
  ∃ file host config stderr entries, w.Built cl file host config (some 0) stderr ∧ w.entries = some entries ∧
    NewestLl file entries name

/-- The build was successful, and `path` is what was announced last after `marker`. -/
def World.Announces (w : World) (cl : Cli) (marker path : Str) : Prop :=
  ∃ file host config stderr, w.Built cl file host config (some 0) stderr ∧ LastMarked marker stderr path

/-- What an error says is the case. -/
def World.Fails (u : CharClass) (y : Why) (w : World) (cl : Cli) : Cause → Prop
  | .toolchain => w.toolchain = none
  | .unsupported => ∃ hash host, w.toolchain = some (hash, host) ∧
      hash ≠ some c!"2b603f95a48f10f931a61dd208fe3e5ffd64e491" ∧
      w.optOut ≠ some c!"I won't open issues about unsupported toolchains"
  | .selection => (cl.args.example = none ∧ cl.args.bin = none) ∨ ∃ e b, cl.args.example = some e ∧ cl.args.bin = some b
  | .project => w.config = none
  | .cfg target => w.cfg target = none ∧
      ∃ config host, w.config = some config ∧ w.Supported host ∧ AskedTarget config cl.args.target host target
  | .touch => touch w.settable w.srcExists w.walkSrc w.walkRoot = none
  | .cargo => ∃ file noStd, cl.args.Selects file ∧ w.cargo (cargoArgs cl.args file noStd) = none
  | .exePath => w.executable = false ∧ y.exePath = none
  | .executable => w.executable = false ∧ ∃ path, y.exePath = some path
  | .entries => w.entries = none
  | .appText name => w.Newest cl name ∧ w.appText name = none
  | .object name => ∃ stem, name = stem ++ c!".o" ∧ w.Newest cl (stem ++ c!".ll") ∧ w.object name = false
  | .builtinsText path =>
      w.Announces cl c!"@CARGO_CALL_STACK:compiler_builtins_ll_path@" path ∧ w.builtinsText path = none
  | .appIr name line => w.Newest cl name ∧ ∃ text, w.appText name = some text ∧ parseIr u text = .errorAt line
  | .builtinsIr path line => w.Announces cl c!"@CARGO_CALL_STACK:compiler_builtins_ll_path@" path ∧
      ∃ text, w.builtinsText path = some text ∧ parseIr u text = .errorAt line
  | .objSizes name => ∃ stem, name = stem ++ c!".o" ∧ w.Newest cl (stem ++ c!".ll") ∧ w.objSizes name = none
  | .archiveOpen path => w.Announces cl c!"@CARGO_CALL_STACK:compiler_builtins_rlib_path@" path ∧
      w.archive path = none ∧ y.opens path = false
  | .archive path => w.Announces cl c!"@CARGO_CALL_STACK:compiler_builtins_rlib_path@" path ∧
      w.archive path = none ∧ y.opens path = true
  | .symbols => w.symbols = none
  | .wrapper _ => False
  | .spawn _ => False

/-- A line that is meant for the tool. -/
def Marked (line : Str) : Prop :=
  c!"@CARGO_CALL_STACK:compiler_builtins_rlib_path@" <+: line ∨
    c!"@CARGO_CALL_STACK:compiler_builtins_ll_path@" <+: line

instance (line : Str) : Decidable (Marked line) := inferInstanceAs (Decidable (_ ∨ _))

/-- What is written from the start of cargo to its end: the command if that was asked for, and all lines of cargo that
are not meant for the tool. -/
def BuildLines (y : Why) (w : World) (code : Option Int) (stderr : Str) (lines : List ErrLine) : Prop :=
  ∃ cmd ls, lines = cmd ++ (ls.filter (fun l => !decide (Marked l))).map .passed ∧ TextLines stderr ls ∧
    (y.verbose = false → cmd = []) ∧
    (y.verbose = true → ∃ args, cmd = [.command args] ∧ w.cargo args = some (code, stderr))

end CallStack
