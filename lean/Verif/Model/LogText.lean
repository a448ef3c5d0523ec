import Verif.Model.Log

/-!
The texts of the warnings and errors that `run` logs (the format strings of all `warn!` and `error!` in
src/main.rs).

The logger `env_logger` adds time, level and module in front of a text; this is not modelled. A `\` at the end of
a line of a string literal in the code drops the line break and the blanks that follow.
-/

namespace CallStack

/-- Whether the message is logged by `error!`; the others are logged by `warn!`. -/
def LogMsg.isError : LogMsg → Bool
  | .noText | .noCallees _ | .ambiguousStart _ _ | .noStart | .noFigures => true
  | _ => false

/-- The text of a message. `debug` is the format `{:?}` of a list of strings. -/
def LogMsg.text (debug : List Str → Str) : LogMsg → Str
  -- main.rs:500, 899
  | .noUsage name => c!"no stack usage information for `" ++ name ++ c!"`"
  -- main.rs:542
  | .noType name => c!"no type information for `" ++ name ++ c!"`"
  -- main.rs:569-572
  | .asm expr name =>
    c!"assuming that asm!(\"" ++ expr ++ c!"\") does *not* use the stack in `" ++ name ++ c!"`"
  -- main.rs:585
  | .noInfo sym => c!"no stack information for `" ++ sym ++ c!"`"
  -- main.rs:701
  | .inlined func => c!"assuming that `" ++ func ++ c!"` directly lowers to machine code"
  -- main.rs:848-853
  | .overrideAsm name llvm ours =>
    c!"LLVM reported that `" ++ name ++ c!"` uses " ++ showNat llvm ++
    c!" bytes of stack but our analysis reported " ++ showNat ours ++
    c!" bytes; overriding LLVM's result (function uses inline assembly)"
  -- main.rs:861-866
  | .overrideOutlined name llvm ours =>
    c!"LLVM reported that `" ++ name ++ c!"` uses " ++ showNat llvm ++
    c!" bytes of stack but our analysis reported " ++ showNat ours ++
    c!" bytes; overriding LLVM's result (function was produced by LLVM's function outlining pass)"
  -- main.rs:907-911
  | .untypedCall name =>
    c!"`" ++ name ++
    c!"` performs an indirect function call and there's no type information about the operation"
  -- main.rs:951
  | .noText => c!".text section not found"
  -- main.rs:957-960
  | .untypedSymbols =>
    c!"the program contains untyped, external symbols (e.g. linked in from binary blobs); indirect function calls can not be bounded"
  -- main.rs:1025, 1058
  | .noCallees type => c!"BUG? no callees for `" ++ type ++ c!"`"
  -- main.rs:1087
  | .ambiguousStart start hits => c!"multiple matches for `" ++ start ++ c!"`: " ++ debug hits
  -- main.rs:1131
  | .noStart => c!"start point not found; the graph will not be filtered"
  -- main.rs:1137
  | .noFigures => c!"The graph has zero stack usage information; skipping max stack usage analysis"

/-- main.rs:420-1226: the texts of all messages of a run. -/
def runLogText (debug : List Str → Str) (demangle : Str → Str) (ord : HashOrder) (search : TagSearch) (p : Program)
    (elf : Elf) (start : Option Str) : List Str :=
  (runLog demangle ord search p elf start).map (LogMsg.text debug)

end CallStack
