import Verif.Spec.Driver

/-!
Which argument vectors the rustc wrapper understands, and as what.
-/

namespace CallStack

/-- `v` is understood as the extern crate `e`: `name` or `name=path`, where the name begins after `noprelude:`
if that comes first. -/
def ExternValue (v : Str) (e : Extern) : Prop :=
  ∃ w, (v = c!"noprelude:" ++ w ∨ (v = w ∧ ¬ c!"noprelude:" <+: v)) ∧ '=' ∉ e.crateName ∧
    ((e.path = none ∧ w = e.crateName) ∨ ∃ p, e.path = some p ∧ w = e.crateName ++ '=' :: p)

/-- `v` is understood as the code generation option `o`. -/
inductive CodegenValue : Str → RustcOpt → Prop
  | extraFilename (x : Str) : CodegenValue (c!"extra-filename=" ++ x) (.extraFilename x)
  | other {v : Str} : v ≠ c!"extra-filename" → ¬ c!"extra-filename=" <+: v → CodegenValue v .other

/-- The arguments are understood as `os`: three options with their value in the next argument, `-C` with its
value in the next or in the same argument, and other arguments that are passed over one by one. -/
inductive WrapperReads : List Str → List RustcOpt → Prop
  | nil : WrapperReads [] []
  | ext {v : Str} {e : Extern} {rest : List Str} {os : List RustcOpt} : ExternValue v e →
      WrapperReads rest os → WrapperReads (c!"--extern" :: v :: rest) (.ext e :: os)
  | crateName {v : Str} {rest : List Str} {os : List RustcOpt} :
      WrapperReads rest os → WrapperReads (c!"--crate-name" :: v :: rest) (.crateName v :: os)
  | outDir {v : Str} {rest : List Str} {os : List RustcOpt} :
      WrapperReads rest os → WrapperReads (c!"--out-dir" :: v :: rest) (.outDir v :: os)
  | short {v : Str} {o : RustcOpt} {rest : List Str} {os : List RustcOpt} : CodegenValue v o →
      WrapperReads rest os → WrapperReads (c!"-C" :: v :: rest) (o :: os)
  | joined {v : Str} {o : RustcOpt} {rest : List Str} {os : List RustcOpt} : v ≠ [] → CodegenValue v o →
      WrapperReads rest os → WrapperReads ((c!"-C" ++ v) :: rest) (o :: os)
  | pass {a : Str} {rest : List Str} {os : List RustcOpt} :
      a ∉ [c!"--extern", c!"--crate-name", c!"--out-dir"] → ¬ c!"-C" <+: a →
      WrapperReads rest os → WrapperReads (a :: rest) (.other :: os)

/-- The error for a value that is missing at the end of the arguments or in `-C extra-filename`, after arguments
that are understood. -/
inductive LacksValue (args : List Str) : WrapErr → Prop
  | argument {pre : List Str} {os : List RustcOpt} {opt : Str} :
      opt ∈ [c!"--extern", c!"--crate-name", c!"--out-dir", c!"-C"] → WrapperReads pre os → args = pre ++ [opt] →
      LacksValue args (.missingArgument opt)
  | short {pre post : List Str} {os : List RustcOpt} : WrapperReads pre os →
      args = pre ++ c!"-C" :: c!"extra-filename" :: post → LacksValue args .missingExtraFilename
  | joined {pre post : List Str} {os : List RustcOpt} : WrapperReads pre os →
      args = pre ++ c!"-Cextra-filename" :: post → LacksValue args .missingExtraFilename

end CallStack
