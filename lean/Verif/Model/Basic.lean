/-!
Common vocabulary of the model.

Rust `&str` / `String` values are modelled as lists of characters.
-/

namespace CallStack

/-- A Rust string: its sequence of `char`s. -/
abbrev Str := List Char

/-- `c!"abc"` is the list of characters `['a', 'b', 'c']`. -/
syntax:max (name := charsLit) "c!" noWs str : term

macro_rules
  | `(c!$s:str) => do
    let cs := s.getString.toList.map fun c => (Lean.Syntax.mkCharLit c : Lean.TSyntax `term)
    `([$(cs.toArray),*])

/-- Ways in which the modelled code aborts (`panic!`, `expect`, failed `assert!`, slice index out of
range), plus `fuel` for a loop of the model that ran out of fuel (theorems show this last one is
never produced). -/
inductive Panic where
  /-- `expect("UNREACHABLE")` on a `max` that has not been computed (main.rs:1153,1169,1187,1206) -/
  | unreachable
  /-- index into a graph with an unknown node index (petgraph `Index<NodeIndex>`) -/
  | badIndex
  /-- out of fuel (model artefact) -/
  | fuel
  /-- `u64` addition overflow (a panic with overflow checks, wrong numbers without) -/
  | overflow
  /-- `expect("BUG? unnamed symbol is being invoked")` main.rs:581 -/
  | unnamedBitcast
  /-- `assert!(!func.starts_with("llvm."), ..)` main.rs:712 -/
  | unhandledIntrinsic (func : Str)
  /-- `assert!(symbols.undefined.contains(func), ..)` main.rs:730 -/
  | unknownCallee (func : Str)
  /-- `names[0]` on an empty list main.rs:484,487 -/
  | noNames
  /-- missing key in `indices[..]` or `aliases[..]` -/
  | missingKey (name : Str)
  /-- missing key in `ambiguous[..]` main.rs:1222 -/
  | missingAmbiguous (name : Str)
  /-- slice out of range, `&text[start..end]` main.rs:820 -/
  | sliceRange
  /-- `assert_eq!(stack != 0, modifies_sp)` main.rs:829 -/
  | stackVsSp
  /-- `assert_eq!(*llvm_stack, stack)` main.rs:873 -/
  | llvmVsOurs
  /-- `assert_eq!(*llvm_stack != 0, modifies_sp)` main.rs:882 -/
  | llvmVsSp
  /-- `panic!("BUG? no symbol at address ..")` main.rs:922,940 -/
  | noSymbolAt (addr : Nat)
  /-- thumb.rs `bug!(first)` line 384 -/
  | unknownInstruction
  /-- thumb.rs line 60: two data tags in a row -/
  | expectedThumbTag
  /-- wrapper.rs:27 `args.next().unwrap()` -/
  | noRustcPath
  /-- main.rs:258/260/308 `expect` on a value that was never announced / found -/
  | missingPath
  /-- ir.rs:80 `unreachable!("couldn't find line ..")` -/
  | parseLine
  deriving DecidableEq, Repr

deriving instance DecidableEq for Except

end CallStack
