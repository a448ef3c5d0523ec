# Formal model of cargo-call-stack (Lean 4)

Source: `/repo` (cargo-call-stack v0.1.16, 4403 lines with unit tests). Model and proofs: `/verif/lean/Verif`.

## Layout

| directory | contents |
|---|---|
| `Verif/Model/*` | executable, total model of the code; each definition cites file and lines of `/repo` and says where it simplifies |
| `Verif/Spec/*`  | small independent specifications that do not use the model's helpers: call chains, ARM encodings, a grammar of LLVM-IR, a reader of dot files, option grammars of rustc and cargo |
| `Verif/Proof/*` | helper lemmas; `Proof/UnitTests` runs the 104 assertions of the code's own unit tests against the model |
| `Verif/Props/*` | the theorems `Cnn_...`, one or a few per property of `properties.jsonl`, with concrete examples beside them |

`MANIFEST.json` lists the theorems per property, `seeded/LOG.jsonl` the wrong programs they were tested with.
Where a property is false of the code, the negation is proved with a concrete witness, and a theorem with the
suffix `_partial` says what does hold and what is missing.

## Trusted base

* The kernel of Lean 4.33.0, and the axioms listed under "Axioms" below: only `propext`, `Classical.choice` and
  `Quot.sound`. No axiom was added; there is no `sorry`, `admit`, `native_decide` or `bv_decide`. `decide +kernel`
  is evaluated by the kernel.
* The model is written by hand from the text of `/repo`; nothing was compiled or run. The unit tests of the code
  hold of the model (`Proof/UnitTests`).
* The dependencies are not in `/repo`. The functions used of `petgraph` 0.6 (`Dfs`, `DfsPostOrder`,
  `kosaraju_scc`, `Topo`, `is_cyclic_directed`, `retain_nodes`, `add_edge`, order of `neighbors`) and of
  `nom` 7.1 (`tag`, `char`, `alt`, `opt`, `map_res`, `delimited`, `many0/1`, `separated_list0/1`, `take_while1`,
  `take_until`, `digit1`, `space0/1`, `line_ending`, `not_line_ending`) are modelled after their published
  behaviour.
* The specifications in `Verif/Spec`, among them the transcription of the ARMv6-M/ARMv7-M encodings, of what the
  instructions do to SP and PC (interrupts only in Spec/Interrupt), and of the relevant part of the LLVM language reference.

## What is modelled

| code | model |
|---|---|
| main.rs:97-137 toolchain check, choice of the file | `Driver` |
| main.rs:140-203 target, `target_os` check, arguments of cargo | `Driver` |
| main.rs:234-260 lines of cargo's standard error | `Driver` |
| main.rs:271-310 choice of the `.ll` and `.o` file | `Driver` |
| main.rs:323-418 reading both LLVM-IR files, merging, stack sizes, symbols | `Driver`, `Symbols` |
| main.rs:420-543 aliases, default methods, nodes of the live functions | `Symbols` |
| main.rs:545-763 statements to edges, intrinsics, external functions | `Build` |
| main.rs:766-953 machine code pass | `Machine` |
| main.rs:955-1065 indirect calls, `ArgumentV1` formatters | `Build` |
| main.rs:1067-1133 start point | `Filter` |
| main.rs:1135-1215 maximum stack usage, cycles | `Analysis`, `PetGraph` |
| main.rs:1217-1386 shortening, dot and top output | `Names`, `Output` |
| main.rs:1388-1540 `Node`, `Local`, `Max`, names | `Stack`, `Names`, `Symbols`, `Output` |
| thumb.rs (all) | `Thumb` |
| ir.rs, ir/ty.rs, ir/define.rs, ir/item.rs (all) | `Types`, `Nom`, `Ir`, `IrItem` |
| wrapper.rs (all but starting the process) | `Wrapper` |
| the same with machine words, checked or wrapping | `Words`, `Release` |
| main.rs:495, 1202 the debug assertions | `Debug` |
| main.rs:84-92, 1228-1386 as calls of `io::Write`, which may fail | `Write` |
| the messages of the panics of main.rs:581-940 and thumb.rs | `Report` |
| all `warn!` and `error!` of main.rs, with their data | `Log`; their texts `LogText` |
| main.rs:84-96, 209-230 and the sequence of all steps, with the exit status | `Tool` |
| main.rs:84-92, 113-126, 230-249 and all errors with their texts; wrapper.rs the same | `Stderr` |

Not modelled; their results are inputs of the model: parsing of our own command line by clap; `cargo_project`;
starting processes and their environment; reading of files (the fields of `World` in `Tool` say what they yield); decoding of
ELF files, archives and `.stack_sizes` sections (`stack_sizes`, `xmas_elf`, `ar`); `rustc_demangle` (an arbitrary
function on strings); what the logger puts before the text of a message; the operands that `assert_eq!` adds to its message and the messages
of panics of the standard library; `rustc_version`.

## Conventions

* Strings are lists of characters. Byte lengths are computed where the code uses them.
* `panic!`, `expect`, `unwrap`, failed `assert!` and indices out of range are error values (`Except Panic`).
* `HashMap`s that are iterated come in an arbitrary order: `HashOrder` is any family of permutations, all theorems
  hold for every one. The order may differ between tables, but two tables with the same entries in the same role
  are iterated in the same order.
* `BTreeMap`s are lists sorted by key or association lists if only looked up. `TagSearch` is any search that finds an
  element if there is one (`binary_search_by_key` does not say which one among equals).
* Sums of the stack analysis are checked 64 bit additions: an overflow is an error, as in a build with overflow
  checks. C06 and C11 say when it cannot happen. The release profile of this crate wraps instead (`Release`); C95 says
  when both are the same.
* Figures of the Thumb decoder are unbounded numbers in `Thumb` and `Machine`, where the code has `u64`, `u32` and
  `i32`. `Words` has the machine words, and C95 proves that they make no difference.
* Loops and recursion that are not structural take fuel; running out is a result of its own (`Panic.fuel`, `Res.stuck`)
  and is proved not to happen (C06, C17, C56).
* Unicode classes of characters are a parameter that is fixed on ASCII only (`CharClass`).
* `debug_assert!`s (main.rs:495, 1202) are left out, as in release builds. `Debug` has them, and C118 proves that they
  cannot fail.

The graphs of the README were used to check the model: `Props/Recursion.lean` and `Props/Readme.lean` evaluate the
model on the README's programs (the recursive one with the machine code of its listing) and obtain the figures, edges
and clusters of `assets/cycle`, `direct`, `filtered`, `fn` and `lossy`. The LLVM-IR of these programs is not in the
repository; it was written by hand from the Rust source shown there.

## Assumptions that appear in theorems

* `NamesOnce`: no name belongs to two live functions. Object files can contain local symbols of the same name;
  `C25_same_name_merged`, C115, C116, C117 and, exactly, C119, C120, C121, C122, C123 and C124 say what happens then; C125 and C126 have the exact edges of the LLVM-IR and of indirect calls without any assumption on names, C127 and C128 the exact
  figures, without and with machine code, and C129 when there are any, C130 the error messages and C131 the log messages about figures; start points, log messages, missing figures and
  the command line (C75, C90, C91, C98) do not need it, nor do intrinsics (C33); the theorems with the suffix `_shared` are
  about such programs.
* `SizesU64`: reported stack sizes are 64 bit numbers; proved for loaded programs (C100). `Fits32`: the code section is smaller than 4 GiB.
* `DefinesOnce`, `DeclaresOnce`: at most one definition and declaration per name; proved for loaded programs (C65).
* `Addressed`: live functions have increasing addresses; proved for loaded programs (C100).
* `World.Typed`: the crates that read object files return symbols as a map in order of address, and sizes as 64 bit
  numbers. These are their Rust types (`BTreeMap<u64, _>`, `u64`).
* `OrderSafe`: the edges do not depend on the order of the definitions (C40 says when they do).
* `World.wrapperVar = false`: the tool was started by the user and not by itself as a wrapper of rustc (C59, C60).
* `Unambiguous`: every live function has one type, `memcmp` is not an alias, and formatters are not merely declared.
  Without it calls are lost (C29, C36, C41).

## Properties

| id | property | status | model | proof | theorems (file in `Props/`) |
|---|---|---|---|---|---|
| C01 | An exact max is an upper bound of every call chain | proved | `Analysis` (main.rs:1135-1215), `PetGraph` | every node that is done satisfies a chain characterisation (`Spec/Graph`); invariant over the list of components, walks by induction | `C01_exact_max_sound` (Analysis) |
| C02 | An exact max is attained | proved | `Analysis` (main.rs:1135-1215), `PetGraph` | every node that is done satisfies a chain characterisation (`Spec/Graph`); invariant over the list of components, walks by induction | `C02_exact_max_attained` (Analysis) |
| C03 | A lower-bound max is a genuine lower bound | proved | `Analysis` (main.rs:1135-1215), `PetGraph` | every node that is done satisfies a chain characterisation (`Spec/Graph`); invariant over the list of components, walks by induction | `C03_lower_bound_genuine` (Analysis) |
| C04 | `=` is printed exactly when the usage is bounded and known | proved | `Analysis` (main.rs:1135-1215), `PetGraph` | every node that is done satisfies a chain characterisation (`Spec/Graph`); invariant over the list of components, walks by induction | `C04_exact_iff` (Analysis) |
| C05 | The printed number is the heaviest chain across distinct recursion groups | proved | `Analysis` (main.rs:1135-1215), `PetGraph` | every node that is done satisfies a chain characterisation (`Spec/Graph`); invariant over the list of components, walks by induction | `C05_heaviest` (Analysis) |
| C06 | The max analysis never aborts and covers every function | proved | `Analysis` (main.rs:1135-1215), `PetGraph` | totality of both algorithms; the only failure is u64 overflow | `C06_total`, `C06_covers`, `C06_abort_iff`, `C06_only_overflow`, `C06_no_info` (Analysis) |
| C07 | The max analysis does not depend on insertion order | proved | `Analysis` (main.rs:1135-1215), `PetGraph` | the characterisation determines the result | `C07_order_independent` (Analysis) |
| C08 | The recursive and the non-recursive algorithm agree | proved | `Analysis` (main.rs:1135-1215), `PetGraph` | the characterisation determines the result | `C08_branch`, `C08_agree` (Analysis) |
| C09 | Cycle clusters are exactly the recursion groups | proved | `PetGraph.kosaraju` | correctness of Kosaraju for the iterative depth first searches of petgraph | `C09_clusters` (Analysis) |
| C10 | Combining callees never loses a bound | proved | `Stack` (main.rs:1388-1486) | list induction | `C10_perm`, `C10_max` (Analysis) |
| C100 | What is loaded meets the assumptions of the analysis | proved | `Driver.loadProgram`, `Symbols.clearThumb` (main.rs:300-460) | C65 and C72; clearing bits is monotone, so inserting in order keeps the map sorted | `C100_loaded` (Loaded) |
| C101 | From the command line to the figures | proved | `Tool.tool` (main.rs:94-1233) | composition of C77, C100, C85, C98 and C22 | `C101_command_line_to_figures` (ToolFigures) |
| C102 | From the command line to the listing | proved | `Tool.tool`, `Output.topText` (main.rs:94-1233, 1290-1335) | composition of C77, C100, C85, C98 and C24; a chain that uses stack contains a live function, from which a chain of the same weight starts | `C102_command_line_to_listing` (ToolFigures) |
| C103 | Exactly which nodes and edges the LLVM-IR gives | proved | `Build.irGraph`, `Build.stmtStep` (main.rs:551-763) | invariant over the prefix of statements read so far: names of the nodes and edges by name, exactly; definitions and aliases translated to the symbol table | `C103_nodes`, `C103_edges`, `C103_live_edges`, `C103_edges_unordered` (Edges) |
| C104 | Executions on targets without machine code analysis | partial | `Run.finalGraph` (main.rs:551-763, 1049-1226) | invariant of the execution: the active functions are a sublist of a chain of calls that ends at the innermost one; each call is one or two edges or reaches a node of unknown usage; then C01 for the chain | `C104_reasons`, `C104_executions_partial`, `C104_closed_partial`, `C104_with_start_partial`, `C104_from_command_line_partial`, `C104_bound_violated` (IrExec, ToolIrExec) |
| C105 | How figures change with the program | proved | `Run.finalGraph` (main.rs:551-1226) | both runs are characterised by C85; possible calls, leaving the executable and local usage agree at functions with the same body and frame, so reachability, chains of recursion groups and their weights agree; a chain has no repetitions, so one frame counts at most once | `C105_local`, `C105_one_frame`, `C105_reported` (Change) |
| C106 | Everything recorded about the LLVM-IR is written there | proved | `Ir.parseIr`, `IrTy.typeP`, `IrItem.*` (ir.rs, ir/*.rs) | every parser that succeeds consumes a text of its grammar (Proof/IrSound, Proof/IrSoundItem), composed by the combinators; induction on the fuel for types | `C106_types`, `C106_types_iff`, `C106_types_unique`, `C106_file`, `C106_direct_call` (ParseSound) |
| C107 | What the mark before a maximum means | proved | `Run.finalGraph`, `Analysis.*`; what a call can need is `CanNeed` (Spec/Need) | C85/C101 for the figures; a chain through an unknown frame, a function outside or a recursive group with a frame can be made as heavy as wanted (repeating the cycle), otherwise the heaviest chain of groups is a chain of calls | `C107_mark`, `C107_from_command_line` (Need) |
| C108 | What the lines of warnings mean | proved | `LogMsg.text`, `LogMsg.isError` (Model/LogText): the format strings of all messages | texts of different kinds differ at a fixed position or in the last figures; within a kind the parts are split at quotes, backquotes or digits; then C86, C87, C90-C92 | `C108_texts_differ`, `C108_lines_mean`, `C108_errors` (LogText) |
| C109 | Interrupts: figures of handlers add up to a bound for the program | partial | `Run.finalGraph`; executions with interrupts are `NestStep`, `Nested` (Spec/Interrupt) | invariant: below handlers of strictly falling priorities is the main function, and each level is an execution of its own; then C94 or C104 (C116 or C117 if functions have the same names) per level and a sum over distinct priorities | `C109_reasons`, `C109_reasons_ir`, `C109_interrupts_partial`, `C109_interrupts_ir_partial`, `C109_reasons_shared`, `C109_interrupts_shared_partial`, `C109_reasons_ir_shared`, `C109_interrupts_ir_shared_partial`, `C109_from_command_line_partial`, `C109_ir_from_command_line_partial`, `C109_from_command_line_shared_partial`, `C109_ir_from_command_line_shared_partial`, `C109_attained`, `C109_levels`, `C109_main_alone_exceeded` (Interrupt, SharedInterrupt, ToolInterrupt) |
| C11 | No 64-bit overflow for realistic programs | proved | `Analysis` (main.rs:1135-1215), `PetGraph` | every partial sum is at most the sum of all local usages | `C11_no_overflow` (Analysis) |
| C110 | Functions nobody calls are the roots of the graph | proved | `Run.finalGraph` (main.rs:551-1226) | edges of the printed graph between functions are exactly the possible calls (C85 and C49); nodes that are not functions have no edges to functions that are not possible calls of a function | `C110_roots` (Recursion) |
| C111 | Mutually recursive functions share a maximum and are the clusters | proved | `Run.finalGraph`, `Scc.*` (main.rs:1138-1226) | clusters are the recursive strongly connected components (C09), these are the groups of the program (C85), and the maximum is computed per component; C94 for the executions of the README program | `C111_recursion`, `C111_readme`, `C111_readme_deep` (Recursion) |
| C112 | Failures are explained on standard error | proved | `toolOutcome`, `Cause.text` (Model/Stderr; main.rs:84-396, wrapper.rs:25-58): the whole program with what it writes to standard error | refinement: the end of the process is that of `Tool.tool`; case distinction along the steps of the run, with C62, C63, C64 for what the names in an error mean | `C112_standard_error`, `C112_error_reported`, `C112_passed_on`, `C112_texts_differ`, `C112_names_file`, `C112_names_line`, `C112_same_end` (Stderr) |
| C113 | Failing writes are reported and what arrives is the beginning of the text | proved | `dotWrite`, `topWrite`, `Escaper.writeChar` and the other functions of Model/Write (main.rs:1236-1386), with an arbitrary `Sink` for standard output; `runWrite` | every function is `Sink.fmt` of a list of pieces (Proof/Write; induction over names, nodes, edges, clusters) whose concatenation is the text of `runText`; induction over the pieces | `C113_write_errors`, `C113_panic_silent`, `C113_full_device` (Write) |
| C114 | What an abort says is the case | proved | `runReport` and `Report.text` (Model/Report): the functions of `Build`, `Thumb`, `Machine` that panic, with the data of the message | refinement to `runText` (`C114_same_runs`); then, along the steps of the run, the invariants of C40, C74, C75 at the point of the panic; an invariant of the decoder for the impossible message | `C114_says_what_is`, `C114_same_runs`, `C114_compiler_figure`, `C114_never_not`, `C114_texts` (Report) |
| C115 | Functions of the same name share the node of the last one | partial | the model of C25-C51; `NamesAlike`, `LastOf`, `AnyCall`, `Uses`, `Lenient` (Spec/Shared) speak of symbols, LLVM-IR and machine code | invariants of the three passes without the assumption that names are unique (Proof/Shared, Proof/SharedLocal): the index of a name is its last node; then C01 for the chain of last functions. Where the edges come from (Proof/SharedEdges): an invariant of the pass over the LLVM-IR says which statement asked for the name of the node that a new edge ends at | `C115_calls`, `C115_figure`, `C115_agree`, `C115_shadowed`, `C115_edges_justified`, `C115_callee_last`, `C115_dashed_nodes`, `C115_shadowed_max`, `C115_shadowed_max_violated`, `C115_bound_partial`, `C115_bound_violated` (Shared, SharedEdges, SharedExec) |
| C116 | The printed max bounds executions also of functions with the same name | partial | the model of C25-C51 and the executions of C94 (Spec/Exec); `Alone`, `Settled` (Spec/Shared) | as C94, with each function mapped to the last one of its names (Proof/SharedExec): calls are edges between the last functions (C115), calls through registers without LLVM-IR lead to an unknown node, and the figure of the last function is at least what each of them takes; a start point selects the last function of a name (Proof/SharedNames, Props/SharedTool) | `C116_reasons`, `C116_executions_bounded_partial`, `C116_with_start_partial`, `C116_from_command_line_partial`, `C116_loop_unnoticed` (SharedExec, SharedTool) |
| C117 | The printed max bounds executions also of functions with the same name, without machine code | partial | the model of C25-C51 and the executions of C104 (Spec/IrExec) | as C104, with each function mapped to the last one of its names (Proof/SharedIr): every statement is processed at some time with the caller at the last function of its names; names looked up without aliases lead to the last function of the name or to a node with unknown usage | `C117_reasons`, `C117_executions_partial`, `C117_closed`, `C117_with_start_partial`, `C117_from_command_line_partial`, `C117_bound_violated` (SharedIr, SharedTool) |
| C118 | The debug assertions never fail | proved | `symStepD`, `topoLoopD`, `runTextD` (Model/Debug; main.rs:495, 1202) | equality with the model without assertions: the table of addresses has exactly the addresses of the symbols before (invariant of the pass over the symbols), `Topo` yields no node twice for any graph, and no node has a max before the analysis | `C118_same`, `C118_assertions_hold`, `C118_addresses` (Debug) |
| C119 | The figures are determined by the program also for functions with the same name | proved | the model of C25-C51; `MayCallShared`, `MayLeaveShared`, `LocalShared` (Spec/SharedFigures) speak of symbols, LLVM-IR and machine code | as C85, without the assumption that names are unique (Proof/SharedFigures): calls between live functions in the finished graph are exactly the calls of functions that share the nodes; induction over the loop of the machine code pass for the local usage; a function that is not the last of its names has no outgoing calls | `C119_figures`, `C119_names_once`, `C119_hidden`, `C119_roots`, `C119_recursion`, `C119_start_figures`, `C119_command_line`, `C119_mark`, `C119_mark_command_line`, `C119_listing`, `C119_covers_iff` (SharedChange, SharedFigures, SharedListing) |
| C12 | The reported max is monotone in the local usages | proved | `Analysis` (main.rs:1135-1215), `PetGraph` | comparison of heaviest chains; a witness refutes monotonicity in calls | `C12_monotone`, `C12_adding_a_call_can_lower` (Analysis) |
| C120 | Hash orders and unrelated changes do not move the figures of functions with the same name, and larger frames do not lower them | proved | as C119; `Reordered` and `SameShape` relate two programs | consequence of C119: every notion of C119 is the same for the reordered program, and for what can be reached in the other version (Proof/SharedChange), and the maxima are determined by these notions; the chosen type is unique; for larger frames the heaviest chains of both versions are compared (Props/SharedMore); the exact condition for orders as for C76 (Props/SharedChoices) | `C120_orders`, `C120_orders_iff`, `C120_every_choice`, `C120_unchanged`, `C120_frames`, `C120_reported` (SharedChange, SharedChoices, SharedMore) |
| C121 | Which programs with functions of the same name end without a panic is known | proved | `symbolPass`, `irGraph`, `machinePass`, `callGraph`, `finalGraph`; `Program.CodeFits` (Spec/SharedAbort) | induction over definitions, statements and functions with the condition that every later step is accepted (Proof/SharedAbort); the figure of a node at each step is `LocalAfter`; C121_orders: the condition does not mention the orders, sums overflow in both runs or neither, and the names shown are the same | `C121_ir_iff`, `C121_no_code_iff`, `C121_machine_iff`, `C121_output`, `C121_orders`, `C121_twins_abort` (SharedAbort, SharedTotal) |
| C122 | What the tool does not know about functions with the same name is announced | partial | `runLog` and its parts (Model/Log), `LocalAfter` (Spec/SharedFigures) | induction over the functions with the figure at each node before and after each step (`SharedFacts.step_log`, Proof/SharedGaps); the statements as C88; the explanation of lower bounds from C119 (Props/SharedExplained) | `C122_gaps`, `C122_unknown_announced_partial`, `C122_overrides`, `C122_assumptions`, `C122_no_callees`, `C122_lines`, `C122_errors`, `C122_lower_bounds_explained_partial`, `C122_hidden_silent`, `C122_figure_misattributed` (SharedExplained, SharedGaps) |
| C123 | Indirect calls are represented exactly for functions with the same name | proved | as C84; `IndirectNodeShared` (Spec/SharedIndirect) | as C84, with the callers of the last function of each name (`SharedFacts.callers_iff`) instead of those of the only one | `C123_indirect_nodes`, `C123_reached_iff`, `C123_unknown_iff` (SharedIndirect) |
| C124 | What an abort says about functions of the same name | proved | as C114; `SaysShared` (Spec/SharedReport) | as C114, with the invariant of C121 for what the functions so far left at each node; induction over these for the origin of a figure | `C124_says_what_is`, `C124_without_code`, `C124_figure_origin`, `C124_llvm_misquoted` (SharedReport) |
| C125 | Exactly which nodes and edges the LLVM-IR gives, whatever the names of the functions | proved | `symPass`, `irGraph`, `callGraph` (main.rs:460-763); `TakenFor`, `LastShown`, `TakenAt`, `AimsAt` (Spec/AnyEdges) | one step adds exactly the edges of the statement, given the names that have nodes (Proof/AnyEdges); induction over statements and definitions with the prefix read so far; induction over the symbols for the last function of a name | `C125_nodes`, `C125_edges`, `C125_live_edges`, `C125_hidden`, `C125_call_lost` (AnyEdges) |
| C126 | Exactly which indirect calls are shown, whatever the names of the functions | proved | `symPass`, `irGraph`, `callGraph` (main.rs:457-763, 955-1065); `TakenIn`, `IndirectNodeAny` (Spec/AnyIndirect) | the callers of a type are an invariant of the pass over the LLVM-IR (Proof/AnyIndirect); the rest as C115 and C123 without the assumption on names | `C126_indirect_nodes`, `C126_reached_iff`, `C126_unknown_iff` (AnyIndirect) |
| C127 | The figures exactly, whatever the names of the functions, if no machine code is analysed | proved | `finalGraph`, `tool` (main.rs:380-1290) with `machinePass` doing nothing; `MayCallAny`, `MayLeaveAny` (Spec/AnyFigures) | the graph restricted to live functions (`LiveGraph`) has exactly the hops of `MayCallAny`, from C125 and C126 (Proof/AnyFigures); then as C119 | `C127_figures`, `C127_recursion`, `C127_start_figures`, `C127_mark`, `C127_alike`, `C127_orders`, `C127_command_line`, `C127_too_low` (AnyFigures) |
| C128 | The figures exactly, whatever the names of the functions, with the machine code | proved | `finalGraph`, `tool` (main.rs:380-1290); `CodeFor`, `MayCallNode`, `MayLeaveNode`, `LocalNode` (Spec/AnyCode) | the node that machine code is attributed to is described by the names alone (`nodeOf_any`, Proof/AnyCode); edges of the machine pass from its invariant, local usages by induction over the functions; then as C119 and C127 | `C128_figures`, `C128_recursion`, `C128_start_figures`, `C128_mark`, `C128_alike`, `C128_quiet`, `C128_orders`, `C128_command_line`, `C128_unknown_lost` (AnyCode) |
| C129 | When a run ends, whatever the names of the functions | proved | `irGraph`, `machinePass`, `callGraph`, `runText` (main.rs:380-1290); `Program.CodeFitsNode` (Spec/AnyAbort) | as C121, with `CodeFor` and `LocalNodeAfter` of C128 instead of the last function of the same names (Proof/AnyAbort) | `C129_machine_iff`, `C129_output`, `C129_orders`, `C129_homonyms_abort` (AnyAbort) |
| C13 | A start point keeps exactly the reachable functions | proved | `Filter` (main.rs:1067-1133) | invariant of the depth first search; renumbering of `retain_nodes` | `C13_start_keeps_reachable`, `C13_count` (Filter) |
| C130 | What the tool says when a run panics is the case, whatever the names of the functions | proved | as C114; `SaysNode` (Spec/AnyReport) | as C124, with the invariant of C129 for what the functions so far left at each node (Proof/AnyReport) | `C130_says_what_is`, `C130_figure_origin`, `C130_wrong_name` (AnyReport) |
| C131 | Which gaps and overrides are announced, whatever the names of the functions | proved | `runLog` and its parts (Model/Log); `CodeFor`, `LocalNodeAfter`, `JumpsOut` (Spec/AnyCode) | as C122, with the step and the invariant of C129 (Proof/AnyGaps) | `C131_gaps`, `C131_unknown_announced`, `C131_overrides`, `C131_wrong_warning` (AnyGaps) |
| C14 | A start point keeps exactly the calls among the reachable functions | proved | `Filter` (main.rs:1067-1133) | invariant of the depth first search; renumbering of `retain_nodes` | `C14_start_keeps_calls` (Filter) |
| C15 | A start point does not change any reported stack usage | proved | `Filter`, `Run` | the characterisation is kept by the restriction | `C15_max_unchanged`, `C15_printed_graph` (EndToEnd, Filter) |
| C16 | Start point resolution | proved | `Filter.resolveStart` | case analysis against a direct reading of the rules | `C16_start_resolution`, `C16_unfiltered` (Filter) |
| C17 | Components are processed callees first | proved | `PetGraph.kosaraju` | correctness of Kosaraju for the iterative depth first searches of petgraph | `C17_scc_order` (Analysis) |
| C18 | Hash removal is exact | proved | `Names` (main.rs:1488-1540) | string lemmas | `C18_dehash_exact`, `C18_dehash_none` (Names) |
| C19 | Shortening never confuses two hashed functions | proved | `Names.shortenNodes` (main.rs:1217-1226) | counting of names; witnesses for the failures | `C19_shortened_iff_unique`, `C19_no_hash`, `C19_no_confusion` (Names) |
| C20 | Shortening names never aborts | partial | `Names.shortenNodes` (main.rs:1217-1226) | counting of names; witnesses for the failures | `C20_shortening_can_abort`, `C20_run_aborts`, `C20_shortening_iff`, `C20_shortening_total_partial` (Names, TotalIff) |
| C21 | Outlined functions are recognised exactly | proved | `Names` (main.rs:1488-1540) | string lemmas | `C21_outlined` (Names) |
| C22 | The dot file represents the graph faithfully | proved | `Output.dotText` (main.rs:1236-1288) | an independent reader for dot text (`Spec/Dot`) reads the output back | `C22_dot_faithful`, `C22_dot_injective` (Output) |
| C23 | Labels cannot break out of their quotes | proved | `Output.dotText` (main.rs:1236-1288) | an independent reader for dot text (`Spec/Dot`) reads the output back | `C23_label_quoted` (Output) |
| C24 | The top listing is complete, sorted and stable | proved | `Output.topText` (main.rs:1290-1335) | permutation, sortedness and stability of the merge sort; uniqueness | `C24_complete`, `C24_sorted_stable`, `C24_stable_sort_unique`, `C24_top_faithful` (Output) |
| C25 | Aliases resolve to one node | proved | `Symbols` (main.rs:395-543) | fold invariants; witnesses for the provisos | `C25_aliases`, `C25_same_name_merged` (Symbols) |
| C26 | Clearing the thumb bit loses no function | proved | `Symbols` (main.rs:395-543) | fold invariants; witnesses for the provisos | `C26_thumb_bit`, `C26_remaining`, `C26_kept_iff`, `C26_collision` (Symbols, ThumbBit) |
| C27 | Version suffixes are stripped from undefined symbols | proved | `Symbols` (main.rs:395-543) | fold invariants; witnesses for the provisos | `C27_version_suffix`, `C27_two_separators` (Symbols) |
| C28 | One node per live function with its own stack size | proved | `Symbols` (main.rs:395-543) | fold invariants; witnesses for the provisos | `C28_one_node_per_function`, `C28_no_abort`, `C28_in_call_graph` (Symbols) |
| C29 | Every direct call between live functions is an edge | partial | `Build` (main.rs:545-763) | fold invariants over definitions and statements, in both directions | `C29_direct_calls_partial`, `C29_memcmp_alias_dropped` (Build) |
| C30 | Every edge is justified | proved | `Build` (main.rs:545-763) | fold invariants over definitions and statements, in both directions | `C30_edges_justified`, `C30_finished_graph` (Build) |
| C31 | Direct calls produce a single edge | proved | `Build` (main.rs:545-763) | fold invariants over definitions and statements, in both directions | `C31_single_edge`, `C31_single_edge_shared`, `C31_bitcast_duplicates`, `C31_bitcast_alias` (Build, SharedEdges) |
| C32 | Functions dropped by the linker contribute nothing | proved | `Build` (main.rs:545-763) | fold invariants over definitions and statements, in both directions | `C32_dropped_functions` (Build) |
| C33 | Intrinsics are never silently misread | proved | `Build` (main.rs:545-763) | fold invariants over definitions and statements, in both directions | `C33_known_or_abort`, `C33_no_effect`, `C33_no_node` (Build) |
| C34 | Memory intrinsics become calls to the memory routines | partial | `Build` (main.rs:545-763) | fold invariants over definitions and statements, in both directions | `C34_memory_partial`, `C34_edge_iff`, `C34_alias_not_found`, `C34_memmove_is_a_fill` (Build, Edges) |
| C35 | Calls to external functions make the max inexact | partial | `Build` (main.rs:545-763) | fold invariants over definitions and statements, in both directions | `C35_external_edge_partial`, `C35_external_inexact_partial`, `C35_external_memcmp` (Build) |
| C36 | Indirect calls reach every compatible live function | partial | `Build`, `Machine.addIndirects` (main.rs:955-1065) | invariant of the groups of signatures | `C36_indirect_complete_partial`, `C36_reached_iff`, `C36_second_type_dropped`, `C36_declared_formatter_dropped` (Indirect, IndirectIff) |
| C37 | Indirect calls reach nothing incompatible | proved | `Build`, `Machine.addIndirects` (main.rs:955-1065) | invariant of the groups of signatures | `C37_dashed_nodes` (Indirect) |
| C38 | Untyped symbols make indirect calls unbounded | partial | `Build`, `Machine.addIndirects` (main.rs:955-1065) | invariant of the groups of signatures | `C38_untyped_edge_partial`, `C38_unknown_iff`, `C38_untyped_inexact_partial`, `C38_unmatched_call_dropped` (Indirect, IndirectIff) |
| C39 | Loose signature equality | proved | `Types.looselyEqual` (ty.rs) | mutual induction over types | `C39_signatures`, `C39_types`, `C39_reflexive_symmetric`, `C39_not_transitive`, `C39_nested_pointers_differ` (Types) |
| C40 | The call graph does not depend on hash order | partial | `Build` (main.rs:545-763) | states up to order of edges; characterisation of the failing statement | `C40_order_iff`, `C40_order_independent_partial`, `C40_order_matters` (Build, Edges) |
| C41 | End to end stack bound | partial | `Run.finalGraph` | composition of C01, C29, C36, C50, C49 | `C41_reasons`, `C41_end_to_end_partial`, `C41_printed_locals_partial`, `C41_machine_code_partial`, `C41_with_start_partial`, `C41_bound_violated` (EndToEnd) |
| C42 | BL targets are decoded correctly | proved | `Thumb` (thumb.rs) | bit level lemmas for all encodings, against the fields of the manual (`Spec/Thumb`) | `C42_bl_targets`, `C42_bl_targets_all`, `C42_edges`, `C42_edges_shared` (SharedMachine, Thumb, ThumbAll) |
| C43 | B targets are decoded correctly | partial | `Thumb` (thumb.rs) | bit level lemmas for all encodings, against the fields of the manual (`Spec/Thumb`) | `C43_b_targets_partial`, `C43_t3_swapped`, `C43_targets_iff` (Thumb, ThumbAll) |
| C44 | Instruction boundaries follow the architecture | partial | `Thumb` (thumb.rs) | the patterns are characterised arithmetically (finite facts about all 256 bytes by kernel evaluation) and shown to cover the encodings of `Spec/Thumb`; induction over the instruction stream | `C44_instruction_sequence_partial`, `C44_narrow`, `C44_wide`, `C44_narrow_complete`, `C44_wide_complete`, `C44_wide_all`, `C44_width_iff`, `C44_never_aborts`, `C44_bkpt`, `C44_bkpt_hides_call` (Thumb, ThumbAll) |
| C45 | Literal pools are not decoded | partial | `Thumb` (thumb.rs) | the patterns are characterised arithmetically (finite facts about all 256 bytes by kernel evaluation) and shown to cover the encodings of `Spec/Thumb`; induction over the instruction stream | `C45_pools_iff`, `C45_literal_pools_partial`, `C45_bkpt_reads_pool` (Pools, Thumb) |
| C46 | Branch-free stack usage is the sum of the stack decrements | partial | `Thumb` (thumb.rs) | induction over the instruction stream | `C46_stack_sum_partial`, `C46_missed`, `C46_stmdb_without_writeback`, `C46_account`, `C46_exact_iff`, `C46_gives_up_iff`, `C46_modified_iff` (Thumb, ThumbAll) |
| C47 | Modified immediates are expanded as in the manual | partial | `Thumb` (thumb.rs) | bit level lemmas for all encodings, against the fields of the manual (`Spec/Thumb`) | `C47_expand_partial`, `C47_expand_wrong`, `C47_wrong_in_function` (Thumb) |
| C48 | Returns are not indirect calls | proved | `Thumb` (thumb.rs) | induction over the instruction stream | `C48_indirect`, `C48_indirect_all` (Thumb, ThumbAll) |
| C49 | Branches out of a function are calls, branches inside are not | proved | `Machine` (main.rs:766-953) | fold invariants over the live functions | `C49_jumps_are_calls`, `C49_unknown_target_aborts`, `C49_edges_justified`, `C49_jumps_are_calls_shared` (Machine, SharedMachine) |
| C50 | When LLVM's stack figure is overridden | proved | `Machine` (main.rs:766-953) | fold invariants over the live functions | `C50_override_policy`, `C50_in_call_graph` (Machine) |
| C51 | Indirect calls in functions without LLVM-IR make the max inexact | proved | `Machine` (main.rs:766-953) | fold invariants over the live functions | `C51_indirect_without_ir`, `C51_indirect_without_ir_shared` (Machine, SharedMachine) |
| C52 | Types print and parse back | proved | `Ir`, `Types.show` | mutual induction over types, print/parse round trip | `C52_print_parse`, `C52_written_types`, `C52_parsed_wf`, `C52_void_function_output` (Parse) |
| C53 | Distinct signatures have distinct labels | proved | `Ir`, `Types.show` | mutual induction over types, print/parse round trip | `C53_distinct_labels`, `C53_parsed`, `C53_quotes` (Parse) |
| C54 | No call statement is silently dropped | proved | `IrItem.stmtP` | every parser that succeeds covers its text; case analysis on alternatives | `C54_nothing_skipped`, `C54_call_recorded`, `C54_direct_name` (ParseModule) |
| C55 | Parse errors name the right line | proved | `IrItem.parseIr` (ir.rs:18-60) | induction over lines | `C55_error_line` (Parse) |
| C56 | Parsers always terminate and only consume | proved | `Nom`, `Ir`, `IrItem` | every parser returns a suffix; fuel is never exhausted | `C56_sound`, `C56_file`, `C56_type_recursion` (Parse) |
| C57 | Function definitions are read back correctly | proved | `IrItem` | an independent grammar (`Spec/IrText`, `Spec/IrModule`); every text of the grammar is read as what it denotes | `C57_define_reads_back`, `C57_unambiguous` (ParseModule) |
| C58 | A module is read back item by item | proved | `IrItem` | an independent grammar (`Spec/IrText`, `Spec/IrModule`); every text of the grammar is read as what it denotes | `C58_module_reads_back`, `C58_unambiguous` (ParseModule) |
| C59 | The rustc wrapper forwards the command line unchanged | proved | `Wrapper` (wrapper.rs) | induction over the arguments against a grammar of rustc options (`Spec/Driver`) | `C59_wrapper_status`, `C59_started_iff`, `C59_forwards_arguments`, `C59_nothing_lost`, `C59_queries_refused` (Driver, WrapperArgs, WrapperStatus) |
| C60 | Compiler arguments are understood like rustc does | partial | `Wrapper` (wrapper.rs) | induction over the arguments against a grammar of rustc options (`Spec/Driver`) | `C60_understood_partial`, `C60_accepted_iff`, `C60_refused_iff`, `C60_read_once`, `C60_failures`, `C60_other_forms` (Driver, WrapperArgs) |
| C61 | The marker protocol transports the paths | proved | `Wrapper`, `Driver.readStderr` (main.rs:234-260) | induction over lines | `C61_announcements_arrive`, `C61_wrapper_announces`, `C61_wrapper_lines` (Driver, WrapperArgs) |
| C62 | The newest matching IR file is analysed | proved | `Driver.selectLl` (main.rs:271-309) | fold invariant | `C62_newest_file`, `C62_object_file` (Driver) |
| C63 | Unsupported toolchains are refused | proved | `Driver.startup` (main.rs:103-128) | decision table | `C63_toolchain_gate` (Driver) |
| C64 | The cargo invocation reflects the arguments | proved | `Driver.cargoArgs` (main.rs:130-206) | the arguments are read back by a reader of cargo's options (`Spec/Driver`) | `C64_one_file`, `C64_cargo_request`, `C64_no_std` (Driver) |
| C65 | Definitions are merged with last-wins | proved | `Driver.loadProgram` (main.rs:323-418) | fold invariants | `C65_merged`, `C65_builtins_win` (Driver) |
| C66 | A start point selects the function it names | partial | `Filter.resolveStart` | witness; the partial theorem by the form of hashes | `C66_wrong_start`, `C66_hidden`, `C66_selected_iff`, `C66_start_is_named_partial` (Filter) |
| C67 | Different live functions are shown under different names | partial | `Names.shortenNodes` (main.rs:1217-1226) | counting of names; witnesses for the failures | `C67_display_collision`, `C67_same_name_iff`, `C67_names_distinct_partial` (Names) |
| C68 | Any symbol name whatsoever yields a well-formed dot file | partial | `Output.dotText` (main.rs:1236-1288) | an independent reader for dot text (`Spec/Dot`) reads the output back | `C68_backslash_breaks_quotes`, `C68_faithful_iff` (Output) |
| C69 | The LLVM-IR pass aborts exactly for the documented reasons | partial | `Build` (main.rs:545-763) | states up to order of edges; characterisation of the failing statement | `C69_no_abort_iff`, `C69_no_abort_only_if`, `C69_no_abort_if_partial`, `C69_memcmp_abort` (Build) |
| C70 | No invoke statement is silently dropped | partial | `IrItem.stmtP` | every parser that succeeds covers its text; case analysis on alternatives | `C70_invoke_recorded_partial`, `C70_invoke_dropped`, `C70_assembly_dropped`, `C70_dropped_iff`, `C70_invoke_iff` (ParseModule, ParseSound) |
| C71 | The analysis is made for the target the program is built for | partial | `Driver.analysedTarget` (main.rs:143, 353) | case analysis; witness | `C71_same_target_partial`, `C71_same_target_iff`, `C71_flag_overridden` (Driver) |
| C72 | Stack sizes come from the application object and the compiler_builtins objects, last wins | proved | `Driver.loadProgram` (main.rs:323-418) | fold invariants | `C72_sizes` (Driver) |
| C73 | From the files to the printed bound | partial | `Driver.runFiles` | composition of C58, C65, C72, C41 | `C73_from_files_partial` (Driver) |
| C74 | The machine code pass aborts exactly for the documented reasons | proved | `Machine` (main.rs:765-950) | progress and preservation for the loop over the symbols: what one symbol needs does not change while others are processed | `C74_machine_abort_iff`, `C74_reasons` (Abort) |
| C75 | A run on acceptable input ends with output | proved | `Run` (main.rs:420-1233) | composition of C69, C74, C06, C15 and C20; the sum of all figures bounds every sum in the analysis; the exact conditions, without and with a start point, from C06_abort_iff and C20_shortening_iff, carried over to the kept part by the embedding of C15 | `C75_run_ends_with_output`, `C75_graph_iff`, `C75_output_iff`, `C75_output_start_iff`, `C75_output_only_if` (Total, TotalIff) |
| C76 | The printed figures do not depend on hash map orders | partial | `Run` (main.rs:420-1233) | the maxima of live functions are determined by the calls between live functions, directly or through one other node (`Proof/Live`); these calls are described by the program alone (`Proof/HashOrder`); for every type that may be chosen an order is constructed that starts with it, which gives the exact condition (`Props/Choices`) | `C76_order_irrelevant_partial`, `C76_figures_iff`, `C76_every_choice`, `C76_void_order_matters` (Choices, HashOrder) |
| C77 | The exit status tells whether there is a result | proved | `Tool.tool`, `Tool.afterBuild` (main.rs:84-1233) | case analysis of every early end; C61 to C65 for the choice of files; both directions, the environment described without the functions of the model | `C77_exit_status`, `C77_no_result`, `C77_build_failure`, `C77_not_announced`, `C77_request` (Tool) |
| C78 | The touched source file belongs to the program that is rebuilt | partial | `Tool.touch` (main.rs:209-228) | induction on the walk through the directory; witness | `C78_touched`, `C78_triggers_iff`, `C78_triggers_partial`, `C78_other_touched` (Tool) |
| C79 | From the command line to the number that is read | partial | `Tool.tool` | composition of C77, C65, C41 and C22 | `C79_from_command_line_partial` (Tool) |
| C80 | The MAX line of the top listing bounds the stack usage | partial | `Run.runText`, `Output.topText` (main.rs:1290-1335) | composition of C41 and C24; witnesses | `C80_max_line_partial`, `C80_covers_iff`, `C80_lower_bound_hidden`, `C80_recursion_hidden` (Need, Top) |
| C81 | Functions without a size in the symbol table are analysed | partial | `Machine.symSize`, `Machine.machinePass` (main.rs:773-820) | mapping symbols and sizes specified in `Spec.Code` and shown equal to the computed ones (insertion sort is stable and sorts); C49, C50; witness | `C81_without_size_partial`, `C81_size_iff`, `C81_calls_hidden`, `C81_understates` (CodeSize) |
| C82 | A maximum is shown as soon as some usage is known | partial | `Run.finalGraph`, `Analysis.analyzeMax` | invariant of the symbol pass: the flag is set iff some frame is reported; C06; witness | `C82_shown_iff`, `C82_shown_if_known_partial`, `C82_not_shown` (Shown) |
| C83 | Good input leads to status 0 | proved | `Tool.tool` | composition of C77, C58 and C75 | `C83_result` (Tool) |
| C84 | One node per type of an indirect call | proved | `Build.addIndirects` (main.rs:955-1065), `Symbols.symPass` (main.rs:514-542) | exact form of the loop over the signatures; the registered types and the chosen type specified from the symbol table (`Spec.Indirect`) | `C84_indirect_nodes` (IndirectExact) |
| C85 | The figures are determined by the program | proved | `finalGraph` (main.rs:380-1233) | `Spec.Figures` describes calls, exits and local usage from the program alone; the edges of the graph between live functions, through nodes for indirect calls, are shown to be exactly these, and heaviest chains are carried over | `C85_figures` (Figures) |
| C86 | Gaps in the input are announced | proved | `Log.runLog`: each pass has a companion that yields its messages (all `warn!` and `error!` of main.rs) | each companion is shown to log exactly what `Spec.Log` and the vocabulary of C85 describe; invariants of the passes | `C86_gaps_announced` (Log) |
| C87 | Overridden figures are announced | proved | `Log.overrideLog`, `Log.machineLoopLog` (main.rs:796-912) | cases of the rule for local usage (C50), of which exactly two change the figure | `C87_overrides_announced` (Log) |
| C88 | Assumptions are announced once | proved | `Log.definesLog` (main.rs:551-763) with the set `llvm_seen` | invariant over all statements: messages against the sets of what was seen before and after | `C88_assumptions_announced` (Log) |
| C89 | Lower bounds are explained | partial | `Log.runLog`, `Run.finalGraph` | C85 with C86 and C88; witness | `C89_lower_bounds_explained_partial`, `C89_silent` (LogEnd) |
| C90 | The start point selects as announced | proved | `Log.startLog`, `Filter.applyStart` (main.rs:1067-1133) | C15 and C16 for whole runs; names of nodes are proved distinct and described by `Shown` | `C90_start_announced`, `C90_start` (LogEnd) |
| C91 | Missing figures are announced | proved | `Log.runLog` (main.rs:1135-1138) | the flag is set iff some frame is reported; C82 | `C91_no_figures`, `C91_no_maxima` (LogEnd) |
| C92 | Indirect calls without callees are announced | proved | `Log.indirectStepLog` (main.rs:1014-1060) | candidates of C85: empty only for the chosen type without defined formatting functions | `C92_no_callees` (LogEnd) |
| C93 | The figure found in machine code bounds every execution | partial | `Thumb.analyze` (thumb.rs:6-570) | `Spec.ThumbRun` says what each instruction of the architecture does to SP and PC; invariant of all executions: the depth is at most what the instructions before the current offset take, since without branches into itself a function only moves forward; the exact conditions follow since after an instruction that sets SP from elsewhere any depth is possible; witnesses | `C93_figure_bounds_executions_partial`, `C93_untouched_partial`, `C93_bounds_iff`, `C93_untouched_iff`, `C93_attained`, `C93_big_frames`, `C93_big_frame_unnoticed`, `C93_computed_jumps` (ThumbRun) |
| C94 | The printed maximum bounds the stack in every execution of the program | partial | `Run.finalGraph` (main.rs:380-1233), `Thumb.analyze` | `Spec.Exec` has the executions of a program as sequences of steps on stacks of activations; invariant: the activations form a call chain of C41 and each is bounded by C93; indirect calls without LLVM-IR contradict an exact figure by C51; witnesses | `C94_reasons`, `C94_executions_bounded_partial`, `C94_with_start_partial`, `C94_bound_exceeded`, `C94_big_frames_refused` (Exec, Start) |
| C95 | Fixed width arithmetic makes no difference | proved | `Words.machinePassW`, `Release.runTextW` (main.rs:766-953, 1135-1215, thumb.rs) | each operation of the decoder shown to stay in its type (bounds on offsets, addresses and the stack counter as invariants of the loop); the sums of the analysis by C06; witnesses that both limits are needed | `C95_machine_words`, `C95_checked`, `C95_release`, `C95_same_output`, `C95_word`, `C95_crossing`, `C95_sum_wraps` (Release) |
| C96 | What a start point shows | proved | `Filter.applyStart`, `Run.finalGraph` (main.rs:1067-1215) | C15 for the printed graph; reachability in the graph shown equal to reachability by the calls of C85 | `C96_start_figures` (Start) |
| C97 | Thumb programs are analysed as such | partial | `Symbols.targetOf`, `Driver.buildProgram` (main.rs:353-375) | case analysis on the name of the target; witness: one program for ARMv7-M and ARMv8-M | `C97_thumb_analysed_partial`, `C97_machine_targets`, `C97_other_thumb` (Targets) |
| C98 | The name shown for a function | proved | `Names.shortenNodes`, `Run.finalGraph` (main.rs:506-509, 1217-1226) | C19 with the list of live functions identified with the names of the program; analysis keeps names | `C98_displayed`, `C98_outside_same_name` (Displayed) |
| C99 | From the command line to the executions | partial | `Tool.tool` (main.rs:94-1233) | C77 for the inputs, C22 for reading the output, C98 for the name, C94 for the bound | `C99_command_line_to_executions_partial` (ToolExec) |

## Findings

Defects of the code found while proving. Each has a theorem with a concrete witness unless noted.

Analysis and names
* Adding a call can lower the printed `max` of a function (C12: `>=` figures are not comparable).
* If two types have names starting with `core::fmt::Void`, such as `core::fmt::Void` and `core::fmt::Void.5`, a
  hash order decides which is taken for the type of formatted values; the same program is printed with
  `max = 408` or `max = 24` (C76).
* `--start` can select another function than the one named, if a name continues with `::h` and no hash, or none
  although there is exactly one function of that path (C66).
* Different functions can be shown under the same name (C67). A name with one hash can abort the shortening (C20).
* A function outside the program is shown under the path of its name if exactly one live function has this path: both
  then look the same (C98).
* The listing of `--format top` prints lower bounds as if they were maxima, and unknown usages as 0 (C80).
* Backslashes in symbol names are not escaped in dot output: such names are never shown correctly (C68).
* An `OUTLINED_FUNCTION_+1` is taken for an outlined function, because `u64::parse` accepts a sign (C21).

Symbols
* Calls and figures of all functions of the same name go to the node of the last one (C25, C28, C115). For functions of
  the outliner, which are called `OUTLINED_FUNCTION_0` and so on in every object file, the figures are not compared, and
  the printed `max` can be too small (C115). The same holds for a function that branches into itself and has no figure in
  `.stack_sizes`: the figure of another function of its name is taken for it (C116). The nodes of the others have no outgoing edges: of several
  nodes with the same label only the last one shows the calls and a sound `max` (`C115_shadowed_max_violated`). Other
  functions of the same name that are not in `.stack_sizes`, say local functions of two assembly files, abort the tool if
  their stack use differs, with a message that blames LLVM (`C121_twins_abort`). All
  but the last of them are shown with an unknown usage if the compiler has no figure, without any warning
  (`C122_hidden_silent`), and the message about an override can attribute to LLVM a figure that was found in the code of
  another function of the name (`C122_figure_misattributed`). If functions share only some of
  their names, a figure of one can stand for the other (`C117_bound_violated`: 16 printed, 72 used). Two symbols whose addresses differ only in the thumb
  bit: one is lost (C26). Names with two `@@` keep only the middle part (C27).
* `compiler_builtins` definitions replace the application's (C65); intended.

LLVM-IR pass
* A call of `memcmp` is dropped if `memcmp` is only an alias (C29), and an undefined `memcmp` is not marked as external
  (C35); whether an unknown one aborts depends on hash order (C69).
* Calls through bitcasts give duplicate edges and ignore aliases (C31).
* Memory intrinsics do not find routines that are only aliases, and `memmove` intrinsics are taken for `memset` (C34).
  The routines for doublewords (`__aeabi_memcpy8` and so on) are not looked for; a printed maximum is then too small (C104).
* A function that has two types (folded functions) is only considered for one of them (C36); declared-only formatters are
  not considered at all. Indirect calls whose signature no function has are dropped silently (C38).
* Therefore a printed exact `max` can be too small (C41).
* Loose equality of signatures is not transitive (C39), and the graph can depend on hash order (C40).
* Direct calls of functions that are not in the executable make a maximum a lower bound without any message, unlike calls
  through casts; so does recursion (C89).
* On a thumb target without a code section, functions of unknown usage are not listed (C86).

Machine code
* The offset bits J1 and J2 of the conditional 32-bit branch are swapped (C43).
* The pattern for BKPT has a typo; a BKPT is taken for half of a 32-bit instruction, and what follows is misread (C44,
  C45).
* SUBW, STRD, STRB and STRH with writeback of `sp` are ignored; STMDB without writeback is counted (C46).
* Constants of the form `00XY00XY` are expanded wrongly (C47).
* `add sp, rN` is ignored. Compilers use it on ARMv6-M for frames of more than 508 bytes: with a figure from the compiler
  the tool aborts (C94), without one the figure is too small, possibly 0 (C93).
* `mov pc, rN`, `add pc, rN` and loads to PC are ignored: loops that they make go unnoticed (C93).
* `sub sp, #0` counts as a change of `sp` and can abort at main.rs:829. Two consecutive `$d` tags and code symbols
  outside `.text` abort, and so does a mapping symbol that comes first among the names of a function (C74).
* An assembly routine without size whose code is followed by a literal pool, or by nothing, is taken to be empty: it is
  shown with 0 bytes and no calls, and maxima of its callers are too small (C81).
* If all figures come from the machine code, no maximum is shown (C82).
* Two different checks (main.rs:873 and 882) fail with the same text, so that one cannot tell whether the code has
  another figure or none; the `not` in the text of main.rs:829 never appears (C114).

Parser
* A `void` function that is output of a function type is printed but not read back (C52).
* If two functions without figures of the compiler have the same name, the abort about the second says that LLVM
  reported the figure that was found in the code of the first (C124, `C124_llvm_misquoted`).
* If two functions share one of their names, only the later one gets the calls of a definition of this name, and all calls
  of this name; the maximum of the earlier one does not count them, even if it is shown as exact (C125, `C125_call_lost`, C127,
  `C127_too_low`).
* If two functions have the same first symbol name but are shown under different ones, the machine code of both counts for
  the later one, while calls by address of the earlier one still go to the earlier one. An unknown call in its code is
  then missing from the figures of its callers, which are shown as exact (C128, `C128_unknown_lost`). The
  code of the earlier one is compared with the figure of the later one, which can stop the tool although nothing is wrong
  with either (C129, `C129_homonyms_abort`); the message then names the later one (C130, `C130_wrong_name`), as
  does the warning about an indirect call in the code of the earlier one (C131, `C131_wrong_warning`).
* An `invoke` of a casted function or with an unknown attribute is dropped silently (C70). So is inline assembly
  that may unwind (`invoke`) or jump (`callbr`); the function then counts as one without inline assembly.
* A line such as `  ret i8 %a(i8 0)` would be recorded as an indirect call although the word `call` is missing: the words before the type are read as attributes (example beside `C106_file`). LLVM prints no such line.
* Not supported, with a loud failure: quoted local names, `poison`, `zeroinitializer` and floating point arguments,
  `half`, `addrspace(1)` pointers, aliases of constant expressions, two line breaks before `}`.

Driver
* With overflow checks, a jump across address 2^31 ends the tool with a panic; a release build handles it right. Chains of
  2^64 bytes are reported too small by a release build (C95).
* Compiler queries without `--crate-name` are refused by the wrapper (C59).
* Joined long options, `--codegen`, `priv,noprelude:` and underscored names of options are overlooked (C60).
* A marker that is not at the start of a line is missed and the tool aborts (C61).
* With both a configured target and `--target`, the analysis is made for the former, the build for the latter (C71).
* Programs for ARMv8-M (`thumbv8m.*`) are not decoded: calls inserted by the compiler, which are not in the LLVM-IR, are
  overlooked and maxima are too small (C97).
* With `--example`, `src/main.rs` is touched if it exists, so that cargo need not compile the example again; the same for
  other binaries than the one in `src/main.rs` (C78).

## Axioms

As printed by `#print axioms` for the theorems in `MANIFEST.json`.

* **Classical.choice, Quot.sound, propext** (357): `C01_exact_max_sound`, `C02_exact_max_attained`, `C03_lower_bound_genuine`, `C04_exact_iff`, `C05_heaviest`, `C06_abort_iff`, `C06_covers`, `C06_only_overflow`, `C06_total`, `C07_order_independent`, `C08_agree`, `C08_branch`, `C09_clusters`, `C100_loaded`, `C101_command_line_to_figures`, `C102_command_line_to_listing`, `C103_edges`, `C103_edges_unordered`, `C103_live_edges`, `C103_nodes`, `C104_bound_violated`, `C104_closed_partial`, `C104_executions_partial`, `C104_from_command_line_partial`, `C104_reasons`, `C104_with_start_partial`, `C105_local`, `C105_one_frame`, `C105_reported`, `C106_direct_call`, `C106_file`, `C106_types`, `C106_types_iff`, `C106_types_unique`, `C107_from_command_line`, `C107_mark`, `C108_errors`, `C108_lines_mean`, `C109_attained`, `C109_from_command_line_partial`, `C109_from_command_line_shared_partial`, `C109_interrupts_ir_partial`, `C109_interrupts_ir_shared_partial`, `C109_interrupts_partial`, `C109_interrupts_shared_partial`, `C109_ir_from_command_line_partial`, `C109_ir_from_command_line_shared_partial`, `C109_main_alone_exceeded`, `C109_reasons`, `C109_reasons_ir`, `C109_reasons_ir_shared`, `C109_reasons_shared`, `C110_roots`, `C111_readme`, `C111_recursion`, `C112_error_reported`, `C112_names_line`, `C112_passed_on`, `C112_standard_error`, `C113_full_device`, `C114_compiler_figure`, `C114_never_not`, `C114_says_what_is`, `C114_texts`, `C115_agree`, `C115_bound_partial`, `C115_bound_violated`, `C115_callee_last`, `C115_calls`, `C115_dashed_nodes`, `C115_edges_justified`, `C115_figure`, `C115_shadowed`, `C115_shadowed_max`, `C115_shadowed_max_violated`, `C116_executions_bounded_partial`, `C116_from_command_line_partial`, `C116_loop_unnoticed`, `C116_reasons`, `C116_with_start_partial`, `C117_bound_violated`, `C117_closed`, `C117_executions_partial`, `C117_from_command_line_partial`, `C117_reasons`, `C117_with_start_partial`, `C118_addresses`, `C118_assertions_hold`, `C118_same`, `C119_command_line`, `C119_covers_iff`, `C119_figures`, `C119_hidden`, `C119_listing`, `C119_mark`, `C119_mark_command_line`, `C119_names_once`, `C119_recursion`, `C119_roots`, `C119_start_figures`, `C11_no_overflow`, `C120_every_choice`, `C120_frames`, `C120_orders`, `C120_orders_iff`, `C120_reported`, `C120_unchanged`, `C121_ir_iff`, `C121_machine_iff`, `C121_orders`, `C121_output`, `C121_twins_abort`, `C122_assumptions`, `C122_errors`, `C122_figure_misattributed`, `C122_gaps`, `C122_hidden_silent`, `C122_lines`, `C122_lower_bounds_explained_partial`, `C122_no_callees`, `C122_overrides`, `C122_unknown_announced_partial`, `C123_indirect_nodes`, `C123_reached_iff`, `C123_unknown_iff`, `C124_figure_origin`, `C124_llvm_misquoted`, `C124_says_what_is`, `C124_without_code`, `C125_call_lost`, `C125_edges`, `C125_hidden`, `C125_live_edges`, `C125_nodes`, `C126_indirect_nodes`, `C126_reached_iff`, `C126_unknown_iff`, `C127_alike`, `C127_command_line`, `C127_figures`, `C127_mark`, `C127_orders`, `C127_recursion`, `C127_start_figures`, `C127_too_low`, `C128_alike`, `C128_command_line`, `C128_figures`, `C128_mark`, `C128_orders`, `C128_recursion`, `C128_start_figures`, `C128_unknown_lost`, `C129_homonyms_abort`, `C129_machine_iff`, `C129_orders`, `C129_output`, `C12_monotone`, `C130_figure_origin`, `C130_says_what_is`, `C130_wrong_name`, `C131_gaps`, `C131_overrides`, `C131_unknown_announced`, `C131_wrong_warning`, `C13_count`, `C13_start_keeps_reachable`, `C14_start_keeps_calls`, `C15_max_unchanged`, `C15_printed_graph`, `C17_scc_order`, `C19_no_confusion`, `C19_shortened_iff_unique`, `C20_run_aborts`, `C20_shortening_iff`, `C20_shortening_total_partial`, `C21_outlined`, `C24_sorted_stable`, `C24_stable_sort_unique`, `C25_aliases`, `C25_same_name_merged`, `C26_kept_iff`, `C26_remaining`, `C26_thumb_bit`, `C27_version_suffix`, `C28_in_call_graph`, `C28_no_abort`, `C28_one_node_per_function`, `C29_direct_calls_partial`, `C29_memcmp_alias_dropped`, `C30_edges_justified`, `C30_finished_graph`, `C31_single_edge`, `C31_single_edge_shared`, `C32_dropped_functions`, `C33_known_or_abort`, `C33_no_effect`, `C33_no_node`, `C34_alias_not_found`, `C34_edge_iff`, `C34_memmove_is_a_fill`, `C34_memory_partial`, `C35_external_edge_partial`, `C35_external_inexact_partial`, `C35_external_memcmp`, `C36_declared_formatter_dropped`, `C36_indirect_complete_partial`, `C36_reached_iff`, `C36_second_type_dropped`, `C37_dashed_nodes`, `C38_unknown_iff`, `C38_unmatched_call_dropped`, `C38_untyped_edge_partial`, `C38_untyped_inexact_partial`, `C39_reflexive_symmetric`, `C39_signatures`, `C39_types`, `C40_order_iff`, `C40_order_independent_partial`, `C41_bound_violated`, `C41_end_to_end_partial`, `C41_machine_code_partial`, `C41_printed_locals_partial`, `C41_reasons`, `C41_with_start_partial`, `C42_bl_targets`, `C42_bl_targets_all`, `C42_edges`, `C42_edges_shared`, `C43_b_targets_partial`, `C43_t3_swapped`, `C43_targets_iff`, `C44_instruction_sequence_partial`, `C44_narrow`, `C44_narrow_complete`, `C44_never_aborts`, `C44_wide_all`, `C44_wide_complete`, `C44_width_iff`, `C45_bkpt_reads_pool`, `C45_literal_pools_partial`, `C45_pools_iff`, `C46_account`, `C46_exact_iff`, `C46_gives_up_iff`, `C46_missed`, `C46_modified_iff`, `C46_stack_sum_partial`, `C46_stmdb_without_writeback`, `C48_indirect`, `C48_indirect_all`, `C49_edges_justified`, `C49_jumps_are_calls`, `C49_jumps_are_calls_shared`, `C49_unknown_target_aborts`, `C50_in_call_graph`, `C51_indirect_without_ir`, `C51_indirect_without_ir_shared`, `C52_parsed_wf`, `C52_print_parse`, `C52_void_function_output`, `C52_written_types`, `C53_distinct_labels`, `C53_parsed`, `C54_call_recorded`, `C54_direct_name`, `C54_nothing_skipped`, `C55_error_line`, `C56_file`, `C56_sound`, `C56_type_recursion`, `C57_define_reads_back`, `C57_unambiguous`, `C58_module_reads_back`, `C58_unambiguous`, `C62_newest_file`, `C62_object_file`, `C64_no_std`, `C65_builtins_win`, `C65_merged`, `C67_names_distinct_partial`, `C67_same_name_iff`, `C69_no_abort_if_partial`, `C69_no_abort_iff`, `C69_no_abort_only_if`, `C70_dropped_iff`, `C70_invoke_iff`, `C70_invoke_recorded_partial`, `C73_from_files_partial`, `C74_machine_abort_iff`, `C74_reasons`, `C75_graph_iff`, `C75_output_iff`, `C75_output_only_if`, `C75_output_start_iff`, `C75_run_ends_with_output`, `C76_every_choice`, `C76_figures_iff`, `C76_order_irrelevant_partial`, `C76_void_order_matters`, `C77_exit_status`, `C77_no_result`, `C77_not_announced`, `C78_other_touched`, `C78_touched`, `C78_triggers_iff`, `C78_triggers_partial`, `C79_from_command_line_partial`, `C80_covers_iff`, `C80_lower_bound_hidden`, `C80_max_line_partial`, `C80_recursion_hidden`, `C81_calls_hidden`, `C81_size_iff`, `C81_understates`, `C81_without_size_partial`, `C82_not_shown`, `C82_shown_if_known_partial`, `C82_shown_iff`, `C83_result`, `C84_indirect_nodes`, `C85_figures`, `C86_gaps_announced`, `C87_overrides_announced`, `C88_assumptions_announced`, `C89_lower_bounds_explained_partial`, `C89_silent`, `C90_start`, `C90_start_announced`, `C91_no_figures`, `C91_no_maxima`, `C92_no_callees`, `C93_attained`, `C93_big_frame_unnoticed`, `C93_big_frames`, `C93_bounds_iff`, `C93_computed_jumps`, `C93_figure_bounds_executions_partial`, `C93_untouched_iff`, `C93_untouched_partial`, `C94_big_frames_refused`, `C94_bound_exceeded`, `C94_executions_bounded_partial`, `C94_reasons`, `C94_with_start_partial`, `C95_checked`, `C95_crossing`, `C95_machine_words`, `C95_release`, `C95_same_output`, `C95_sum_wraps`, `C95_word`, `C96_start_figures`, `C97_other_thumb`, `C98_displayed`, `C98_outside_same_name`, `C99_command_line_to_executions_partial`
* **Quot.sound, propext** (50): `C108_texts_differ`, `C109_levels`, `C10_max`, `C10_perm`, `C111_readme_deep`, `C112_same_end`, `C112_texts_differ`, `C113_panic_silent`, `C113_write_errors`, `C114_same_runs`, `C121_no_code_iff`, `C128_quiet`, `C16_start_resolution`, `C18_dehash_exact`, `C18_dehash_none`, `C19_no_hash`, `C22_dot_faithful`, `C22_dot_injective`, `C23_label_quoted`, `C24_top_faithful`, `C40_order_matters`, `C44_bkpt`, `C44_bkpt_hides_call`, `C44_wide`, `C47_expand_partial`, `C47_expand_wrong`, `C47_wrong_in_function`, `C50_override_policy`, `C59_forwards_arguments`, `C59_started_iff`, `C59_wrapper_status`, `C60_accepted_iff`, `C60_failures`, `C60_read_once`, `C60_refused_iff`, `C60_understood_partial`, `C61_announcements_arrive`, `C61_wrapper_announces`, `C61_wrapper_lines`, `C64_cargo_request`, `C66_hidden`, `C66_selected_iff`, `C66_start_is_named_partial`, `C68_faithful_iff`, `C69_memcmp_abort`, `C72_sizes`, `C77_build_failure`, `C77_request`, `C97_machine_targets`, `C97_thumb_analysed_partial`
* **propext** (17): `C06_no_info`, `C112_names_file`, `C12_adding_a_call_can_lower`, `C16_unfiltered`, `C27_two_separators`, `C31_bitcast_alias`, `C31_bitcast_duplicates`, `C39_nested_pointers_differ`, `C39_not_transitive`, `C59_nothing_lost`, `C63_toolchain_gate`, `C64_one_file`, `C66_wrong_start`, `C67_display_collision`, `C68_backslash_breaks_quotes`, `C70_assembly_dropped`, `C70_invoke_dropped`
* **no axioms** (9): `C20_shortening_can_abort`, `C24_complete`, `C26_collision`, `C53_quotes`, `C59_queries_refused`, `C60_other_forms`, `C71_flag_overridden`, `C71_same_target_iff`, `C71_same_target_partial`
