{"id": "C01", "title": "An exact max is an upper bound of every call chain", "statement": "If the tool prints `max = n` for a function, then for every chain of calls that starts at that function and follows edges of the printed graph, of any length and with any amount of recursion, the sum of the local stack usages printed along the chain is known and at most n.", "quantifier": "every finite call graph with every assignment of known/unknown local usages, every function in it, every (unbounded) call chain from it", "why_tests_cant": "call chains are unbounded when the graph has cycles and graphs are unbounded; tests only see a few firmware examples", "anchors": ["src/main.rs: run (max stack usage analysis, lines 1135-1215)", "src/main.rs: max_of, max, ops::Add"]}
{"id": "C02", "title": "An exact max is attained", "statement": "If the tool prints `max = n` for a function, some call chain starting at that function in the printed graph has local usages that sum to exactly n (the bound is not pessimistic).", "quantifier": "every finite call graph, every function whose max is exact", "why_tests_cant": "tightness must be shown for every graph shape, not for sampled shapes", "anchors": ["src/main.rs: run lines 1135-1215"]}
{"id": "C03", "title": "A lower-bound max is a genuine lower bound", "statement": "If the tool prints `max >= n` for a function, some call chain starting at that function in the printed graph already uses at least n bytes of known local stack (unknown usages counted as 0).", "quantifier": "every finite call graph, every function whose max is a lower bound", "why_tests_cant": "requires an existence proof through arbitrary nested recursion", "anchors": ["src/main.rs: run lines 1142-1197"]}
{"id": "C04", "title": "`=` is printed exactly when the usage is bounded and known", "statement": "A function's max is printed with `=` if and only if every function reachable from it has a known local usage and every reachable function that can (transitively) call itself uses 0 bytes locally; otherwise it is printed with `>=`.", "quantifier": "every finite call graph, every function", "why_tests_cant": "an iff over all reachable sets and all cycles", "anchors": ["src/main.rs: run lines 1152-1181", "src/main.rs: impl Into<Max> for Local"]}
{"id": "C05", "title": "The printed number is the heaviest chain across distinct recursion groups", "statement": "For both `=` and `>=`, the printed number is the maximum, over all sequences of functions reachable one after another from the function and belonging to pairwise different recursion groups (strongly connected components), of the sum of their known local usages.", "quantifier": "every finite call graph, every function", "why_tests_cant": "the maximum ranges over exponentially many sequences", "anchors": ["src/main.rs: run lines 1135-1215"]}
{"id": "C06", "title": "The max analysis never aborts and covers every function", "statement": "Whenever at least one function has stack usage information the analysis terminates without hitting any of its internal `expect(\"UNREACHABLE\")` panics, and it assigns a max to every node of the graph unless the heaviest chain from some function does not fit in 64 bits (then, and only then, a build with overflow checks stops at an addition); when no function has information it assigns a max to none of them and reports no cycles.", "quantifier": "every finite call graph", "why_tests_cant": "absence of panics and termination for all graphs cannot be sampled", "anchors": ["src/main.rs: run lines 1135-1215"]}
{"id": "C07", "title": "The max analysis does not depend on insertion order", "statement": "Two runs whose graphs have the same functions, local usages and calls, but whose nodes and edges were inserted in a different order (hash map iteration order varies from run to run), give every function the same max.", "quantifier": "every pair of finite graphs related by a renumbering of nodes that preserves local usages and the call relation", "why_tests_cant": "hash order is random per process; a test sees one order at a time", "anchors": ["src/main.rs: run lines 552-764, 1011-1065, 1135-1215"]}
{"id": "C08", "title": "The recursive and the non-recursive algorithm agree", "statement": "On a program without recursion the strongly-connected-component algorithm and the reverse topological algorithm compute the same max for every function; the cyclic path is taken exactly when some function can transitively call itself.", "quantifier": "every finite call graph", "why_tests_cant": "two algorithms must agree on all acyclic graphs", "anchors": ["src/main.rs: run lines 1138-1215", "petgraph::algo::is_cyclic_directed, Topo, kosaraju_scc"]}
{"id": "C09", "title": "Cycle clusters are exactly the recursion groups", "statement": "The clusters drawn as SCC0, SCC1, ... are pairwise disjoint; a function is in some cluster if and only if it can transitively call itself; two functions share a cluster if and only if each can transitively call the other.", "quantifier": "every finite call graph, all pairs of functions", "why_tests_cant": "reachability statement over all graphs", "anchors": ["src/main.rs: run lines 1139-1151, dot lines 1274-1285"]}
{"id": "C10", "title": "Combining callees never loses a bound", "statement": "The max over a caller's callees does not depend on the order of the callees, is at least each callee's number, equals one of them, and is exact only if every callee is exact (the v0.1.1 changelog fix: `>=0` and `=8` combine to `>=8`).", "quantifier": "every non-empty list of maxima and every permutation of it", "why_tests_cant": "all lists and permutations", "anchors": ["src/main.rs: max_of, max, ops::Add<Local> for Max, ops::Add<Max> for Max"]}
{"id": "C11", "title": "No 64-bit overflow for realistic programs", "statement": "If the sum of all known local usages in the graph fits in 64 bits, then every intermediate and final number of the analysis fits in 64 bits, so the 64-bit computation gives the mathematically correct result.", "quantifier": "every finite call graph whose total known local usage is below 2^64", "why_tests_cant": "overflow needs sizes no test program has", "anchors": ["src/main.rs: ops::Add for Max, run lines 1135-1215"]}
{"id": "C12", "title": "The reported max is monotone in the local usages", "statement": "If every function's known local usage stays the same or grows (unknown staying unknown), no reported number gets smaller. (The analogous claim for adding a call is false: adding a call that closes a cycle can lower a reported number.)", "quantifier": "every finite call graph and every pointwise larger assignment of local usages", "why_tests_cant": "universally quantified comparison of two runs", "anchors": ["src/main.rs: run lines 1135-1215"]}
{"id": "C13", "title": "A start point keeps exactly the reachable functions", "statement": "With a start point that is found, the printed graph contains each function reachable from the start point exactly once and nothing else.", "quantifier": "every finite call graph and start function", "why_tests_cant": "reachability over all graphs", "anchors": ["src/main.rs: run lines 1094-1129", "petgraph::visit::Dfs"]}
{"id": "C14", "title": "A start point keeps exactly the calls among the reachable functions", "statement": "The filtered graph has the same calls, with the same multiplicity, between reachable functions as the unfiltered graph, and each kept function keeps its name, local usage and style.", "quantifier": "every finite call graph and start function", "why_tests_cant": "graph isomorphism over all graphs", "anchors": ["src/main.rs: run lines 1101-1123"]}
{"id": "C15", "title": "A start point does not change any reported stack usage", "statement": "For every function kept by the filter, the max printed with the start point equals the max printed without it.", "quantifier": "every finite call graph, start function and kept function; for printed graphs, every program with code below 4 GiB", "why_tests_cant": "relates two full analysis runs on all graphs", "anchors": ["src/main.rs: run lines 1067-1215"]}
{"id": "C16", "title": "Start point resolution", "statement": "A start point that is exactly a symbol name selects that symbol; otherwise it selects a function only if exactly one symbol demangles to a name beginning with the start point followed by `::h`; in all other cases the graph is not filtered.", "quantifier": "every symbol table, every demangler output, every start string", "why_tests_cant": "all tables and strings", "anchors": ["src/main.rs: run lines 1068-1092"]}
{"id": "C17", "title": "Components are processed callees first", "statement": "The component list driving the recursive analysis is a partition of all functions into mutual reachability classes, and each component comes after every other component it can call into.", "quantifier": "every finite directed graph", "why_tests_cant": "correctness of Kosaraju's algorithm for every graph", "anchors": ["src/main.rs: run line 1139", "petgraph::algo::kosaraju_scc"]}
{"id": "C18", "title": "Hash removal is exact", "statement": "Removing the hash from a demangled name yields p if and only if p is non-empty and the name is p followed by a suffix that is 19 bytes long in UTF-8 and begins with `::h`; no other name is altered.", "quantifier": "every string, including non-ASCII ones", "why_tests_cant": "UTF-8 boundary cases over all strings", "anchors": ["src/main.rs: dehash"]}
{"id": "C19", "title": "Shortening never confuses two hashed functions", "statement": "Two different live functions whose names carry a hash and which are both shown without their hash are shown under different names, and a function is shown shortened exactly when its hashless name is unique among the live functions.", "quantifier": "every set of live symbols and demangler behaviour", "why_tests_cant": "all symbol sets", "anchors": ["src/main.rs: run lines 506-509, 1217-1226"]}
{"id": "C20", "title": "Shortening names never aborts", "statement": "Producing the display names never aborts, for any symbols, external callees and function pointer signatures.", "quantifier": "every call graph produced by the tool", "why_tests_cant": "needs an adversarial name that no test contains", "anchors": ["src/main.rs: run lines 1217-1226 (ambiguous[dehashed])"]}
{"id": "C21", "title": "Outlined functions are recognised exactly", "statement": "A symbol is treated as produced by LLVM's outliner if and only if it is `OUTLINED_FUNCTION_` followed by a decimal number (optionally with a leading `+`) below 2^64.", "quantifier": "every string", "why_tests_cant": "all strings", "anchors": ["src/main.rs: is_outlined_function"]}
{"id": "C22", "title": "The dot file represents the graph faithfully", "statement": "Reading the printed dot file back yields exactly the nodes (with label, max, local and dashed style), the calls in order, and the clusters of the analysed graph.", "quantifier": "every graph whose shown names contain no backslash", "why_tests_cant": "print/parse round trip over all graphs", "anchors": ["src/main.rs: dot", "src/main.rs: Escaper"]}
{"id": "C23", "title": "Labels cannot break out of their quotes", "statement": "For every symbol name (without backslashes), the escaped label is read back by a dot lexer as exactly that name and the closing quote is the one the tool wrote.", "quantifier": "every string without backslashes", "why_tests_cant": "all strings", "anchors": ["src/main.rs: Escaper"]}
{"id": "C24", "title": "The top listing is complete, sorted and stable", "statement": "The top format lists every function of the graph exactly once, ordered by decreasing local usage, ties in graph order, unknown counted as 0; the MAX line is the largest max of any function.", "quantifier": "every graph", "why_tests_cant": "all graphs", "anchors": ["src/main.rs: top"]}
{"id": "C25", "title": "Aliases resolve to one node", "statement": "All names the executable gives to one address resolve to the same graph node, whose name is one of them and is one with stack size information whenever any of them has it; names at different addresses resolve to different nodes, provided the executable gives no name to two addresses.", "quantifier": "every symbol table in which each name occurs at one address", "why_tests_cant": "all symbol tables", "anchors": ["src/main.rs: run lines 456-512"]}
{"id": "C26", "title": "Clearing the thumb bit loses no function", "statement": "On thumb targets every code address is made even; as long as no two function addresses differ only in the lowest bit, no function is lost or merged.", "quantifier": "every set of addresses", "why_tests_cant": "all address sets", "anchors": ["src/main.rs: run lines 398-405"]}
{"id": "C27", "title": "Version suffixes are stripped from undefined symbols", "statement": "An undefined symbol `name@@VERSION` (with no other `@@`) is known as `name`; a symbol without `@@` is unchanged.", "quantifier": "every string", "why_tests_cant": "all strings", "anchors": ["src/main.rs: run lines 407-418"]}
{"id": "C28", "title": "One node per live function with its own stack size", "statement": "After reading the symbol table the graph has exactly one node per live code address, whose local usage is the compiler's figure for its canonical name, or unknown if there is none.", "quantifier": "every symbol table and every stack size table", "why_tests_cant": "all tables", "anchors": ["src/main.rs: run lines 456-544"]}
{"id": "C29", "title": "Every direct call between live functions is an edge", "statement": "For every live function whose LLVM-IR contains a direct call to a live non-intrinsic function (under any of its alias names), the graph has an edge from the caller's node to the callee's node.", "quantifier": "every program (set of definitions, in any processing order) on which the tool does not abort", "why_tests_cant": "all programs and hash orders", "anchors": ["src/main.rs: run lines 546-764"]}
{"id": "C30", "title": "Every edge is justified", "statement": "Every edge added from the LLVM-IR goes from a live function to a target named by one of its direct calls, bitcast calls or memory intrinsics.", "quantifier": "every program in which no name belongs to two functions, every processing order", "why_tests_cant": "all programs", "anchors": ["src/main.rs: run lines 546-764"]}
{"id": "C31", "title": "Direct calls produce a single edge", "statement": "No matter how many times a function directly calls another one, there is exactly one edge between them, provided neither bitcast calls nor fictitious nodes are involved.", "quantifier": "every program in which no name belongs to two functions, every processing order", "why_tests_cant": "all programs", "anchors": ["src/main.rs: run lines 562, 617-622, 746-749"]}
{"id": "C32", "title": "Functions dropped by the linker contribute nothing", "statement": "Definitions and calls of functions that are not in the executable add no node and no edge.", "quantifier": "every program", "why_tests_cant": "all programs", "anchors": ["src/main.rs: run lines 552-559"]}
{"id": "C33", "title": "Intrinsics are never silently misread", "statement": "A direct call to an `llvm.` intrinsic on a target without machine code analysis either belongs to the documented lists (ignored, assumed inline, or mapped to memory routines) or makes the tool abort; it never creates a node named after the intrinsic.", "quantifier": "every intrinsic name, every program in which no name belongs to two functions", "why_tests_cant": "all strings", "anchors": ["src/main.rs: run lines 595-716"]}
{"id": "C34", "title": "Memory intrinsics become calls to the memory routines", "statement": "On targets without machine code analysis, a function that uses llvm.memcpy / llvm.memset / llvm.memmove has an edge to each present library routine that implements it.", "quantifier": "every program", "why_tests_cant": "all programs", "anchors": ["src/main.rs: run lines 630-678"]}
{"id": "C35", "title": "Calls to external functions make the max inexact", "statement": "A function that directly calls a symbol undefined in the executable (not defined under any name) gets an edge to a node with unknown local usage, so neither it nor any of its transitive callers is reported with an exact max.", "quantifier": "every program", "why_tests_cant": "composition over all programs", "anchors": ["src/main.rs: run lines 726-749, 1135-1215"]}
{"id": "C36", "title": "Indirect calls reach every compatible live function", "statement": "For every live function containing an indirect call with some signature and every live function with a loosely equal signature, the final graph has a path of two edges from the former to the latter through a dashed node.", "quantifier": "every program, every processing order", "why_tests_cant": "all programs", "anchors": ["src/main.rs: run lines 514-537, 752-759, 955-1065"]}
{"id": "C37", "title": "Indirect calls reach nothing incompatible", "statement": "The dashed nodes have 0 local usage and only call live functions whose signature is the one printed (or formatting functions in the special core::fmt case), and are called only by functions containing an indirect call with a loosely equal signature.", "quantifier": "every program in which no name belongs to two functions", "why_tests_cant": "all programs", "anchors": ["src/main.rs: run lines 955-1065"]}
{"id": "C38", "title": "Untyped symbols make indirect calls unbounded", "statement": "If the executable contains a live symbol without type information (and not outlined), then every function that performs an indirect call has an inexact max.", "quantifier": "every program", "why_tests_cant": "all programs", "anchors": ["src/main.rs: run lines 538-543, 955-1056"]}
{"id": "C39", "title": "Loose signature equality", "statement": "Loose equality of signatures is reflexive and symmetric, requires equal arity, and relates two types exactly when they are equal or both are pointers at least one of which is opaque.", "quantifier": "all pairs of types and signatures, arbitrarily nested", "why_tests_cant": "infinitely many types", "anchors": ["src/ir/ty.rs: Type::loosely_equal", "src/ir.rs: FnSig::loosely_equal"]}
{"id": "C40", "title": "The call graph does not depend on hash order", "statement": "The set of call edges between function names produced from the LLVM-IR is the same for every order in which the definitions are processed.", "quantifier": "every program and every permutation of its definitions", "why_tests_cant": "hash order is random", "anchors": ["src/main.rs: run lines 552-764"]}
{"id": "C41", "title": "End to end stack bound", "statement": "If the tool prints `max = n` for a live function of a program, then every chain of direct calls and signature-compatible indirect calls in the program's LLVM-IR starting at that function has compiler reported local usages that are known and sum to at most n.", "quantifier": "every program (symbol table, stack sizes, definitions) on a target without machine code analysis on which the tool does not abort", "why_tests_cant": "composition of graph construction and analysis for all programs", "anchors": ["src/main.rs: run"]}
{"id": "C42", "title": "BL targets are decoded correctly", "statement": "For every BL instruction encoded as the ARM manual prescribes, with any even offset in [-2^24, 2^24), at any position of a function, the machine code analysis reports a call at exactly that offset.", "quantifier": "all 2^24 offsets, all positions, every program in which no name belongs to two functions", "why_tests_cant": "16 million encodings times all positions", "anchors": ["src/thumb.rs: analyze lines 521-546, sign_extend"]}
{"id": "C43", "title": "B targets are decoded correctly", "statement": "For every B instruction in encodings T1, T2, T3 and T4, the reported branch offset is the one the ARM manual assigns to the encoding.", "quantifier": "all offsets and conditions of the four encodings", "why_tests_cant": "millions of encodings", "anchors": ["src/thumb.rs: analyze lines 133-167, 453-520"]}
{"id": "C44", "title": "Instruction boundaries follow the architecture", "statement": "The decoder consumes two bytes for each 16-bit and four bytes for each 32-bit Thumb instruction, so it never decodes the middle of an instruction.", "quantifier": "all halfwords that are defined instructions, all instruction sequences", "why_tests_cant": "65536 halfwords times unbounded sequences", "anchors": ["src/thumb.rs: analyze lines 84-384, matches"]}
{"id": "C45", "title": "Literal pools are not decoded", "statement": "Bytes inside a region marked by a data tag and ended by a thumb tag (or by nothing) never influence the result.", "quantifier": "all byte contents of data regions, all tag tables", "why_tests_cant": "all byte strings", "anchors": ["src/thumb.rs: analyze lines 53-82"]}
{"id": "C46", "title": "Branch-free stack usage is the sum of the stack decrements", "statement": "If the analysis of a function returns a stack usage, the function has no B instruction that targets itself and the usage is the sum of the bytes its push-like instructions subtract from SP; SP is reported as modified exactly when there is such an instruction.", "quantifier": "all byte strings", "why_tests_cant": "all programs", "anchors": ["src/thumb.rs: analyze"]}
{"id": "C47", "title": "Modified immediates are expanded as in the manual", "statement": "The 12-bit modified immediate of `sub.w sp, sp, #imm` is expanded to the constant the ARM manual defines.", "quantifier": "all 4096 immediates", "why_tests_cant": "tests check one value", "anchors": ["src/thumb.rs: thumb_expand_imm"]}
{"id": "C48", "title": "Returns are not indirect calls", "statement": "`bx lr` is never reported as an indirect call; `blx rM` and `bx rM` with any other register always are.", "quantifier": "all registers, all positions", "why_tests_cant": "all programs", "anchors": ["src/thumb.rs: analyze lines 174-184"]}
{"id": "C49", "title": "Branches out of a function are calls, branches inside are not", "statement": "A decoded B whose target lies inside the function adds no edge; a B or BL to the start of another live function adds an edge to it exactly once; a target that is no function start makes the tool abort.", "quantifier": "all functions, addresses and offsets, every program in which no name belongs to two functions", "why_tests_cant": "all programs", "anchors": ["src/main.rs: run lines 916-948"]}
{"id": "C50", "title": "When LLVM's stack figure is overridden", "statement": "On thumb targets the local usage printed for a function is LLVM's figure unless the function contains inline asm or was outlined (LLVM figure 0), in which case the machine code figure is used when there is one; an unknown figure is replaced by the machine code figure, or by 0 if SP is never modified; any other disagreement aborts.", "quantifier": "all combinations of LLVM figure, machine code figure and flags, every program in which no name belongs to two functions", "why_tests_cant": "full decision table over unbounded numbers", "anchors": ["src/main.rs: run lines 827-900"]}
{"id": "C51", "title": "Indirect calls in functions without LLVM-IR make the max inexact", "statement": "On thumb targets, a function that has no LLVM-IR definition and performs an indirect call is never reported with an exact max, and neither is any transitive caller.", "quantifier": "all programs in which no name belongs to two functions, code below 4 GiB", "why_tests_cant": "all programs", "anchors": ["src/main.rs: run lines 902-914"]}
{"id": "C52", "title": "Types print and parse back", "statement": "Parsing the printed form of a type gives back that type and leaves the rest of the input untouched.", "quantifier": "all well-formed types, arbitrarily nested (no quote in alias names, sizes below 2^64, no function returning (a pointer to) a void function), all following text that cannot continue the type", "why_tests_cant": "infinitely many types", "anchors": ["src/ir/ty.rs: type_, impl Display for Type", "src/ir.rs: impl Display for FnSig"]}
{"id": "C53", "title": "Distinct signatures have distinct labels", "statement": "Two different well-formed function pointer signatures are printed differently, so dashed nodes with equal labels stand for equal signatures.", "quantifier": "all pairs of well-formed signatures", "why_tests_cant": "infinitely many types", "anchors": ["src/ir.rs: impl Display for FnSig", "src/ir/ty.rs: impl Display for Type"]}
{"id": "C54", "title": "No call statement is silently dropped", "statement": "A line of a function body containing the token `call` is either parsed as an asm, bitcast, direct or indirect call (or is a comment or label line), or the whole parse fails; it is never classified as an uninteresting statement.", "quantifier": "all texts", "why_tests_cant": "all input texts", "anchors": ["src/ir/define.rs: stmt, other, assign", "src/ir.rs: items, parse"]}
{"id": "C55", "title": "Parse errors name the right line", "statement": "Parsing either consumes the whole file or reports an error with the 1-based number of the line that contains the first unparsed character; it never aborts while computing that number.", "quantifier": "all texts", "why_tests_cant": "all input texts", "anchors": ["src/ir.rs: parse, items"]}
{"id": "C56", "title": "Parsers always terminate and only consume", "statement": "Every parser returns a suffix of its input, never runs forever and never trips a repetition combinator's no-progress error.", "quantifier": "all texts", "why_tests_cant": "termination on all inputs", "anchors": ["src/ir.rs", "src/ir/ty.rs", "src/ir/item.rs", "src/ir/define.rs"]}
{"id": "C57", "title": "Function definitions are read back correctly", "statement": "Printing a function definition (linkage attributes, output type, name, parameters, body of labels, comments, direct calls, indirect calls and other statements) in LLVM's textual format and parsing it yields its name, signature and statements in order.", "quantifier": "all well-formed definitions", "why_tests_cant": "infinitely many definitions", "anchors": ["src/ir/define.rs: parse, parameter, direct_call, indirect_call, argument, label, comment, other"]}
{"id": "C58", "title": "A module is read back item by item", "statement": "A file made of well-formed items separated by any positive number of line ends parses to exactly the list of those items in order.", "quantifier": "all lists of items", "why_tests_cant": "unbounded files", "anchors": ["src/ir.rs: items, parse", "src/ir/item.rs: item"]}
{"id": "C59", "title": "The rustc wrapper forwards the command line unchanged", "statement": "The wrapped compiler is called with the original arguments, in order, preceded only by `-Zemit-stack-sizes` and, exactly for the crate compiler_builtins, `--emit=llvm-ir`; its exit status is passed through.", "quantifier": "all command lines on which argument parsing succeeds", "why_tests_cant": "all argument vectors", "anchors": ["src/wrapper.rs: wrapper"]}
{"id": "C60", "title": "Compiler arguments are understood like rustc does", "statement": "The wrapper extracts the last `--crate-name`, the last `--out-dir`, the last `-C extra-filename=` (joined or separate form) and all `--extern` values in order with their optional path and without a `noprelude:` prefix, and fails exactly when an option lacks its value or there is no crate name.", "quantifier": "all argument vectors", "why_tests_cant": "all argument vectors", "anchors": ["src/wrapper.rs: RustcArgs::parse"]}
{"id": "C61", "title": "The marker protocol transports the paths", "statement": "If a wrapper process announces the compiler_builtins rlib or IR path on its standard error, the main process ends up with the last announced path of each kind, byte for byte, and echoes every other line unchanged and in order; markers are not echoed.", "quantifier": "all line sequences, all paths without line breaks", "why_tests_cant": "all interleavings of output lines", "anchors": ["src/main.rs: run lines 234-260", "src/wrapper.rs: markers"]}
{"id": "C62", "title": "The newest matching IR file is analysed", "statement": "Among the directory entries with extension `ll` and the crate prefix, the analysed file has the largest modification time (the first such in directory order); if there is none the tool aborts.", "quantifier": "all directory listings", "why_tests_cant": "all listings", "anchors": ["src/main.rs: run lines 271-308"]}
{"id": "C63", "title": "Unsupported toolchains are refused", "statement": "Unless run as the rustc wrapper, the tool proceeds only if the toolchain commit hash is the supported one or the opt-out variable has exactly the documented value.", "quantifier": "all hashes and environments", "why_tests_cant": "all environments", "anchors": ["src/main.rs: run lines 103-126"]}
{"id": "C64", "title": "The cargo invocation reflects the arguments", "statement": "Exactly one of --example and --bin must be given; cargo is told that target, `--all-features` overrides `--features`, the --target flag is passed through, and LLVM-IR with fat LTO in release mode is always requested.", "quantifier": "all combinations of command line arguments", "why_tests_cant": "full decision table over all strings", "anchors": ["src/main.rs: run lines 130-203"]}
{"id": "C65", "title": "Definitions are merged with last-wins", "statement": "When the application's IR and the compiler_builtins IR define the same symbol, the compiler_builtins definition is the one analysed; for every name at most one definition is analysed and every name defined anywhere is analysed.", "quantifier": "all pairs of item lists", "why_tests_cant": "all item lists", "anchors": ["src/main.rs: run lines 337-351"]}
{"id": "C66", "title": "A start point selects the function it names", "statement": "Giving a function path (without hash) as start point selects that function: the selected symbol is the start string itself or demangles to the start string followed by `::h` and a 16 digit hexadecimal hash.", "quantifier": "every symbol table, demangler output and start string", "why_tests_cant": "unbounded set of symbol tables; prefix matching mistakes need an adversarial module name", "anchors": ["src/main.rs: run lines 1069-1092"]}
{"id": "C67", "title": "Different live functions are shown under different names", "statement": "Two different live functions never end up with the same node name after shortening.", "quantifier": "every set of live symbols and demangler behaviour", "why_tests_cant": "depends on all pairs of symbols of arbitrary programs", "anchors": ["src/main.rs: run lines 1217-1226"]}
{"id": "C68", "title": "Any symbol name whatsoever yields a well-formed dot file", "statement": "Whatever characters a symbol name contains (including backslashes), the printed dot file is still readable as a dot file.", "quantifier": "every string", "why_tests_cant": "needs all strings", "anchors": ["src/main.rs: Escaper, dot"]}
{"id": "C69", "title": "The LLVM-IR pass aborts exactly for the documented reasons", "statement": "Reading the LLVM-IR of the live functions aborts only if one of them calls through a bitcast of something that is not a function, calls an unknown intrinsic (on a target without machine code analysis), or calls a function that is neither in the executable nor among its undefined symbols; in each of these cases it does abort.", "quantifier": "every program", "why_tests_cant": "all combinations of statements, symbol tables and processing orders", "anchors": ["src/main.rs: run lines 596-769"]}
{"id": "C70", "title": "No invoke statement is silently dropped", "statement": "A line of a function body that contains the token `invoke` (a call that may unwind) is parsed as a call, or the whole parse fails; it is never classified as an uninteresting statement.", "quantifier": "every statement line", "why_tests_cant": "needs every way to write an invoke", "anchors": ["src/ir/define.rs: stmt, assign, asm, bitcast_call, direct_call, indirect_call, other"]}
{"id": "C71", "title": "The analysis is made for the target the program is built for", "statement": "The target that decides about the machine code analysis and about leaving out the standard library is the one cargo builds for: the `--target` flag, else the target of the cargo configuration, else the host.", "quantifier": "every configuration, flag and host", "why_tests_cant": "the combinations of configuration files and flags; the outcome depends on the precedence rules of cargo", "anchors": ["src/main.rs: run lines 140-157, 353-361"]}
{"id": "C72", "title": "Stack sizes come from the application object and the compiler_builtins objects, last wins", "statement": "The stack size used for a name is the last one reported by the object file of the application followed by the members of the rlib whose name contains compiler_builtins and ends in .o, in archive order; other members have no influence, and names without a report have no size.", "quantifier": "every object file and archive contents", "why_tests_cant": "the archive depends on the toolchain and the codegen units", "anchors": ["src/main.rs: run lines 363-393"]}
{"id": "C73", "title": "From the files to the printed bound", "statement": "If the two LLVM-IR files are written in the supported grammar, they load, and an exact `max = n` printed for a function bounds the sum of the reported frames along every call chain in the files' text.", "quantifier": "every pair of files in the grammar, every executable", "why_tests_cant": "composition of parser, merging, graph building and analysis over all inputs", "anchors": ["src/main.rs: run lines 310-1233", "src/ir.rs: parse"]}
{"id": "C74", "title": "The machine code pass aborts exactly for the documented reasons", "statement": "On thumb targets, given that the pass over the LLVM-IR succeeds, the call graph is built unless for some live function the first symbol name is a mapping symbol, its bytes are outside of .text or cannot be decoded, no rule reconciles the compiler's stack figure with the one found in the code, or it branches to an address where no live function starts.", "quantifier": "every symbol table in which no name is given to two addresses, every code section, every program", "why_tests_cant": "any machine code may occur; each of the panics, asserts and indexings in the pass depends on a different combination of inputs", "anchors": ["src/main.rs: run lines 765-950", "src/thumb.rs: analyze"]}
{"id": "C75", "title": "A run on acceptable input ends with output", "statement": "If every symbol has a name, live functions contain only known statements, the machine code is fit where it is analysed, only live functions have names that look as if they ended in a hash, and all stack figures together fit in 64 bits, then the tool prints a graph or a table, for any start point; conversely output implies the first three conditions. Once the graph is built, there is output exactly if every kept node whose name looks as if it ended in a hash shares its path with a live function and the heaviest chain from every kept function fits in 64 bits; nodes that cannot be reached from the start point do not matter.", "quantifier": "every program in which no name belongs to two functions, code below 4 GiB, every executable, start point, output format and hash order", "why_tests_cant": "absence of panics over all inputs, through all passes", "anchors": ["src/main.rs: run lines 420-1233"]}
{"id": "C76", "title": "The printed figures do not depend on hash map orders", "statement": "Whatever the iteration orders of the hash maps of definitions, declarations and signatures, the tool either ends with output for all of them or for none, and prints the same name, local usage and max for every live function, with the same live functions reachable from each.", "quantifier": "every program, executable and pair of iteration orders", "why_tests_cant": "the orders depend on a random seed per process; node numbers, edges and recursion groups are assigned in these orders", "anchors": ["src/main.rs: run lines 420-1233"]}
{"id": "C77", "title": "The exit status tells whether there is a result", "statement": "The tool ends with status 0 exactly if cargo has built the selected program successfully and the files of this build can be read and lead to a result, which is then written to standard output. These files are: the newest LLVM-IR of the crate, the object file beside it, the announced files of compiler_builtins, and the executable. With any other status nothing is written to standard output. A failing build passes on its status; a build that does not announce the files aborts.", "quantifier": "every command line of a user, configuration, directory contents, output of cargo and contents of files", "why_tests_cant": "the outcome depends on the whole environment, and on any of some twenty operations failing", "anchors": ["src/main.rs: main, run lines 84-1233"]}
{"id": "C78", "title": "The touched source file belongs to the program that is rebuilt", "statement": "Before cargo is started, the times of a file of the selected binary or example are set, so that cargo compiles it again: src/main.rs, else src/lib.rs, else the first .rs file below src or the root of the project.", "quantifier": "every project layout and selection", "why_tests_cant": "layouts of projects are unbounded", "anchors": ["src/main.rs: run lines 209-228"]}
{"id": "C79", "title": "From the command line to the number that is read", "statement": "If the tool ends with status 0 for a dot file, then what a reader of standard output takes for the exact max of a function bounds the frames of every chain of calls in the program that was built, and is shown with the local usages along the chain.", "quantifier": "every command line without --start, every environment", "why_tests_cant": "composition of driver, parser, graph building, analysis and printing over all inputs", "anchors": ["src/main.rs: main, run lines 84-1233, dot"]}
{"id": "C80", "title": "The MAX line of the top listing bounds the stack usage", "statement": "The number in the line MAX covers the frames of every chain of calls in the program.", "quantifier": "every program and executable", "why_tests_cant": "chains of calls are unbounded in number and length", "anchors": ["src/main.rs: top lines 1290-1335"]}
{"id": "C81", "title": "Functions without a size in the symbol table are analysed", "statement": "On thumb targets, the machine code of a function whose symbol has size 0 is decoded up to its end, so that its calls are edges of the call graph and its stack usage is counted.", "quantifier": "every executable, symbol table and machine code", "why_tests_cant": "assembly routines without .size directives, with any layout of literal pools, are not in the test suite and the size is guessed from mapping symbols", "anchors": ["src/main.rs: run lines 801-816"]}
{"id": "C82", "title": "A maximum is shown as soon as some usage is known", "statement": "If the stack usage of some function is known, from the compiler or from the machine code, a max is shown for every node.", "quantifier": "every program and executable", "why_tests_cant": "depends on a flag set in one of three passes over all symbols", "anchors": ["src/main.rs: run lines 457, 496-504, 1136"]}
{"id": "C83", "title": "Good input leads to status 0", "statement": "If cargo builds the selected program, the files of the build can be read, the LLVM-IR is in the supported grammar and the program is acceptable (C75), then the tool ends with status 0 and writes the result.", "quantifier": "every environment of a user, every file contents in the grammar; no name belongs to two functions, code below 4 GiB", "why_tests_cant": "some twenty operations may fail or panic on unbounded inputs", "anchors": ["src/main.rs: main, run lines 84-1233"]}
{"id": "C84", "title": "One node per type of an indirect call", "statement": "The call graph has exactly one dashed node for every type that a live function is taken to have and that an indirect call may reach. It is labelled with the type, called exactly by the functions with a compatible indirect call, and calls exactly the live functions of this type, plus an unknown function iff some function has no type. For the type that stands for any type in calls of formatting functions (fmt::Void, else one named core::fmt::Void.., else the only formatted named type) it calls all defined formatting functions instead.", "quantifier": "every program in which no name belongs to two functions, every order of hash maps", "why_tests_cant": "types and candidates are unbounded, and which type is special depends on all of them together", "anchors": ["src/main.rs: run lines 514-542, 955-1065"]}
{"id": "C85", "title": "The figures are determined by the program", "statement": "Without a start point, the local usage shown for a live function is that of its frame (on thumb targets: that of the rule for compiler and machine code figures); a maximum is shown iff the compiler reports some frame; it equals the weight of the heaviest chain along possible calls (direct calls by any name, calls through casts, memory routines, jumps in machine code, candidates of indirect calls), counting each recursion group once; and it is exact iff everything that can be reached is known, stays in the executable and uses no stack in recursion.", "quantifier": "every executable, every order of hash maps, every program in which each name, definition, declaration and address occurs once and whose memory routines, where called by name, are shown under that name", "why_tests_cant": "relates the end result of four passes over unbounded programs to a description without any graph", "anchors": ["src/main.rs: run lines 380-1233"]}
{"id": "C86", "title": "Gaps in the input are announced", "statement": "If the run succeeds, the log has a warning about the stack usage of a live function iff its usage is unknown (none of these but one error iff the code section is missing on a thumb target), about its type iff it has none and was not made by the outliner, one about indirect calls iff there is such a function, and one about an indirect call in machine code iff the function has no LLVM-IR and its code has one.", "quantifier": "every program in which no name belongs to two functions, every executable, start point and order of hash maps", "why_tests_cant": "the messages come from four passes over unbounded programs, some of them only at their first occurrence", "anchors": ["src/main.rs: run lines 497-504, 542, 897-912, 951-960"]}
{"id": "C87", "title": "Overridden figures are announced", "statement": "If the run succeeds, the usage shown for a live function differs from the compiler's figure iff the log says so, with both figures; because of inline assembly iff the function contains some, else because it was made by the outliner, for which the compiler claimed 0.", "quantifier": "every program in which no name belongs to two functions, every executable, start point and order of hash maps", "why_tests_cant": "combines the decoded machine code of every function with what the LLVM-IR pass recorded", "anchors": ["src/main.rs: run lines 838-895"]}
{"id": "C88", "title": "Assumptions are announced once", "statement": "If the run succeeds: there is exactly one message about inline assembly for a live function iff it contains some, quoting one of its pieces; exactly one about an intrinsic taken for an instruction iff a live function calls it, the target is not thumb and it is one of the listed ones; at most one about a function called through a cast that is not in the executable, and exactly one if it is not called directly, too.", "quantifier": "every program in which no name belongs to two functions, every executable, start point and order of hash maps", "why_tests_cant": "depends on the sets of functions seen so far, over all statements of all functions", "anchors": ["src/main.rs: run lines 565-589, 684-703"]}
{"id": "C89", "title": "Lower bounds are explained", "statement": "If a printed maximum is only a lower bound, a message about a function that is reached says why.", "quantifier": "every program in which names, definitions, declarations and addresses occur once, every executable and hash order", "why_tests_cant": "relates maxima along unbounded call chains to messages of other passes", "anchors": ["src/main.rs: run lines 420-1233"]}
{"id": "C90", "title": "The start point selects as announced", "statement": "With a start point the output is that of the run without one, restricted to what the selected function reaches: the one shown under this name, else the only one shown under this name and a hash. If there is none, and only then, the log says so, the output is not restricted, and if there are several the log lists exactly these.", "quantifier": "every program with code below 4 GiB, every executable, start point, demangler and order of hash maps", "why_tests_cant": "quantifies over all names of unbounded programs and all hash orders", "anchors": ["src/main.rs: run lines 1067-1133"]}
{"id": "C91", "title": "Missing figures are announced", "statement": "The log says that there is no information about stack usage iff the compiler reports the frame of no live function, that is iff no maximum is shown.", "quantifier": "every program with code below 4 GiB, every executable, start point and order of hash maps", "why_tests_cant": "depends on a flag set in one of three passes over all symbols", "anchors": ["src/main.rs: run lines 457, 496-504, 1135-1138"]}
{"id": "C92", "title": "Indirect calls without callees are announced", "statement": "The log says that an indirect call may reach no function iff it calls formatting functions of the type that stands for any type, live functions of this type are declared, and no live function is defined as a formatting function. The message shows the type of the call, and a second one its label unless some function has no type.", "quantifier": "every program in which definitions and declarations occur once and no name belongs to two functions, every executable, start point and order of hash maps", "why_tests_cant": "the type that stands for any type depends on all types of all functions", "anchors": ["src/main.rs: run lines 1014-1060"]}
{"id": "C93", "title": "The figure found in machine code bounds every execution", "statement": "If the machine code analysis finds that a function uses n bytes, then in no execution of the function are more than n bytes of its own on the stack; if it finds that the stack pointer is not modified, then none, even if the function loops. If the instructions that take stack come first, exactly n bytes are in use after them.", "quantifier": "every function body of any length, literal pools, mapping symbols, and every execution path of any length", "why_tests_cant": "quantifies over all instruction sequences and all paths through them", "anchors": ["src/thumb.rs: analyze lines 6-570"]}
{"id": "C94", "title": "The printed maximum bounds the stack in every execution of the program", "statement": "On thumb targets, if the tool prints max = n for a function, then at any time during any call of it at most n bytes of stack are in use by all active functions together: through calls, jumps to other functions, calls through registers and returns, executed instruction by instruction.", "quantifier": "every program, executable and order of hash maps, every execution of any length", "why_tests_cant": "quantifies over all executions of all programs; depends on all passes of the tool", "anchors": ["src/main.rs: run lines 420-1233", "src/thumb.rs: analyze lines 6-570"]}
{"id": "C95", "title": "Fixed width arithmetic makes no difference", "statement": "Computed with the machine words of the code, with overflow checks or wrapping around as in release builds, the output is the same as with unbounded numbers: no operation leaves its type unless the code section is not where code can be or all figures together exceed 64 bits.", "quantifier": "every program and code section where code can be, every start point, output format and order of hash maps, both build profiles; for sums above 64 bits, programs in which no name belongs to two functions", "why_tests_cant": "overflow shows only for particular addresses and sums among all inputs", "anchors": ["src/main.rs: run lines 766-953, 1135-1215, Max::add 1468-1486", "src/thumb.rs: analyze lines 6-570"]}
{"id": "C96", "title": "What a start point shows", "statement": "If the start point selects a live function, then among the live functions exactly those are shown that this function may reach by direct calls, jumps or compatible indirect calls, each once; local usages and maxima are those of the whole program.", "quantifier": "every program in which no name belongs to two functions, code below 4 GiB, and the order of definitions does not matter (memory routines called by name are shown under it, see C40); every executable, start point, demangler and order of hash maps", "why_tests_cant": "reachability over unbounded graphs, renumbered by the filter", "anchors": ["src/main.rs: run lines 1067-1215"]}
{"id": "C97", "title": "Thumb programs are analysed as such", "statement": "If the program is built for a Thumb target, its machine code is decoded, so that calls which are not in the LLVM-IR are seen, and addresses of functions lose the Thumb bit; for any other target neither happens.", "quantifier": "every target triple, configuration, command line and input files", "why_tests_cant": "the set of target triples is open; new ones appear with new compilers", "anchors": ["src/main.rs: run lines 353-375, 766-953"]}
{"id": "C98", "title": "The name shown for a function", "statement": "A live function is shown under the path of its name without the hash if no other live function has the same path, and under its whole name otherwise.", "quantifier": "every program with code below 4 GiB, every executable, demangler and order of hash maps", "why_tests_cant": "depends on the names of all functions of unbounded programs", "anchors": ["src/main.rs: run lines 506-509, 1217-1226, dehash 1497-1514"]}
{"id": "C99", "title": "From the command line to the executions", "statement": "If the tool ends with status 0 and writes a dot file for a thumb target, then for every live function a reader of the file finds a node with its name, and if it says max = n, at most n bytes of stack are in use at any time during any call of the function.", "quantifier": "every command line, project, build, file contents, program and execution of any length", "why_tests_cant": "composes the driver, both analyses, the output format and all executions", "anchors": ["src/main.rs: run lines 94-1233", "src/thumb.rs: analyze lines 6-570"]}
{"id": "C100", "title": "What is loaded meets the assumptions of the analysis", "statement": "Every program that the tool loads has its live functions at increasing addresses, also after the Thumb bit is cleared, at most one definition and one declaration per name, and sizes below 2^64.", "quantifier": "every project, build, LLVM-IR, object file, archive and symbol table, every order of hash maps", "why_tests_cant": "an invariant of all programs that can be loaded, on which the other properties rely", "anchors": ["src/main.rs: run lines 300-460"]}
{"id": "C101", "title": "From the command line to the figures", "statement": "If the tool ends with status 0 and writes a dot file, then for every live function a reader of the file finds a node with its name, its local usage, and as maximum the heaviest chain of recursion groups along possible calls; the maximum is shown as exact exactly if everything that can be reached is known, stays in the executable and does not use stack in recursion.", "quantifier": "every command line of a user, project, build and file contents, every program in which no name belongs to two functions, code below 4 GiB, and the order of definitions does not matter (memory routines called by name are shown under it, see C40), shown names without backslash", "why_tests_cant": "composes the driver, the parser, all passes and the output format", "anchors": ["src/main.rs: run lines 94-1233", "src/thumb.rs: analyze lines 6-570"]}
{"id": "C102", "title": "From the command line to the listing", "statement": "If the tool ends with status 0 and writes a listing, then it has a line for every live function with its name and local usage, sorted by usage and then by address, followed by functions outside the program without usage; the number in the line MAX is the largest maximum of a live function.", "quantifier": "every command line of a user, project, build and file contents, every program in which no name belongs to two functions, code below 4 GiB, and the order of definitions does not matter (memory routines called by name are shown under it, see C40), shown names without backslash and line break", "why_tests_cant": "composes the driver, the parser, all passes, sorting and the output format", "anchors": ["src/main.rs: run lines 94-1233, top 1290-1335"]}
{"id": "C103", "title": "Exactly which nodes and edges the LLVM-IR gives", "statement": "After the LLVM-IR has been read, there is a node of a name exactly if a live function is shown under it, or it is called through a bitcast, or it is an undefined symbol other than memcmp that is called directly; and a function has an edge to a node exactly if one of its statements leads to that name, where memory intrinsics and calls of memcmp only count if the name has a node by the time the statement is read.", "quantifier": "every program in which no name belongs to two functions, every demangler and order of definitions", "why_tests_cant": "depends on all statements of unbounded programs and on the order of a hash map", "anchors": ["src/main.rs: run lines 551-763"]}
{"id": "C104", "title": "Executions on targets without machine code analysis", "statement": "If the tool prints an exact maximum for a live function, then at every moment of every execution of a call of it, the sizes reported by the compiler for the active functions are known and sum to at most that number, and no active function calls anything outside the executable; executions make direct calls, calls through bitcasts and pointers, tail calls, calls of the routines that memory intrinsics are compiled to, and return.", "quantifier": "every program without machine code analysis, every execution of the LLVM-IR, every order of hash maps", "why_tests_cant": "executions are unbounded and the stack at each moment has to be related to a path of the graph", "anchors": ["src/main.rs: run lines 551-763, 1049-1226"]}
{"id": "C105", "title": "How figures change with the program", "statement": "The figures of a function depend only on the bodies and frame sizes of functions that can be reached from it: they are the same in every version of the program in which these, and the set of functions and their types, are the same. If the frame of one function grows by d bytes and nothing else changes then no maximum shrinks, none grows by more than d, and its own grows by exactly d unless it is recursive.", "quantifier": "every pair of programs with the same functions and types in which no name belongs to two functions, code below 4 GiB, at most one type can stand for any type and the order of definitions does not matter (memory routines called by name are shown under it, see C40); every order of hash maps in either run", "why_tests_cant": "compares two runs of the tool on unbounded families of programs", "anchors": ["src/main.rs: run lines 551-1226"]}
{"id": "C106", "title": "Everything recorded about the LLVM-IR is written there", "statement": "If the tool accepts an LLVM-IR file then the file is a sequence of items separated by line breaks such that each recorded definition has, in the text of its item, the recorded name, output type, parameter types and one line per recorded statement; each recorded direct call of f is written there as call or invoke, attributes, a type, @f and an opening parenthesis; each recorded type is one that the text denotes, and a text denotes at most one type.", "quantifier": "every text, every classification of characters, every nesting of types", "why_tests_cant": "texts and nesting of types are unbounded", "anchors": ["src/ir.rs: parse, items", "src/ir/ty.rs: type_", "src/ir/define.rs: parse, stmt, other, assign", "src/ir/item.rs: item, declare"]}
{"id": "C107", "title": "What the mark before a maximum means", "statement": "A maximum is shown as exact exactly if it limits what a call of the function can need, whatever the sizes of the frames that are not known and whatever functions outside the executable use. An exact maximum is the most that a call can need. If the maximum is shown as a lower bound then there is no limit, yet the number shown is needed by some chain of calls whatever the unknown frames are.", "quantifier": "every program in which no name belongs to two functions, code below 4 GiB, and the order of definitions does not matter (memory routines called by name are shown under it, see C40); every choice of the unknown frame sizes, every chain of calls of any length; in dot files, names without backslash", "why_tests_cant": "quantifies over all sizes of unknown frames and over chains of unbounded length through recursive functions", "anchors": ["src/main.rs: run lines 1049-1226", "src/main.rs: dot lines 1228-1288"]}
{"id": "C108", "title": "What the lines of warnings mean", "statement": "Two messages with different contents are printed as different lines, so kind, names and numbers can be read off a line (for the line about inline assembly and that about several start points, if the names have no backquote). So a line says that a function has no stack usage information, no type, an untyped indirect call or an overridden figure exactly if that is so; and an error, as opposed to a warning, is printed exactly if the code section is missing where needed, there is no figure at all, the start point names none or several functions, or an indirect call of a formatting function can reach nothing.", "quantifier": "every program in which no name belongs to two functions, every start point, demangler and order of hash maps; every pair of messages", "why_tests_cant": "names are arbitrary text and could imitate the rest of a line", "anchors": ["src/main.rs: run lines 500, 542, 569, 585, 701, 848-866, 899-911, 951-960, 1025, 1058, 1087, 1131, 1137"]}
{"id": "C109", "title": "Interrupts: figures of handlers add up to a bound for the program", "statement": "Handlers of exceptions are not called by anyone, so their figures stand beside that of the program. If the tool prints exact maxima for the main function and for every handler, then however handlers interrupt the program and each other, the stack in use is at most the maximum of the main function plus, for each priority, what the hardware saves on entry and the largest maximum of the handlers of this priority. The maximum of the main function alone is not a bound.", "quantifier": "every program, every set of handlers and priorities, every execution with interrupts at any place and nested in any way", "why_tests_cant": "quantifies over all points at which an interrupt may come and over all nestings", "anchors": ["README.md: lines 163-168", "src/main.rs: run lines 1049-1226"]}
{"id": "C110", "title": "Functions nobody calls are the roots of the graph", "statement": "A function of the executable has no edge into it exactly if no function of the program may call it, directly, through a pointer of its type, or by an instruction of its machine code. So handlers of exceptions, which the hardware calls, show up as separate roots.", "quantifier": "every program in which no name belongs to two functions, code below 4 GiB, and the order of definitions does not matter (memory routines called by name are shown under it, see C40); every executable and order of hash maps", "why_tests_cant": "absence of an edge depends on every call in the whole program", "anchors": ["README.md: lines 163-168", "src/main.rs: run lines 551-1047"]}
{"id": "C111", "title": "Mutually recursive functions share a maximum and are the clusters", "statement": "Functions that can call each other in a circle have the same maximum; two functions are drawn in one cluster exactly if they can call each other in a circle (or are one function that can call itself) and the program has stack sizes. For the README's recursive program with its real machine code this gives the documented figures: no execution of main uses more than the 8 bytes printed, although executions recurse to any depth.", "quantifier": "every program in which no name belongs to two functions, code below 4 GiB, and the order of definitions does not matter (memory routines called by name are shown under it, see C40); every order of hash maps and pair of functions; every execution of the README's program", "why_tests_cant": "circles of calls are of unbounded length and executions of unbounded depth", "anchors": ["README.md: lines 186-250", "src/main.rs: run lines 1138-1226", "src/main.rs: dot lines 1228-1288"]}
{"id": "C112", "title": "Failures are explained on standard error", "statement": "If the tool was started by the user and its arguments are well formed, then it writes an error line exactly if it ends with status 1 for another reason than a failed build; the line is the last one, is the only one of its kind, and what it says is the case: a file that it names as unreadable is the newest LLVM-IR file, the object beside it, or the file announced last, and cannot be read; a line number is where parsing fails. All lines of cargo that are not meant for the tool are passed on once and in order. Messages about the program appear exactly if all files could be read, after the lines of cargo.", "quantifier": "every state of the environment, every text that cargo writes, every reason the operating system gives", "why_tests_cant": "failures can happen at any step and the output of cargo is unbounded", "anchors": ["src/main.rs: main lines 84-92", "src/main.rs: run lines 94-396", "src/wrapper.rs: wrapper"]}
{"id": "C113", "title": "Failing writes are reported and what arrives is the beginning of the text", "statement": "The text is handed to standard output in order and without gaps. If every write succeeds the tool ends with status 0; if one fails, the tool stops writing at once and ends with status 1 and the error of that write, also in the middle of a name that is being escaped. On a full device exactly the characters for which there is room arrive. A run that panics has written nothing.", "quantifier": "every program with output, both formats, every behaviour of standard output, every way in which the demangler cuts names into pieces", "why_tests_cant": "a write can fail at any of arbitrarily many places", "anchors": ["src/main.rs: main lines 84-92", "src/main.rs: dot lines 1236-1288", "src/main.rs: top lines 1290-1335", "src/main.rs: Escaper lines 1337-1386"]}
{"id": "C114", "title": "What an abort says is the case", "statement": "Whatever the tool says when a run panics after the files were read is the case: a callee that it calls unknown is called by a live function and is in no symbol table; an address without symbol is the target of a call or jump that leaves a function; a figure that does not match is that of the compiler for the function named, and the code has another one or does not go with it; an unknown instruction is shown with its bytes and ends the code of a function; the address shown for a data tag is that of the second of two data regions in a row. The message that a function uses stack and does not modify SP never appears. Panics without a message of the tool also have a described cause.", "quantifier": "every program in which no name belongs to two functions and the code is below 4 GiB; every executable, start point, format, demangler and order of hash maps", "why_tests_cant": "the cause of an abort can be anywhere in arbitrarily large inputs", "anchors": ["src/main.rs: run lines 581, 712-734, 829-889, 922-940", "src/thumb.rs: analyze lines 12-26, 60-65, 384"]}
{"id": "C115", "title": "Functions of the same name share the node of the last one", "statement": "If several live functions have the same names, as local functions of different object files can have: every call that the LLVM-IR allows or that is in the machine code leads, directly or by a node for indirect calls, from the last function of the names of the caller to that of the callee; the other nodes have no outgoing edges, and the max printed for them is the figure of the compiler alone. No edge is made up: each one comes from a statement or the machine code of a function with the names of its start, and ends at the last function with the names of a callee, or it is one of an indirect call, whose node leads to every function of the type. Where the tool compares figures, whatever one of the functions uses is the local usage printed for the last one, so that two of them cannot use different amounts without an abort. Then the exact max printed for the last one bounds every chain of calls that starts at any of them.", "quantifier": "every program in which functions that share a name share all of their names; every executable, demangler and order of hash maps", "why_tests_cant": "object files and their names are unbounded, and the cases in which figures are not compared need two files with the same local names", "anchors": ["src/main.rs: run lines 457-515, 640-760, 795-945"]}
{"id": "C116", "title": "The printed max bounds executions also of functions with the same name", "statement": "On thumb targets, if the tool prints max = n for the last of the functions with the names of f, then at any time during a call of f at most n bytes of stack are in use by all active functions together. If not, then a function that can be reached from f has code that is not readable or changes SP or PC in unusual ways, or relies on a wrong figure of the compiler, or has a call of a kind that may be dropped, or shares its names with other functions without having a figure that is compared with theirs.", "quantifier": "all programs in which functions that share a name share all names; all executions of any length; all orders of hash maps", "why_tests_cant": "whether the figure of one function stands for another function of the same name depends on the order of symbols and on what is known of each; the tests contain no two functions of the same name", "anchors": ["src/main.rs: run lines 457-515, 640-760, 795-945", "src/thumb.rs: analyze lines 1-400"]}
{"id": "C117", "title": "The printed max bounds executions also of functions with the same name, without machine code", "statement": "On targets without machine code analysis, if the tool prints max = n for the last of the functions with the names of f, then whenever a call of f is executed, through direct calls, calls through bitcasts and pointers, memory routines and tail calls, the sizes that the compiler reports for the active functions are known and sum to at most n, and no active function calls a function outside the executable. If not, then a function that can be reached from f has a call of a kind that may be dropped.", "quantifier": "all programs in which functions that share a name share all names; all executions of any length; all orders of hash maps", "why_tests_cant": "which of several functions of a name is called is not in the LLVM-IR; the tests contain no two functions of the same name, and executions are unbounded", "anchors": ["src/main.rs: run lines 457-515, 551-760, 1034-1226"]}
{"id": "C118", "title": "The debug assertions never fail", "statement": "Whatever program is loaded, no run of a build with debug assertions fails one of them, and its output and its aborts are those of a build without. The assertion on addresses would fail exactly if two symbols had the same address.", "quantifier": "all worlds, inputs, start points, formats, demanglers and orders of hash maps; the second sentence for all programs", "why_tests_cant": "a failing assertion needs an executable or a graph that no test has", "anchors": ["src/main.rs: run lines 494-495, 1200-1213"]}
{"id": "C119", "title": "The figures are determined by the program also for functions with the same name", "statement": "If functions that share a name share all names, then the figures of a run are those of the program in which such functions share one node, that of the last one. The local usage of the node is the compiler's figure, compared in turn with the machine code of each of the functions. Its max is the weight of the heaviest chain of recursion groups along the calls that any of the functions makes; it is exact exactly if everything reached is known, does not leave the executable, and uses no stack in recursion. The nodes of the other functions show their own frame only. Roots and clusters are those of this program, a start point selects the last function of its name and shows exactly what that one may reach, and all of this can be read back from the output of the command line. What the mark before a max means (C107), what the listing shows (C102) and when its MAX covers what a function can need (C80) hold for these calls as well. If no name occurs twice then these are the figures of C85.", "quantifier": "all programs in which functions that share a name share all names and definitions, declarations and addresses occur once; all orders of hash maps, demanglers and start points", "why_tests_cant": "the claim is an equality with a specification over unboundedly many programs; the tests contain no two functions of the same name", "anchors": ["src/main.rs: run lines 457-515, 551-760, 795-945, 1034-1226"]}
{"id": "C120", "title": "Hash orders and unrelated changes do not move the figures of functions with the same name, and larger frames do not lower them", "statement": "If functions that share a name share all names, then two runs on the same inputs that both end with output show the same name, local usage and max for every function, in whatever orders the hash maps of definitions, declarations and types are iterated. If another version of the program has the same functions, and the same bodies and reported frame sizes for everything that can be reached from the node of a function, then the local usage and the max of that function are the same in both. If the bodies are the same and no function uses less stack in the other version, then no max is smaller, and none is larger by more than all differences together; on targets without machine code analysis this holds if no reported frame size is smaller.", "quantifier": "all programs in which functions that share a name share all names, definitions, declarations and addresses occur once, at most one type can stand for any type in formatting calls, and memory routines are found in any order of the definitions; all orders of hash maps in either run", "why_tests_cant": "hash orders are random in each process, and the claim is about all pairs of programs; the tests contain no two functions of the same name", "anchors": ["src/main.rs: run lines 457-515, 551-760, 795-945, 1034-1226"]}
{"id": "C121", "title": "Which programs with functions of the same name end without a panic is known", "statement": "The pass over the LLVM-IR ends exactly if every symbol has a name, all live functions contain only statements that the tool knows how to handle, and a memcmp that exists nowhere is not called directly after it was called through a bitcast. If functions that share a name share all names, then on thumb the call graph can be built exactly if, in addition, no function's first symbol name is a mapping symbol, its bytes can be found and decoded, its jumps go to starts of functions, and its figure can be reconciled with the compiler's and those found before it for functions of the same names. Then there is output in either format and with any start point, if only live functions have names that look as if they ended in a hash and the figures together fit into 64 bits. Orders of hash maps do not decide whether there is output: if there is for one order, there is for all, with the same figures.", "quantifier": "for the LLVM-IR all programs; for thumb all programs in which functions that share a name share all names; for the orders as C120, and the demangler adds no hash to the question mark", "why_tests_cant": "absence of panics is about all inputs; the tests contain no two functions of the same name", "anchors": ["src/main.rs: run lines 457-515, 551-760, 795-945, 1034-1226"]}
{"id": "C122", "title": "What the tool does not know about functions with the same name is announced", "statement": "If functions that share a name share all names, then the messages of a run are these: on other targets than thumb, a warning for each function without a figure of the compiler; on thumb, a warning for each function for which neither the compiler nor the machine code of the functions of its names so far gives a figure; one that the code section is missing, if it is; one for each function without a type and for each indirect call in machine code without LLVM-IR; one for each override with both figures, which because of inline assembly or the outliner; and one for each assumption about inline assembly, intrinsics and unknown callees. Whenever a printed max is only a lower bound, a message says why. Every function of unknown usage is announced, and the figure that a message attributes to LLVM is LLVM's.", "quantifier": "all programs in which functions that share a name share all names and declarations occur once; all executables, start points, demanglers and orders of hash maps", "why_tests_cant": "completeness of warnings is about all programs; the tests contain no two functions of the same name", "anchors": ["src/main.rs: run lines 457-515, 551-760, 795-945", "src/thumb.rs"]}
{"id": "C123", "title": "Indirect calls are represented exactly for functions with the same name", "statement": "If functions that share a name share all names, then the call graph has exactly one dashed node for every type that a live function is taken to have and that an indirect call may reach, with the label of C84. It is called exactly by the last functions of the names with a compatible indirect call, and calls exactly the live functions of this type, whether or not they are the last of their names, or all defined formatting functions if the type formats the chosen type, plus an unknown function exactly if some function that is not an outlined one has no type.", "quantifier": "all programs in which functions that share a name share all names, and definitions and declarations occur once; all executables, demanglers and orders of hash maps", "why_tests_cant": "the nodes depend on all types and all indirect calls of the program; the tests contain no two functions of the same name", "anchors": ["src/main.rs: run lines 457-542, 740-760, 955-1065"]}
{"id": "C124", "title": "What an abort says about functions of the same name", "statement": "What the tool says when a run panics after the files were read is the case as in C114 if functions that share a name share all names, and whatever the names are if no machine code is analysed. The one exception is the origin of a figure that does not match: the message says that LLVM reported it, but it is LLVM's figure for the names of the function or one found in the code of an earlier function with the same names, also where LLVM reported nothing.", "quantifier": "every program in which functions that share a name share all names, or every program on other targets than thumb or without a code section; code below 4 GiB; every executable, start point, format, demangler and order of hash maps", "why_tests_cant": "the cause of an abort can be anywhere in arbitrarily large inputs; the tests contain no two functions of the same name", "anchors": ["src/main.rs: run lines 581, 712-734, 829-889, 922-940", "src/thumb.rs: analyze"]}
{"id": "C125", "title": "Exactly which nodes and edges the LLVM-IR gives, whatever the names of the functions", "statement": "However names are shared between live functions, a definition in the LLVM-IR is taken for the last live function that has its name, and then for the last live function that is shown under the same name; so is the target of a direct call. After the pass over the LLVM-IR there is an edge from a function to a node of a name exactly if a statement of a definition that is taken for this function leads to this name, given the statements read before it, and there is a node of a name exactly as in C103. In the finished graph of a target without machine code analysis the edges between live functions are exactly these, and a function that is not the last one shown under its name has none. It does not hold that each function with the name of a definition gets the edges of its calls.", "quantifier": "every program without any assumption on names; every demangler, order of hash maps, executable; for the finished graph every target without machine code analysis", "why_tests_cant": "the edges depend on all names of all functions and on the order of all statements; the tests contain no two functions of the same name", "anchors": ["src/main.rs: run lines 460-512, 551-763"]}
{"id": "C126", "title": "Exactly which indirect calls are shown, whatever the names of the functions", "statement": "However names are shared between live functions, the nodes for indirect calls are exactly those of the types that some live function has and that some definition of a live function calls; each has an edge from a function exactly if a definition that is taken for this function makes such a call, and to a function exactly if the function has the type, or formats if the type is the one chosen for formatting. A function reaches another one by such a node exactly if a definition taken for it makes an indirect call for which the other one is a candidate, and it reaches an unknown function exactly if it makes an indirect call while the type of some function is not known.", "quantifier": "every program in which no name is defined or declared twice in the LLVM-IR, which holds for loaded programs, without any assumption on the names of live functions; every demangler, order of hash maps, executable", "why_tests_cant": "the nodes depend on all types, all indirect calls and all names of the program; the tests contain no two functions of the same name", "anchors": ["src/main.rs: run lines 457-542, 740-760, 955-1065"]}
{"id": "C127", "title": "The figures exactly, whatever the names of the functions, if no machine code is analysed", "statement": "However names are shared between live functions, and in whatever order the definitions are read, on targets without machine code analysis the local usage of a function is the figure that the compiler reports for the name it is shown under, and unknown if there is none. A maximum is shown exactly if the compiler reports some frame, and it is the weight of the heaviest chain of recursion groups along the calls, where a definition counts for the last function that it is taken for and a call goes to the last function that the called one is shown as. It is exact exactly if all that can be reached that way is known, stays in the executable and does not use stack in recursion. The clusters are the groups of functions that call each other that way, a start point shows what it reaches that way with the same figures, and all this can be read back from the output of the command. It does not hold that an exact maximum covers the calls of each definition with a name of the function.", "quantifier": "every loaded program on other targets than thumb, or every executable without a code section; no assumption on names or on the order of definitions; every demangler, order of hash maps, start point", "why_tests_cant": "the figures depend on all functions and all names of arbitrarily large programs; the tests contain no two functions of the same name", "anchors": ["src/main.rs: run lines 380-1290"]}
{"id": "C128", "title": "The figures exactly, whatever the names of the functions, with the machine code", "statement": "However names are shared between live functions, and in whatever order the definitions are read, the local usage of a function is the figure that the compiler reports for the name it is shown under, compared in turn with all machine code that counts for it: that of each function whose first symbol name is taken for a function shown under the same name. A maximum is shown exactly if the compiler reports some frame, and it is the weight of the heaviest chain of recursion groups along the calls of the definitions and the machine code that count for the functions. It is exact exactly if all that can be reached that way is known, stays in the executable and does not use stack in recursion. The clusters are the groups of functions that call each other that way, a start point shows what it reaches that way with the same figures, the figures do not depend on the order of the hash map of signatures, and all this can be read back from the output of the command. It does not hold that an exact maximum excludes unknown calls in the machine code of the functions that are called.", "quantifier": "every loaded program without any assumption on names or on the order of definitions; code below 4 GiB; every executable, demangler, order of hash maps, start point", "why_tests_cant": "the figures depend on all functions, all names and all machine code of arbitrarily large programs; the tests contain no two functions of the same name", "anchors": ["src/main.rs: run lines 380-1290"]}
{"id": "C129", "title": "When a run ends, whatever the names of the functions", "statement": "However names are shared between live functions, on thumb targets the call graph can be built exactly if the pass over the LLVM-IR ends and the machine code of every live function lies in the code section, can be decoded, jumps only to starts of live functions, and uses an amount of stack that can be reconciled with what is known of the function it counts for: the figure of the compiler and, in turn, those of all earlier code that counts for it. If besides only live functions have names that look like hashes and the figures that count for the live functions fit into 64 bits together, then there is output in either format and with any start point. If a run without a start point ends with output for one order of the hash map of signatures and at most one type can stand for any type, then it does for every order, with the same figures. It does not hold that functions whose code agrees with the figures of the compiler never stop the tool: if two share their first symbol name the code of one is compared with the figure of the other.", "quantifier": "every loaded program without any assumption on names or on the order of definitions; code below 4 GiB; every executable, demangler, order of hash maps, start point and output format", "why_tests_cant": "whether a run panics depends on all functions, all names and all machine code of arbitrarily large programs; the tests contain no two functions of the same name", "anchors": ["src/main.rs: run lines 380-1290"]}
{"id": "C130", "title": "What the tool says when a run panics is the case, whatever the names of the functions", "statement": "However names are shared between live functions, what the tool says when a run panics after the files were read is the case, if messages about machine code are read as about the function that the code counts for. If it says that a figure of LLVM does not match, then the code of some live function that counts for the named one does not go with the figure, which is what LLVM reports for the named function or was found in code that counts for it and comes earlier. It does not hold that the named function has a figure that does not match its own code.", "quantifier": "every program with code below 4 GiB, without any assumption on names; every executable, start point, output format, demangler and order of hash maps", "why_tests_cant": "which of many messages appears depends on all functions, all names and all machine code; the tests contain no two functions of the same name", "anchors": ["src/main.rs: run lines 380-1290"]}
{"id": "C131", "title": "Which gaps and overrides are announced, whatever the names of the functions", "statement": "However names are shared between live functions, the log says of a function that its usage is unknown exactly if, on other targets than thumb, the compiler gives no figure under its names, and on thumb, if no figure is known once some machine code that counts for it has been looked at; so each function of unknown usage that some code counts for is announced, or it is announced that there is no code. It says that a function makes an indirect call of unknown type exactly if code that counts for it contains one and no definition is taken for it. It says that a figure is overridden exactly if code that counts for the function changes the figure that was left for it, and because of assembly exactly if a definition with inline assembly is taken for it. Functions without a type and the missing code section are announced as in C86. It does not hold that the function named in the warning of an indirect call contains one.", "quantifier": "every program that declares each function once, without any assumption on names; every executable, start point, demangler and order of hash maps", "why_tests_cant": "the messages depend on all functions, all names and all machine code of arbitrarily large programs; the tests contain no two functions of the same name", "anchors": ["src/main.rs: run lines 457-580, 764-955"]}
