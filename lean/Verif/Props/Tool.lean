import Verif.Proof.Tool
import Verif.Props.Loaded
import Verif.Props.HashOrder
import Verif.Props.Output

/-!
Properties C77 to C79: the whole program, from the command line to its exit status.
-/

namespace CallStack

/-! ### C77 -/

/-- **C77** The exit status is 0 exactly if cargo has built the selected program, successfully, all files that
belong to this build can be read, and they lead to a result, which is then what is written to standard
output. (Unless clap ends the process.) -/
theorem C77_exit_status {u : CharClass} {demangle : Str → Str} {ord : HashOrder} {search : TagSearch}
    {w : World} {cl : Cli} {out : Str} (hw : w.wrapperVar = false) (hcl : w.cli = .ok cl) :
    tool u demangle ord search w = .exit 0 out ↔
      ∃ file host config stderr inp, w.Built cl file host config (some 0) stderr ∧
        w.Inputs cl file host config stderr inp ∧
        runFiles u demangle ord search inp w.elf cl.start cl.format = .ok out := by
  constructor
  · intro h
    rcases tool_exit hw hcl h with ⟨h0, _⟩ | ⟨file, host, config, code, stderr, built, h⟩
    · cases h0
    split at h
    · rename_i c' hb
      obtain ⟨h1, h2⟩ := buildEnd_exit hb
      simp only [End.exit.injEq] at h
      obtain ⟨rfl, _⟩ := h
      cases code with
      | none => cases h2
      | some k => exact absurd (congrArg some h2.symm) h1
    · cases h
    · rename_i rlib ll hb
      obtain ⟨rfl, b1, b2⟩ := buildEnd_paths hb
      rcases afterBuild_exit h with ⟨h0, _⟩ | ⟨_, inp, h1, h2⟩
      · cases h0
      · exact ⟨file, host, config, stderr, inp, built, h1.inputs b1 b2, h2⟩
  · rintro ⟨file, host, config, stderr, inp, built, inputs, run⟩
    obtain ⟨rlib, ll, b1, b2, _⟩ := inputs.builtins
    rw [tool_built hw hcl built, buildEnd_ok ((readStderr_rlib _ _).mpr b1) ((readStderr_ll _ _).mpr b2)]
    exact afterBuild_ok ((readStderr_rlib _ _).mpr b1) ((readStderr_ll _ _).mpr b2) inputs run

/-- **C77** With any other exit status, nothing is written to standard output. -/
theorem C77_no_result {u : CharClass} {demangle : Str → Str} {ord : HashOrder} {search : TagSearch}
    {w : World} {cl : Cli} {c : Int} {out : Str} (hw : w.wrapperVar = false) (hcl : w.cli = .ok cl)
    (h : tool u demangle ord search w = .exit c out) (hc : c ≠ 0) : out = [] := by
  rcases tool_exit hw hcl h with ⟨_, h0⟩ | ⟨file, host, config, code, stderr, built, h⟩
  · exact h0
  split at h
  · simp only [End.exit.injEq] at h
    exact h.2.symm
  · cases h
  · rcases afterBuild_exit h with ⟨_, h0⟩ | ⟨h0, _⟩
    · exact h0
    · exact absurd h0 hc

/-- **C77** If cargo fails its exit status becomes the one of the tool, 1 if it was killed. -/
theorem C77_build_failure {u : CharClass} {demangle : Str → Str} {ord : HashOrder} {search : TagSearch}
    {w : World} {cl : Cli} {file host stderr : Str} {config : Option Str} {code : Option Int}
    (hw : w.wrapperVar = false) (hcl : w.cli = .ok cl) (h : w.Built cl file host config code stderr)
    (fails : code ≠ some 0) : tool u demangle ord search w = .exit (code.getD 1) [] := by
  rw [tool_built hw hcl h]
  simp only [buildEnd, if_pos fails]

/-- **C77** If cargo succeeds but one of the files of compiler_builtins was not announced, the tool
aborts. -/
theorem C77_not_announced {u : CharClass} {demangle : Str → Str} {ord : HashOrder} {search : TagSearch}
    {w : World} {cl : Cli} {file host stderr : Str} {config : Option Str}
    (hw : w.wrapperVar = false) (hcl : w.cli = .ok cl) (h : w.Built cl file host config (some 0) stderr)
    (silent : (∀ path, ¬ LastMarked c!"@CARGO_CALL_STACK:compiler_builtins_rlib_path@" stderr path) ∨
      ∀ path, ¬ LastMarked c!"@CARGO_CALL_STACK:compiler_builtins_ll_path@" stderr path) :
    tool u demangle ord search w = .panic := by
  have hb : buildEnd (some 0) (readStderr stderr) = .panic .missingPath := by
    unfold buildEnd
    rw [if_neg (by simp)]
    rcases silent with e | e
    · rw [Option.eq_none_iff_forall_not_mem.mpr fun p hp => e p ((readStderr_rlib _ _).mp hp)]
    · rw [Option.eq_none_iff_forall_not_mem.mpr fun p hp => e p ((readStderr_ll _ _).mp hp)]
      cases (readStderr stderr).rlib <;> rfl
  rw [tool_built hw hcl h, hb]

/-- **C77** What was built: cargo was asked for the program that was selected, with the target and the features of
the command line, in release mode, with LLVM-IR and objects and fat LTO. -/
theorem C77_request {w : World} {cl : Cli} {file host stderr : Str} {config : Option Str}
    {code : Option Int} (h : w.Built cl file host config code stderr)
    (target : ∀ t, cl.args.target = some t → t.head? ≠ some '-')
    (features : ∀ t, cl.args.features = some t → t.head? ≠ some '-') (dash : file.head? ≠ some '-') :
    ∃ rest std, w.cargo (c!"rustc" :: rest) = some (code, stderr) ∧
      (std = c!"build-std=core,alloc,compiler_builtins" ∨ std = c!"build-std") ∧
      cargoReads rest = some
        { target := cl.args.target
          features := if cl.args.allFeatures then none else cl.args.features
          allFeatures := cl.args.allFeatures
          «example» := cl.args.example
          bin := cl.args.bin
          release := true
          unstable := [std]
          color := some c!"always"
          rustc := [c!"--emit=llvm-ir,obj", c!"-C", c!"embed-bitcode=yes", c!"-C", c!"lto=fat"] } := by
  obtain ⟨_, h3, _, _, t, cfg, lines, noStd, _, _, _, _, h7⟩ := h
  obtain ⟨rest, h8, h9⟩ := C64_cargo_request cl.args file noStd (((C64_one_file _ _).1).2 h3) target features dash
  rw [h8] at h7
  exact ⟨rest, _, h7, by cases noStd <;> simp, h9⟩

/-- Three runs: one that succeeds, one whose build fails, and one without announcements. -/
example :
    tool exClass id sameOrder linearSearch
      (exWorld (some 0) (rlibMarker ++ (c!"/b.rlib\n" ++ (llMarker ++ c!"/b.ll\n")))) =
      .exit 0 c!"56 MAX\nUsage Function\n32 memcpy\n16 f\n8 main\n" ∧
    tool exClass id sameOrder linearSearch
      (exWorld (some 101) (rlibMarker ++ (c!"/b.rlib\n" ++ c!"error\n"))) = .exit 101 [] ∧
    tool exClass id sameOrder linearSearch (exWorld (some 0) (rlibMarker ++ c!"/b.rlib\n")) = .panic := by
  decide +kernel

/-- The first of these runs reached the end of the build and asked cargo for the binary. -/
example : ∃ rest, (exWorld (some 0) (rlibMarker ++ (c!"/b.rlib\n" ++ (llMarker ++ c!"/b.ll\n")))).cargo
      (c!"rustc" :: rest) = some (some 0, rlibMarker ++ (c!"/b.rlib\n" ++ (llMarker ++ c!"/b.ll\n"))) ∧
    (cargoReads rest).map (fun q => (q.target, q.bin, q.release)) = some (some c!"x", some c!"app", true) := by
  refine Exists.elim ((C77_exit_status (u := exClass) (demangle := id) (ord := sameOrder)
    (search := linearSearch) (w := exWorld (some 0) (rlibMarker ++ (c!"/b.rlib\n" ++ (llMarker ++ c!"/b.ll\n"))))
    (out := c!"56 MAX\nUsage Function\n32 memcpy\n16 f\n8 main\n")
    (cl := { args := { bin := some c!"app", target := some c!"x" }, format := .top }) rfl rfl).mp
    (by decide +kernel)) ?_
  rintro file ⟨host, config, stderr, inp, h1, h2, _⟩
  have hs : file = c!"app" := by
    have := h1.2.1
    simpa [Args.Selects, eq_comm] using this
  obtain ⟨rest, std, r1, _, r2⟩ := C77_request h1 (by simp) (by simp) (by rw [hs]; decide)
  have he : stderr = rlibMarker ++ (c!"/b.rlib\n" ++ (llMarker ++ c!"/b.ll\n")) := by
    simp only [exWorld] at r1
    split at r1
    · simp only [Option.some.injEq, Prod.mk.injEq, true_and] at r1
      exact r1.symm
    · cases r1
  exact ⟨rest, he ▸ r1, by rw [r2]; rfl⟩

/-! ### C78 -/

/-- **C78** The file whose times are set before the build: `src/main.rs` if possible, else `src/lib.rs`,
else the first file with the extension `rs` below `src` or, if there is no `src`, below the root of the
project. No file is touched only if there is none of these. -/
theorem C78_touched (settable : Str → Bool) (srcExists : Bool)
    (walkSrc walkRoot : List (Option (Str × Str))) :
    (∀ path, touch settable srcExists walkSrc walkRoot = some (some path) ↔ settable path = true ∧
      (path = c!"src/main.rs" ∨ (settable c!"src/main.rs" = false ∧ path = c!"src/lib.rs") ∨
        (settable c!"src/main.rs" = false ∧ settable c!"src/lib.rs" = false ∧ ∃ pre name post,
          (if srcExists then walkSrc else walkRoot) = pre ++ some (path, name) :: post ∧ RustFile name ∧
          ∀ e ∈ pre, ∃ path' name', e = some (path', name') ∧ ¬ RustFile name'))) ∧
    (touch settable srcExists walkSrc walkRoot = some none ↔
      settable c!"src/main.rs" = false ∧ settable c!"src/lib.rs" = false ∧
      ∀ e ∈ (if srcExists then walkSrc else walkRoot),
        ∃ path' name', e = some (path', name') ∧ ¬ RustFile name') := by
  generalize hwalk : (if srcExists then walkSrc else walkRoot) = walk
  have spec := touchFirst_spec (settable := settable) walk
  unfold touch
  rw [hwalk]
  cases hm : settable c!"src/main.rs" with
  | true =>
    simp only [if_true, Option.some.injEq, reduceCtorEq, false_and, or_false, and_false, false_iff,
      not_false_eq_true, and_true, Bool.true_eq_false]
    intro path
    constructor
    · rintro rfl; exact ⟨hm, rfl⟩
    · rintro ⟨_, rfl⟩; rfl
  | false =>
    simp only [Bool.false_eq_true, if_false, true_and]
    cases hl : settable c!"src/lib.rs" with
    | true =>
      simp only [if_true, Option.some.injEq, reduceCtorEq, false_and, or_false, and_false, false_iff,
        not_false_eq_true, and_true, Bool.true_eq_false]
      intro path
      constructor
      · rintro rfl; exact ⟨hl, Or.inr rfl⟩
      · rintro ⟨h1, rfl | rfl⟩
        · rw [hm] at h1; simp at h1
        · rfl
    | false =>
      simp only [Bool.false_eq_true, if_false, true_and]
      refine ⟨fun path => ?_, spec.2⟩
      rw [spec.1]
      refine and_congr_right fun h1 => ⟨fun h => Or.inr (Or.inr h), ?_⟩
      rintro (rfl | rfl | h)
      · rw [hm] at h1; simp at h1
      · rw [hl] at h1; simp at h1
      · exact h

/-- A project without `src/main.rs` and `src/lib.rs`: the directory is skipped and the file is touched. -/
example : touch (fun f => f == c!"src/bin/app.rs") true
    [some (c!"src/bin", c!"bin"), some (c!"src/bin/.rs", c!".rs"), some (c!"src/bin/app.rs", c!"app.rs"), none] [] =
    some (some c!"src/bin/app.rs") := by decide

theorem triggers_main {pkg : Str} {args : Args} (h : Triggers pkg args c!"src/main.rs") : args.bin = some pkg := by
  generalize hp : c!"src/main.rs" = path at h
  cases h with
  | library => simp at hp
  | exampleFile => simp at hp
  | exampleDir => simp at hp
  | main hb => exact hb
  | binFile hb => simp at hp
  | binDir hb => simp at hp

/-- **C78** Setting the times makes cargo compile the selected program again exactly if: `src/main.rs` is touched and
belongs to the selected binary; or it cannot be touched and the package has a library; or neither can be touched and
the first Rust file that is found is the root of the program. -/
theorem C78_triggers_iff (pkg : Str) (args : Args) (settable : Str → Bool) (srcExists : Bool)
    (walkSrc walkRoot : List (Option (Str × Str))) :
    (∃ path, touch settable srcExists walkSrc walkRoot = some (some path) ∧ Triggers pkg args path) ↔
      (settable c!"src/main.rs" = true ∧ args.bin = some pkg) ∨
      (settable c!"src/main.rs" = false ∧ settable c!"src/lib.rs" = true) ∨
      (settable c!"src/main.rs" = false ∧ settable c!"src/lib.rs" = false ∧ ∃ pre path name post,
        (if srcExists then walkSrc else walkRoot) = pre ++ some (path, name) :: post ∧ RustFile name ∧
        (∀ e ∈ pre, ∃ path' name', e = some (path', name') ∧ ¬ RustFile name') ∧
        settable path = true ∧ Triggers pkg args path) := by
  have ht := (C78_touched settable srcExists walkSrc walkRoot).1
  constructor
  · rintro ⟨path, h1, h2⟩
    obtain ⟨h3, rfl | ⟨h4, rfl⟩ | ⟨h4, h5, pre, name, post, h6, h7, h8⟩⟩ := (ht path).mp h1
    · exact .inl ⟨h3, triggers_main h2⟩
    · exact .inr (.inl ⟨h4, h3⟩)
    · exact .inr (.inr ⟨h4, h5, pre, path, name, post, h6, h7, h8, h3, h2⟩)
  · rintro (⟨h1, h2⟩ | ⟨h1, h2⟩ | ⟨h1, h2, pre, path, name, post, h3, h4, h5, h6, h7⟩)
    · exact ⟨_, (ht _).mpr ⟨h1, .inl rfl⟩, .main h2⟩
    · exact ⟨_, (ht _).mpr ⟨h2, .inr (.inl ⟨h1, rfl⟩)⟩, .library⟩
    · exact ⟨path, (ht _).mpr ⟨h6, .inr (.inr ⟨h1, h2, pre, name, post, h3, h4, h5⟩)⟩, h7⟩

/-- **C78** The selected program is compiled again, if it is the binary in `src/main.rs`, or if there is no such file
but a library. Partial: see `C78_other_touched`. -/
theorem C78_triggers_partial {pkg : Str} {args : Args} {settable : Str → Bool} {srcExists : Bool}
    {walkSrc walkRoot : List (Option (Str × Str))}
    (h : if settable c!"src/main.rs" then args.bin = some pkg else settable c!"src/lib.rs" = true) :
    ∃ path, touch settable srcExists walkSrc walkRoot = some (some path) ∧ Triggers pkg args path := by
  refine (C78_triggers_iff pkg args settable srcExists walkSrc walkRoot).mpr ?_
  cases hm : settable c!"src/main.rs" with
  | true => rw [hm] at h; exact .inl ⟨rfl, h⟩
  | false => rw [hm] at h; exact .inr (.inl ⟨rfl, by simpa using h⟩)

/-- **C78** does not hold: if an example is selected, or another binary than the one in `src/main.rs`, and that file
exists, it is touched, though it is no part of the selected program. -/
theorem C78_other_touched {pkg : Str} {args : Args} {settable : Str → Bool} (srcExists : Bool)
    (walkSrc walkRoot : List (Option (Str × Str))) (other : args.bin ≠ some pkg)
    (h : settable c!"src/main.rs" = true) :
    ¬ ∃ path, touch settable srcExists walkSrc walkRoot = some (some path) ∧ Triggers pkg args path := by
  rw [C78_triggers_iff, h]
  simp [other]

/-- The example could be compiled again: its root exists, and there is a library. -/
example : ∃ args : Args, args.Selects c!"e" ∧ args.bin ≠ some c!"p" ∧
    Triggers c!"p" args c!"examples/e.rs" ∧
    touch (fun f => f == c!"src/main.rs" || f == c!"src/lib.rs" || f == c!"examples/e.rs") true [] [] =
      some (some c!"src/main.rs") :=
  ⟨{ «example» := some c!"e" }, by simp [Args.Selects], by simp, .exampleFile (e := c!"e") rfl, by decide⟩

/-! ### C79 -/

/-- **C79** From the command line to the number that is read: if the tool is run without a start point, for a
dot file, and ends with status 0, then the selected program was built, its files were loaded, and whenever a
reader of standard output sees `max = n` at the `i`-th node, `n` covers the frames of every chain of calls in
the program that starts at the `i`-th function. Partial: as `C41_end_to_end_partial`, the functions must not
share a name and must have unambiguous types, and no shown name may contain a backslash (C68). -/
theorem C79_from_command_line_partial {u : CharClass} {demangle : Str → Str} {ord : HashOrder}
    {search : TagSearch} {w : World} {cl : Cli} {out : Str} (typed : w.Typed) (hw : w.wrapperVar = false)
    (hcl : w.cli = .ok cl) (start : cl.start = none) (dot : cl.format = .dot)
    (h : tool u demangle ord search w = .exit 0 out) :
    ∃ file host config stderr inp p, w.Built cl file host config (some 0) stderr ∧
      w.Inputs cl file host config stderr inp ∧ loadProgram u ord inp = .ok p ∧
      (p.NamesOnce → p.Unambiguous → w.elf.Fits32 →
        (∀ g' cycles, finalGraph demangle ord search p w.elf none = .ok (g', cycles) →
          ∀ nd ∈ g'.nodes, '\\' ∉ demangle nd.name) →
        ∃ nodes edges clusters, (readDot out).bind DotFile.meaning = some (nodes, edges, clusters) ∧
          p.defined.length ≤ nodes.length ∧
          ∀ i nd n, nodes[i]? = some nd → nd.max = some (.exact n) → ∀ c, CallChain p.Call i c →
            ∃ shown, List.Forall₂ (fun j k => ∃ nd, nodes[j]? = some nd ∧ nd.loc = .exact k) c shown ∧
              shown.sum ≤ n ∧
              (p.target = .other → i < p.defined.length →
                ∃ frames, List.Forall₂ p.Frame c frames ∧ frames.sum ≤ n)) := by
  obtain ⟨file, host, config, stderr, inp, h1, h2, h3⟩ := (C77_exit_status hw hcl).mp h
  unfold runFiles at h3
  split at h3
  · simp at h3
  rename_i p hp
  refine ⟨file, host, config, stderr, inp, p, h1, h2, hp, ?_⟩
  intro once un fits hn
  obtain ⟨_, _, declares, sizes⟩ := C100_loaded typed h2 hp
  rw [start, dot] at h3
  unfold runText at h3
  cases hf : finalGraph demangle ord search p w.elf none with
  | error e => rw [hf] at h3; simp at h3
  | ok r =>
    obtain ⟨g', cycles⟩ := r
    rw [hf] at h3
    simp only [Except.ok.injEq] at h3
    subst h3
    have hat : ∀ (j : Nat) (x : ShownNode), (g'.nodes.map
        (fun nd => (⟨demangle nd.name, nd.max, nd.loc, nd.dashed⟩ : ShownNode)))[j]? = some x →
        x.max = g'.maxOf? j ∧ x.loc = g'.locOf j := by
      intro j x hx
      rw [List.getElem?_map] at hx
      cases hj : g'.nodes[j]? with
      | none => rw [hj] at hx; simp at hx
      | some nd =>
        rw [hj] at hx
        simp only [Option.map_some, Option.some.injEq] at hx
        subst hx
        simp [Graph.maxOf?, Graph.locOf, hj]
    refine ⟨_, _, _, C22_dot_faithful demangle g' cycles (hn g' cycles hf), ?_, ?_⟩
    · obtain ⟨st, ga, gb, a1, a2, a3, _⟩ := finalGraph_steps hf
      obtain ⟨cs, ext, st0, stIr, r⟩ := callGraph_facts once a1
      have l1 := (shortenNodes_iff.mp a3).length_eq
      have l2 := (analyzeMax_edges r.wf (r.u64 once sizes fits) a2).length
      have l3 := r.len
      have l4 := r.live_length
      rw [List.length_append] at l3
      rw [List.length_map]
      omega
    intro i x n hx hmax c hc
    rw [(hat i x hx).1] at hmax
    obtain ⟨k1, k2⟩ := C41_printed_locals_partial once declares un sizes fits hf hmax hc
    have key : ∀ c : List Nat, (∀ j ∈ c, (g'.locOf j).Known) →
        ∃ shown, List.Forall₂ (fun j k => ∃ nd, (g'.nodes.map
          (fun nd => (⟨demangle nd.name, nd.max, nd.loc, nd.dashed⟩ : ShownNode)))[j]? = some nd ∧
          nd.loc = .exact k) c shown ∧ shown.sum = weight g'.locOf c := by
      intro c
      induction c with
      | nil => exact fun _ => ⟨[], .nil, rfl⟩
      | cons j c ih =>
        intro hk
        obtain ⟨shown, s1, s2⟩ := ih (fun j hj => hk j (List.mem_cons_of_mem _ hj))
        have hj := hk j List.mem_cons_self
        unfold Graph.locOf at hj
        cases hnd : g'.nodes[j]? with
        | none => rw [hnd] at hj; exact hj.elim
        | some nd =>
          cases hl : nd.loc with
          | unknown => rw [hnd] at hj; simp only [hl] at hj; exact hj.elim
          | exact k =>
            refine ⟨k :: shown, .cons ⟨_, by rw [List.getElem?_map, hnd]; rfl, hl⟩ s1, ?_⟩
            have : g'.locOf j = .exact k := by unfold Graph.locOf; rw [hnd]; exact hl
            simp only [weight, List.map_cons, List.sum_cons, this, Local.bytes] at s2 ⊢
            omega
    obtain ⟨shown, s1, s2⟩ := key c k1
    exact ⟨shown, s1, s2 ▸ k2, fun other hi =>
      C41_end_to_end_partial other once declares un sizes hf hi hmax hc⟩

/-- A run that writes a dot file in which `main` gets `max = 56`. The program is the one for which the example
of `C73_from_files_partial` shows the remaining hypotheses. -/
example : ∃ out, tool exClass id sameOrder linearSearch
    { exWorld (some 0) (rlibMarker ++ (c!"/b.rlib\n" ++ (llMarker ++ c!"/b.ll\n"))) with
      cli := .ok { args := { bin := some c!"app", target := some c!"x" }, format := .dot } } = .exit 0 out ∧
    ((readDot out).bind DotFile.meaning).map (fun m => m.1.map fun nd => (nd.name, nd.max, nd.loc)) =
      some [(c!"main", some (.exact 56), .exact 8), (c!"f", some (.exact 48), .exact 16),
        (c!"memcpy", some (.exact 32), .exact 32)] := by
  refine ⟨dotText id ⟨[⟨c!"main", .exact 8, some (.exact 56), false⟩, ⟨c!"f", .exact 16, some (.exact 48), false⟩,
    ⟨c!"memcpy", .exact 32, some (.exact 32), false⟩], [(0, 1), (1, 2)]⟩ [], ?_, ?_⟩ <;> decide +kernel

/-! ### C83 -/

/-- **C83** If cargo builds the selected program and all files of the build can be read, the LLVM-IR is text
that the parser understands, and the program is acceptable in the sense of C75, then the tool ends with status
0 and writes a result. -/
theorem C83_result {u : CharClass} {demangle : Str → Str} {ord : HashOrder} {search : TagSearch} {w : World}
    {cl : Cli} {file host stderr : Str} {config : Option Str} {inp : Inputs} {items builtins : List Item}
    (typed : w.Typed) (hw : w.wrapperVar = false) (hcl : w.cli = .ok cl)
    (built : w.Built cl file host config (some 0) stderr) (inputs : w.Inputs cl file host config stderr inp)
    (app : ModuleText u items inp.ll) (cb : ModuleText u builtins inp.builtinsLl) :
    ∃ p, loadProgram u ord inp = .ok p ∧
      (p.NamesOnce → w.elf.Fits32 → (∀ e ∈ p.defined, ∃ n, e.2.Named n) →
        (∀ i s, p.Contains i s → p.Acceptable s) →
        (p.CallsAfterBitcast c!"memcmp" → (∃ j, p.LiveAt c!"memcmp" j) ∨ c!"memcmp" ∈ p.undefined) →
        (p.target.isThumb = true → w.elf.text ≠ none → ∀ i, i < p.defined.length → p.CodeOk search w.elf i) →
        p.HashesLive demangle → ∀ b : Nat → Nat,
        (∀ i k, i < p.defined.length → p.Figure search w.elf i k → k ≤ b i) →
        ((List.range p.defined.length).map b).sum < 2 ^ 64 →
        ∃ out, tool u demangle ord search w = .exit 0 out ∧
          runText demangle ord search p w.elf cl.start cl.format = .ok out) := by
  have hload : loadProgram u ord inp = .ok (buildProgram ord inp items builtins) := by
    unfold loadProgram
    rw [C58_module_reads_back u _ _ app, C58_module_reads_back u _ _ cb]
  refine ⟨_, hload, fun once fits named hacc hmem code hashes b hb hsum => ?_⟩
  obtain ⟨_, _, _, sizes⟩ := C100_loaded typed inputs hload
  obtain ⟨text, ht⟩ := C75_run_ends_with_output (demangle := demangle) (ord := ord) once sizes fits named hacc
    hmem code hashes hb hsum cl.start cl.format
  refine ⟨text, (C77_exit_status hw hcl).mpr ⟨file, host, config, stderr, inp, built, inputs, ?_⟩, ht⟩
  unfold runFiles
  rw [hload]
  simp only [ht]

/-- The run above meets the conditions. -/
example : ∃ stderr, (exWorld (some 0) stderr).Built
      { args := { bin := some c!"app", target := some c!"x" }, format := .top } c!"app" c!"h" none (some 0) stderr ∧
    (exWorld (some 0) stderr).Inputs { args := { bin := some c!"app", target := some c!"x" }, format := .top } c!"app"
      c!"h" none stderr exInputs ∧
    (exWorld (some 0) stderr).Typed ∧ exLoaded.NamesOnce ∧ (∀ e ∈ exLoaded.defined, ∃ n, e.2.Named n) ∧
    (∀ i s, exLoaded.Contains i s → exLoaded.Acceptable s) ∧
    ¬ exLoaded.CallsAfterBitcast c!"memcmp" ∧ exLoaded.target.isThumb = false ∧
    exLoaded.HashesLive id ∧
    (∀ i k, i < exLoaded.defined.length → exLoaded.Figure linearSearch ⟨[], none⟩ i k → k ≤ 32) := by
  have once : exLoaded.NamesOnce := namesOnce_of (by decide)
  have hrun : runText id sameOrder linearSearch exLoaded ⟨[], none⟩ none .top =
      .ok c!"56 MAX\nUsage Function\n32 memcpy\n16 f\n8 main\n" := by decide +kernel
  obtain ⟨named, hacc, _⟩ := C75_output_only_if once hrun
  have hsize : ∀ n k, exLoaded.Reported n k → k ≤ 32 := by
    intro n k h
    simp only [Program.Reported, exLoaded, mget] at h
    split at h
    · simp at h; omega
    · split at h
      · simp at h; omega
      · split at h <;> simp at h; omega
  have hstmt : ∀ i s, exLoaded.Contains i s → s = .directCall c!"f" ∨ s = .directCall c!"memcpy" ∨ s = .other := by
    rintro i s ⟨d, hd, _, hs⟩
    simp only [exLoaded, List.mem_cons, List.not_mem_nil, or_false] at hd
    rcases hd with rfl | rfl | rfl <;> simp at hs <;> simp [hs]
  refine ⟨rlibMarker ++ (c!"/b.rlib\n" ++ (llMarker ++ c!"/b.ll\n")), ?_, ?_, exWorld_typed _ _, once, named, hacc, ?_, rfl, ?_, ?_⟩
  · refine ⟨⟨_, rfl, Or.inl rfl⟩, by simp [Args.Selects], rfl, ⟨some c!"src/main.rs", by decide⟩, c!"x", _,
      [c!"target_os=\"none\""], true, askedTarget_iff.mpr rfl, rfl, ?_, by simp, by decide⟩
    have := textLines_exists c!"target_os=\"none\"\n"
    exact this
  · refine ⟨rfl, rfl, rfl, ⟨_, c!"app-2", rfl, selectLl_iff.mp (by decide), by decide, by decide, by decide⟩,
      ⟨c!"/b.rlib", c!"/b.ll", (readStderr_rlib _ _).mp (by decide +kernel),
        (readStderr_ll _ _).mp (by decide +kernel), by decide, by decide⟩, rfl, rfl⟩
  · intro h
    obtain ⟨i, h⟩ := h.contains
    have := hstmt _ _ h
    simp at this
  · refine ⟨?_, ?_, ?_, noHash_of (by decide +kernel), noHash_of (by decide +kernel)⟩
    · intro i f _ _ h
      simp [exLoaded] at h
    · intro i f h
      have := hstmt _ _ h
      simp at this
    · rintro j sig (⟨d, hd, _, rfl⟩ | ⟨d, hd, _⟩)
      · simp only [exLoaded, List.mem_cons, List.not_mem_nil, or_false] at hd
        rcases hd with rfl | rfl | rfl <;> exact noHash_of (by decide +kernel)
      · simp [exLoaded] at hd
  · rintro i k _ (⟨_, _, _, n, _, _, _, _, h, _⟩ | ⟨ht, _⟩)
    · exact hsize n k h
    · cases ht

end CallStack
