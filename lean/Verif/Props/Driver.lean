import Verif.Proof.Driver
import Verif.Props.EndToEnd
import Verif.Props.ParseModule

/-!
Properties C59-C65, C71-C73: the rustc wrapper, the cargo invocation and the loading of the program
(src/wrapper.rs, src/main.rs:103-418).
-/

namespace CallStack

/-! ### C59 -/

/-- **C59** The compiler is started with the original arguments, in order and unchanged; in front of them
is `-Zemit-stack-sizes` and, exactly for the crate `compiler_builtins`, `--emit=llvm-ir`. Its exit status is
the one of the wrapper. -/
theorem C59_forwards_arguments {valued : Str → Prop} {args : List Str} {os : List RustcOpt} {name : Str}
    (self rustc : Str) (h : RustcReads valued args os) (hc : CargoStyle valued args)
    (hn : crateNameOf os = some name) :
    (name ≠ c!"compiler_builtins" →
      (wrapper (self :: rustc :: args)).command = .ok (rustc, c!"-Zemit-stack-sizes" :: args)) ∧
    (name = c!"compiler_builtins" → ∀ dir, outDirOf os = some dir →
      (wrapper (self :: rustc :: args)).command =
        .ok (rustc, c!"--emit=llvm-ir" :: c!"-Zemit-stack-sizes" :: args)) ∧
    ∀ code, wrapperExit (some code) = code := by
  have hp : RustcArgs.parse args = .ok ⟨(extraOf os).getD [], name, outDirOf os, externsOf os⟩ := by
    unfold RustcArgs.parse
    rw [parseArgsLoop_eq h hc, foldl_add]
    simp [hn]
  refine ⟨fun h1 => ?_, fun h1 dir h2 => ?_, fun _ => rfl⟩
  · simp [wrapper, hp, h1]
  · subst h1
    simp [wrapper, hp, h2]

/-- **C59** Whatever the arguments are, if the compiler is started at all then with all of them. -/
theorem C59_nothing_lost {argv : List Str} {prog : Str} {cmd : List Str}
    (h : (wrapper argv).command = .ok (prog, cmd)) :
    ∃ self args, argv = self :: prog :: args ∧ (cmd = c!"-Zemit-stack-sizes" :: args ∨
      cmd = c!"--emit=llvm-ir" :: c!"-Zemit-stack-sizes" :: args) := by
  rcases argv with _ | ⟨self, _ | ⟨rustc, args⟩⟩
  · simp [wrapper] at h
  · simp [wrapper] at h
  · unfold wrapper at h
    simp only [List.drop_succ_cons, List.drop_zero] at h
    split at h
    · simp at h
    · split at h
      · split at h
        · simp at h
        · simp only [Except.ok.injEq, Prod.mk.injEq] at h
          obtain ⟨rfl, rfl⟩ := h
          exact ⟨self, args, rfl, .inr rfl⟩
      · simp only [Except.ok.injEq, Prod.mk.injEq] at h
        obtain ⟨rfl, rfl⟩ := h
        exact ⟨self, args, rfl, .inl rfl⟩

example : wrapper [c!"cargo-call-stack", c!"rustc", c!"--crate-name", c!"app", c!"--extern",
      c!"noprelude:compiler_builtins=/a=b.rlib", c!"-C", c!"opt-level=3"] =
    ⟨[rlibMarker ++ c!"/a=b.rlib"], .ok (c!"rustc", [c!"-Zemit-stack-sizes", c!"--crate-name", c!"app",
      c!"--extern", c!"noprelude:compiler_builtins=/a=b.rlib", c!"-C", c!"opt-level=3"])⟩ := by decide +kernel

/-- A compiler call that builds no crate, like a question for the version, is refused. -/
theorem C59_queries_refused :
    (wrapper [c!"cargo-call-stack", c!"rustc", c!"-vV"]).command = .error .missingCrateName := by decide +kernel

/-! ### C60 -/

/-- **C60** The arguments are understood as `rustc` understands them. Partial: only for the forms that cargo
uses (`CargoStyle`); for others see `C60_other_forms`. -/
theorem C60_understood_partial {valued : Str → Prop} {args : List Str} {os : List RustcOpt}
    (h : RustcReads valued args os) (hc : CargoStyle valued args) :
    (∀ name, crateNameOf os = some name →
      RustcArgs.parse args = .ok ⟨(extraOf os).getD [], name, outDirOf os, externsOf os⟩) ∧
    (crateNameOf os = none → RustcArgs.parse args = .error .missingCrateName) := by
  constructor
  · intro name hn
    unfold RustcArgs.parse
    rw [parseArgsLoop_eq h hc, foldl_add]
    simp [hn]
  · intro hn
    unfold RustcArgs.parse
    rw [parseArgsLoop_eq h hc, foldl_add]
    simp [hn]

/-- **C60** Reading the arguments fails only if an option at the end lacks its value, if the extra file name
lacks its value, or if there is no crate name. -/
theorem C60_failures {args : List Str} {e : WrapErr} (h : RustcArgs.parse args = .error e) :
    (∃ opt ∈ [c!"--extern", c!"--crate-name", c!"--out-dir", c!"-C"], e = .missingArgument opt ∧
      args.getLast? = some opt) ∨
    (e = .missingExtraFilename ∧ ([c!"-C", c!"extra-filename"] <:+: args ∨ c!"-Cextra-filename" ∈ args)) ∨
    (e = .missingCrateName ∧ ∀ valued os, RustcReads valued args os → CargoStyle valued args →
      crateNameOf os = none) := by
  unfold RustcArgs.parse at h
  split at h
  · rename_i e' he
    simp only [Except.error.injEq] at h
    subst h
    rcases parseArgsLoop_error he with h | h
    · exact .inl h
    · exact .inr (.inl h)
  · rename_i st hst
    split at h
    · rename_i hn
      simp only [Except.error.injEq] at h
      refine .inr (.inr ⟨h.symm, fun valued os h1 h2 => ?_⟩)
      rw [parseArgsLoop_eq h1 h2, foldl_add] at hst
      simp only [Except.ok.injEq] at hst
      rw [← hst] at hn
      simpa using hn
    · simp at h

/-- The command line of an example: a long option twice, values that contain `=`, joined `-C`, an option
with a value in the next argument. -/
def exRustcArgs : List Str :=
  [c!"--crate-name", c!"a", c!"--edition=2018", c!"--cfg", c!"feature=\"x\"", c!"-Cextra-filename=-1", c!"-C",
    c!"opt-level=z", c!"--extern", c!"noprelude:core=/x=y", c!"--extern", c!"alloc", c!"--crate-name", c!"b"]

def exRustcOpts : List RustcOpt :=
  [.crateName c!"a", .other, .other, .extraFilename c!"-1", .other, .ext ⟨c!"core", some c!"/x=y"⟩,
    .ext ⟨c!"alloc", none⟩, .crateName c!"b"]

example : RustcReads (· = c!"--cfg") exRustcArgs exRustcOpts ∧ CargoStyle (· = c!"--cfg") exRustcArgs ∧
    RustcArgs.parse exRustcArgs =
      .ok ⟨c!"-1", c!"b", none, [⟨c!"core", some c!"/x=y"⟩, ⟨c!"alloc", none⟩]⟩ := by
  have foreign : ∀ a : Str, (decide (a ∉ LongNames) && LongNames.all (fun n => !startsWith a (n ++ c!"=")) &&
      !startsWith a c!"-C") = true → Foreign a := by
    intro a h
    simp only [Bool.and_eq_true, decide_eq_true_eq, List.all_eq_true, Bool.not_eq_true'] at h
    refine ⟨h.1.1, fun n hn hp => ?_, fun hp => ?_⟩
    · have := h.1.2 n hn
      rw [(startsWith_iff _ _).2 hp] at this
      simp at this
    · have := h.2
      rw [(startsWith_iff _ _).2 hp] at this
      simp at this
  have pairs : ∀ {a v : Str} {l : List Str}, [a, v] <:+: l → (a, v) ∈ l.zip l.tail := by
    rintro a v l ⟨x, y, rfl⟩
    induction x with
    | nil => simp
    | cons c x ih =>
      simp only [List.cons_append, List.tail_cons]
      cases x with
      | nil => simp
      | cons d x =>
        simp only [List.cons_append, List.zip_cons_cons, List.mem_cons]
        exact .inr (by simpa using ih)
  refine ⟨?_, ?_, by decide +kernel⟩
  · refine .long (.crateName _) (.flag (foreign _ (by decide)) (by decide)
      (.valued (foreign _ (by decide)) rfl (.shortJoined (by decide) (.extraFilename c!"-1" (.inl rfl))
      (.short (.codegen ?_) (.long (.ext (.inr ⟨c!"noprelude", rfl⟩)
        (.path (name := c!"core") (path := c!"/x=y") (by decide) (by decide) (by decide)))
      (.long (.ext (.inl rfl) (.mk (name := c!"alloc") (by decide) (by decide) (by decide)))
      (.long (.crateName _) .nil)))))))
    rintro k (rfl | rfl) <;> decide
  · refine ⟨by decide, by decide, by decide, ?_, ?_⟩
    · intro v o e hi hopt hx ho
      have hv : v = c!"noprelude:core=/x=y" ∨ v = c!"alloc" := by
        have := pairs hi
        simp only [exRustcArgs, List.tail_cons, List.zip_cons_cons, List.mem_cons, Prod.mk.injEq] at this
        simpa using this
      have ho' : o.getLast? = some ':' := by
        rcases hopt with h | ⟨w, rfl⟩
        · exact absurd h ho
        · simp
      have hpre : o <+: v := by
        cases hx with
        | mk => exact List.prefix_append _ _
        | path => exact List.prefix_append _ _
      have key : ∀ v : Str, ((List.range (v.length + 1)).all
          (fun n => decide ((v.take n).getLast? = some ':' → v.take n = c!"noprelude:"))) = true →
          o <+: v → o = c!"noprelude:" := by
        intro v hv hp
        have h1 := List.all_eq_true.1 hv o.length (by simpa using Nat.lt_succ_of_le hp.length_le)
        rw [← List.prefix_iff_eq_take.1 hp] at h1
        exact of_decide_eq_true h1 ho'
      rcases hv with rfl | rfl <;> exact key _ (by decide +kernel) hpre
    · rintro a v hi rfl
      have := pairs hi
      have : v = c!"feature=\"x\"" := by
        simp only [exRustcArgs, List.tail_cons, List.zip_cons_cons, List.mem_cons, Prod.mk.injEq] at this
        simpa using this
      subst this
      exact foreign _ (by decide)

/-- **C60** does not hold for other forms that `rustc` accepts: values after `=` are overlooked, and so are
crate options other than `noprelude`, `--codegen` and the underscore in the name of the option. -/
theorem C60_other_forms :
    (RustcReads (fun _ => False) [c!"--crate-name=app"] [.crateName c!"app"] ∧
      RustcArgs.parse [c!"--crate-name=app"] = .error .missingCrateName) ∧
    (wrapper [c!"w", c!"rustc", c!"--crate-name", c!"app", c!"--extern",
      c!"priv,noprelude:compiler_builtins=/x.rlib"]).stderr = [] ∧
    (wrapper [c!"w", c!"rustc", c!"--crate-name", c!"app", c!"--extern=compiler_builtins=/x.rlib"]).stderr = [] ∧
    (RustcReads (fun _ => False) [c!"--crate-name", c!"app", c!"-Cextra_filename=-1"]
        [.crateName c!"app", .extraFilename c!"-1"] ∧
      RustcArgs.parse [c!"--crate-name", c!"app", c!"-Cextra_filename=-1"] = .ok ⟨[], c!"app", none, []⟩) := by
  refine ⟨⟨.joined (.crateName c!"app") .nil, by decide +kernel⟩, by decide +kernel, by decide +kernel, ?_,
    by decide +kernel⟩
  exact .long (.crateName _) (.shortJoined (by decide) (.extraFilename c!"-1" (.inr rfl)) .nil)

/-! ### C61 -/

/-- **C61** The last announced path of each kind arrives unchanged; all other lines, and only those, are
passed on in order. -/
theorem C61_announcements_arrive {ms : List Msg} {stderr : Str} (h : StreamText ms stderr)
    (hp : ∀ m ∈ ms, m.Proper) :
    (readStderr stderr).echoed = ms.filterMap Msg.line? ∧
    (readStderr stderr).rlib =
      (ms.filterMap Msg.rlib?).getLast? ∧
    (readStderr stderr).ll =
      (ms.filterMap Msg.ll?).getLast? := by
  unfold readStderr
  rw [stream_lines h hp, markers_eq ms hp]
  simp

/-- **C61** What the wrapper announces: the path of every extern crate `compiler_builtins` that has one
and, if it compiles that crate, the path of its LLVM-IR. -/
theorem C61_wrapper_announces {valued : Str → Prop} {args : List Str} {os : List RustcOpt} {name : Str}
    (self rustc : Str) (h : RustcReads valued args os) (hc : CargoStyle valued args)
    (hn : crateNameOf os = some name) :
    ∃ ms : List Msg, (wrapper (self :: rustc :: args)).stderr = ms.map Msg.text ∧
      (∀ p, .rlib p ∈ ms ↔ ⟨c!"compiler_builtins", some p⟩ ∈ externsOf os) ∧
      (∀ p, .ll p ∈ ms ↔ name = c!"compiler_builtins" ∧ ∃ dir, outDirOf os = some dir ∧
        p = dir ++ c!"/compiler_builtins" ++ (extraOf os).getD [] ++ c!".ll") ∧
      ∀ t, .line t ∉ ms := by
  have hp : RustcArgs.parse args = .ok ⟨(extraOf os).getD [], name, outDirOf os, externsOf os⟩ :=
    (C60_understood_partial h hc).1 name hn
  have rlibs : ∀ es : List Extern, ∃ ms : List Msg, es.flatMap announceRlib = ms.map Msg.text ∧
      (∀ p, .rlib p ∈ ms ↔ ⟨c!"compiler_builtins", some p⟩ ∈ es) ∧ (∀ p, .ll p ∉ ms) ∧
      ∀ t, .line t ∉ ms := by
    intro es
    induction es with
    | nil => exact ⟨[], rfl, by simp, by simp, by simp⟩
    | cons e es ih =>
      obtain ⟨ms, h1, h2, h3, h4⟩ := ih
      obtain ⟨n, path⟩ := e
      by_cases hn : n = c!"compiler_builtins"
      · cases path with
        | none =>
          refine ⟨ms, ?_, fun p => ?_, h3, h4⟩
          · simp [announceRlib, h1]
          · simp [h2]
        | some path =>
          subst hn
          refine ⟨.rlib path :: ms, ?_, fun p => ?_, ?_, ?_⟩
          · simp [announceRlib, h1, Msg.text, rlibMarker]
          · simp [h2]
          · simpa using h3
          · simpa using h4
      · refine ⟨ms, ?_, fun p => ?_, h3, h4⟩
        · simp [announceRlib, hn, h1]
        · simp [h2, Ne.symm hn]
  obtain ⟨ms, h1, h2, h3, h4⟩ := rlibs (externsOf os)
  by_cases hb : name = c!"compiler_builtins"
  · cases hd : outDirOf os with
    | none =>
      refine ⟨ms, ?_, h2, ?_, h4⟩
      · subst hb
        simp [wrapper, hp, hd, h1]
      · simp [h3]
    | some dir =>
      refine ⟨ms ++ [.ll (dir ++ c!"/compiler_builtins" ++ (extraOf os).getD [] ++ c!".ll")], ?_, ?_, ?_, ?_⟩
      · subst hb
        simp [wrapper, hp, hd, h1, Msg.text, llMarker, builtinsLlPath]
      · simp [h2]
      · simp [h3, hb]
      · simpa using h4
  · refine ⟨ms, ?_, h2, ?_, h4⟩
    · simp [wrapper, hp, hb, h1]
    · simp [h3, hb]

example : readStderr (c!"   Compiling a\r\n" ++ (rlibMarker ++ (c!"/x/1.rlib\n" ++ (c!"warning: b\n\n" ++
      (llMarker ++ (c!"/y z.ll\n" ++ (rlibMarker ++ c!"/x/2.rlib"))))))) =
    ⟨some c!"/x/2.rlib", some c!"/y z.ll", [c!"   Compiling a", c!"warning: b", []]⟩ := by decide +kernel

/-- An announcement that does not begin a line is missed, and the tool aborts. -/
example : buildEnd (some 0) (readStderr (c!"Building 1/2\r" ++ (rlibMarker ++ c!"/x/1.rlib\n"))) =
    .panic .missingPath := by decide +kernel

/-! ### C62 -/

/-- **C62** The chosen file is the first one with the largest modification time among the LLVM-IR files of
the crate; if there is none the tool aborts. -/
theorem C62_newest_file (file : Str) (entries : List (Str × Int)) :
    (∀ name, selectLl file entries = some name → ∃ pre t post, entries = pre ++ (name, t) :: post ∧
      LlFile file name ∧ (∀ e ∈ pre, LlFile file e.1 → e.2 < t) ∧ ∀ e ∈ post, LlFile file e.1 → e.2 ≤ t) ∧
    (selectLl file entries = none ↔ ∀ e ∈ entries, ¬ LlFile file e.1) := by
  have h : BestOf file ([] ++ entries) (entries.foldl (llStep file) none) :=
    bestOf_fold entries (es := []) (best := none) (by intro e he; simp at he)
  rw [List.nil_append] at h
  unfold selectLl
  cases hb : entries.foldl (llStep file) none with
  | none =>
    rw [hb] at h
    have h : ∀ e ∈ entries, ¬ LlFile file e.1 := h
    simpa using h
  | some b =>
    rw [hb] at h
    obtain ⟨pre, post, h1, h2, h3, h4⟩ := h
    refine ⟨?_, ?_⟩
    · intro name hn
      simp only [Option.map_some, Option.some.injEq] at hn
      subst hn
      exact ⟨pre, b.2, post, h1, h2, h3, h4⟩
    · simp only [Option.map_some, reduceCtorEq, false_iff]
      intro hall
      exact hall b (by simp [h1]) h2

/-- **C62** The object file that belongs to it has the same name with the extension `o`. -/
theorem C62_object_file {file name : Str} (h : LlFile file name) :
    ∃ c x, CrateName file c ∧ name = c ++ (c!"-" ++ (x ++ c!".ll")) ∧ objName name = c ++ (c!"-" ++ (x ++ c!".o")) := by
  obtain ⟨c, x, hc, rfl⟩ := h
  refine ⟨c, x, hc, rfl, ?_⟩
  have : c ++ (c!"-" ++ (x ++ c!".ll")) = (c ++ (c!"-" ++ x)) ++ c!".ll" := by simp
  unfold objName
  rw [this, stemExt_ll (by simp)]
  simp

example : selectLl c!"my-app" [(c!"my_app-1.ll", 5), (c!"my_app-2.ll", 7), (c!"my_app-2.o", 9),
      (c!"my_app_x-3.ll", 9), (c!"my_app-4.ll", 7), (c!".ll", 9)] = some c!"my_app-2.ll" ∧
    objName c!"my_app-2.ll" = c!"my_app-2.o" := by decide +kernel

/-! ### C63 -/

/-- **C63** Unless it runs as the wrapper, the tool proceeds exactly with the supported toolchain, or if the
user has opted out. -/
theorem C63_toolchain_gate (wrapperVar : Bool) (hash optOut : Option Str) :
    (startup wrapperVar hash optOut = .proceed ↔ wrapperVar = false ∧
      (hash = some c!"2b603f95a48f10f931a61dd208fe3e5ffd64e491" ∨
        optOut = some c!"I won't open issues about unsupported toolchains")) ∧
    (startup wrapperVar hash optOut = .wrapper ↔ wrapperVar = true) := by
  cases wrapperVar with
  | true => simp [startup]
  | false =>
    unfold startup
    rw [if_neg (by simp)]
    split
    · rename_i h
      refine ⟨⟨fun h' => by simp at h', ?_⟩, by simp⟩
      rintro ⟨_, h' | h'⟩
      · exact absurd h' h.1
      · exact absurd h' h.2
    · rename_i h
      refine ⟨⟨fun _ => ⟨rfl, ?_⟩, fun _ => rfl⟩, by simp⟩
      by_cases h1 : hash = some supportedHash
      · exact .inl h1
      · by_cases h2 : optOut = some unsupportedValue
        · exact .inr h2
        · exact absurd ⟨h1, h2⟩ h

example : startup false (some c!"abc") none = .unsupported ∧ startup false none (some c!"yes") = .unsupported ∧
    startup false none (some c!"I won't open issues about unsupported toolchains") = .proceed := by
  decide +kernel

/-! ### C64 -/

/-- **C64** The tool refuses to run unless exactly one of `--example` and `--bin` is given. -/
theorem C64_one_file (args : Args) (f : Str) :
    (args.file = some f ↔ (args.example = some f ∧ args.bin = none) ∨ (args.example = none ∧ args.bin = some f)) ∧
    (args.file = none ↔ (args.example.isSome ↔ args.bin.isSome)) := by
  obtain ⟨_, bin, ex, _, _⟩ := args
  cases bin <;> cases ex <;> simp [Args.file]

/-- **C64** What cargo reads: the target of the flag, all features or the given ones, the chosen example or
binary; always release mode, a standard library built from source, LLVM-IR and objects, and fat LTO. The
values must not begin with a dash: cargo would refuse them. -/
theorem C64_cargo_request (args : Args) (f : Str) (noStd : Bool) (hf : args.file = some f)
    (target : ∀ t, args.target = some t → t.head? ≠ some '-')
    (features : ∀ t, args.features = some t → t.head? ≠ some '-') (file : f.head? ≠ some '-') :
    ∃ rest, cargoArgs args f noStd = c!"rustc" :: rest ∧
      cargoReads rest = some
        { target := args.target
          features := if args.allFeatures then none else args.features
          allFeatures := args.allFeatures
          «example» := args.example
          bin := args.bin
          release := true
          unstable := [if noStd then c!"build-std=core,alloc,compiler_builtins" else c!"build-std"]
          color := some c!"always"
          rustc := [c!"--emit=llvm-ir,obj", c!"-C", c!"embed-bitcode=yes", c!"-C", c!"lto=fat"] } := by
  obtain ⟨tgt, bin, ex, feats, all⟩ := args
  have hstd : cargoReads ([if noStd then c!"-Zbuild-std=core,alloc,compiler_builtins" else c!"-Zbuild-std"] ++
      [c!"--color=always", c!"--", c!"--emit=llvm-ir,obj", c!"-C", c!"embed-bitcode=yes", c!"-C", c!"lto=fat"]) =
      some { unstable := [if noStd then c!"build-std=core,alloc,compiler_builtins" else c!"build-std"]
             color := some c!"always"
             rustc := [c!"--emit=llvm-ir,obj", c!"-C", c!"embed-bitcode=yes", c!"-C", c!"lto=fat"] } := by
    cases noStd <;> decide +kernel
  have hrel := cargoReads_release hstd
  have hfile : ∃ words, (∀ x : List Str, (if ex.isSome then [c!"--example", f] else []) ++
      ((if bin.isSome then [c!"--bin", f] else []) ++ x) = words ++ x) ∧
      ∀ {x r}, cargoReads x = some r → r.example = none → r.bin = none →
        cargoReads (words ++ x) = some { r with «example» := ex, bin := bin } := by
    have hf := ((C64_one_file _ f).1).1 hf
    simp only at hf
    rcases hf with ⟨rfl, rfl⟩ | ⟨rfl, rfl⟩
    · refine ⟨[c!"--example", f], fun x => rfl, fun {x r} hx h1 h2 => ?_⟩
      show cargoReads (c!"--example" :: f :: x) = _
      rw [cargoReads_example hx file h1, ← h2]
    · refine ⟨[c!"--bin", f], fun x => rfl, fun {x r} hx h1 h2 => ?_⟩
      show cargoReads (c!"--bin" :: f :: x) = _
      rw [cargoReads_bin hx file h2, ← h1]
  obtain ⟨words, hw, hread⟩ := hfile
  have h1 := hread hrel rfl rfl
  rw [← hw] at h1
  have hfeat : ∃ words, (∀ x : List Str, (if all then [c!"--all-features"]
      else match feats with
        | some features => [c!"--features", features]
        | none => []) ++ x = words ++ x) ∧
      ∀ {x r}, cargoReads x = some r → r.features = none → r.allFeatures = false → cargoReads (words ++ x) =
        some { r with features := if all then none else feats, allFeatures := all } := by
    cases all with
    | true =>
      refine ⟨[c!"--all-features"], fun x => rfl, fun {x r} hx h1 h2 => ?_⟩
      show cargoReads (c!"--all-features" :: x) = _
      rw [cargoReads_all hx, ← h1]
      rfl
    | false =>
      cases feats with
      | none =>
        refine ⟨[], fun x => rfl, fun {x r} hx h1 h2 => ?_⟩
        rw [List.nil_append, hx]
        simp only [Bool.false_eq_true, if_false]
        rw [← h1, ← h2]
      | some v =>
        refine ⟨[c!"--features", v], fun x => rfl, fun {x r} hx h1 h2 => ?_⟩
        show cargoReads (c!"--features" :: v :: x) = _
        rw [cargoReads_features hx (features v rfl) h1]
        simp only [Bool.false_eq_true, if_false]
        rw [← h2]
  obtain ⟨words', hw', hread'⟩ := hfeat
  have h2 := hread' h1 rfl rfl
  rw [← hw'] at h2
  cases tgt with
  | none =>
    refine ⟨_, ?_, h2⟩
    simp only [cargoArgs, List.append_assoc]
    rfl
  | some t =>
    refine ⟨_, ?_, cargoReads_target h2 (target t rfl) rfl⟩
    simp only [cargoArgs, List.append_assoc]
    rfl

example : cargoArgs { target := some c!"thumbv7m-none-eabi", bin := some c!"app", features := some c!"a b" } c!"app" true =
    [c!"rustc", c!"--target", c!"thumbv7m-none-eabi", c!"--features", c!"a b", c!"--bin", c!"app", c!"--release",
      c!"-Zbuild-std=core,alloc,compiler_builtins", c!"--color=always", c!"--", c!"--emit=llvm-ir,obj", c!"-C",
      c!"embed-bitcode=yes", c!"-C", c!"lto=fat"] := by decide +kernel

/-- **C64** The standard library is left out exactly for targets whose configuration has the line
`target_os="none"`. -/
theorem C64_no_std (cfg : Str) :
    isNoStd cfg = true ↔ ∃ a b, cfg = a ++ (c!"target_os=\"none\"" ++ b) ∧
      (a = [] ∨ a.getLast? = some '\n') ∧ (b = [] ∨ b.head? = some '\n' ∨ c!"\r\n" <+: b) := by
  have line : ∀ l : Str, (startsWith l c!"target_os=" && l.drop c!"target_os=".length == c!"\"none\"") = true ↔
      l = c!"target_os=\"none\"" := by
    intro l
    rw [Bool.and_eq_true, startsWith_iff, beq_iff_eq]
    constructor
    · rintro ⟨⟨t, rfl⟩, h⟩
      rw [List.drop_left] at h
      rw [h]
      rfl
    · rintro rfl
      exact ⟨⟨c!"\"none\"", rfl⟩, rfl⟩
  have : isNoStd cfg = true ↔ c!"target_os=\"none\"" ∈ textLines cfg := by
    unfold isNoStd
    rw [List.any_eq_true]
    constructor
    · rintro ⟨l, h1, h2⟩
      rwa [← (line l).1 h2]
    · intro h
      exact ⟨_, h, (line _).2 rfl⟩
  rw [this]
  constructor
  · intro h
    obtain ⟨a, e, b, h1, h2, _, h3⟩ := textLines_mem h
    refine ⟨a, e ++ b, h1, h2, ?_⟩
    rcases h3 with rfl | rfl | h3
    · exact .inr (.inl rfl)
    · exact .inr (.inr ⟨b, rfl⟩)
    · exact .inl h3
  · rintro ⟨a, b, rfl, h1, h2⟩
    obtain ⟨ls, h3⟩ := textLines_append (y := c!"target_os=\"none\"" ++ b) h1
    rw [h3]
    refine List.mem_append_right _ ?_
    rcases h2 with rfl | h2 | ⟨t, rfl⟩
    · rw [List.append_nil, textLines_last (by decide) (by decide)]
      simp
    · cases b with
      | nil => simp at h2
      | cons c b =>
        simp only [List.head?_cons, Option.some.injEq] at h2
        subst h2
        rw [textLines_line (by decide), chompR_of (by decide)]
        simp
    · have : c!"target_os=\"none\"" ++ (c!"\r\n" ++ t) = (c!"target_os=\"none\"" ++ ['\r']) ++ '\n' :: t := rfl
      rw [this, textLines_line (by decide), chompR_cr]
      simp

example : isNoStd c!"panic=\"abort\"\ntarget_os=\"none\"\r\nx" = true ∧
    isNoStd c!"a\ntarget_os=\"linux\"\n" = false := by decide +kernel

/-! ### C65 -/

/-- **C65** If the files can be read, then every function defined in one of them is analysed with exactly one
body: the last one, where compiler_builtins comes after the application. The same holds for declarations. -/
theorem C65_merged {u : CharClass} {ord : HashOrder} {inp : Inputs} {p : Program}
    (h : loadProgram u ord inp = .ok p) :
    ∃ items builtins, parseIr u inp.ll = .ok items ∧ parseIr u inp.builtinsLl = .ok builtins ∧
      p.DefinesOnce ∧ p.DeclaresOnce ∧ (∀ d, d ∈ p.defines ↔ LastDefine (items ++ builtins) d) ∧
      ∀ d, d ∈ p.declares ↔ LastDeclare (items ++ builtins) d := by
  unfold loadProgram at h
  split at h
  · cases h
  · cases h
  · rename_i items h1
    split at h
    · cases h
    · cases h
    · rename_i builtins h2
      simp only [Except.ok.injEq] at h
      subst h
      refine ⟨items, builtins, h1, h2, ?_⟩
      have hd := (defineMap_fold (items ++ builtins) (items := []) (m := [])
        ⟨List.nodup_nil, by simp [LastDefine]⟩).values
      have hc := (declareMap_fold (items ++ builtins) (items := []) (m := [])
        ⟨List.nodup_nil, by simp [LastDeclare]⟩).values
      rw [List.nil_append] at hd hc
      refine ⟨?_, ?_, fun d => ?_, fun d => ?_⟩
      · exact ((ord.isPerm _ 0 _).map _).nodup_iff.2 hd.1
      · exact ((ord.isPerm _ 1 _).map _).nodup_iff.2 hc.1
      · exact (ord.isPerm _ 0 _).mem_iff.trans (hd.2 d)
      · exact (ord.isPerm _ 1 _).mem_iff.trans (hc.2 d)

/-- **C65** No definition gets lost, and one in compiler_builtins replaces the ones of the application. -/
theorem C65_builtins_win {u : CharClass} {ord : HashOrder} {inp : Inputs} {p : Program}
    (h : loadProgram u ord inp = .ok p) {items builtins : List Item} (ha : parseIr u inp.ll = .ok items)
    (hb : parseIr u inp.builtinsLl = .ok builtins) :
    (∀ d, .define d ∈ items ++ builtins → ∃ d' ∈ p.defines, d'.name = d.name) ∧
    (∀ d, .define d ∈ builtins → ∀ d' ∈ p.defines, d'.name = d.name → .define d' ∈ builtins) := by
  obtain ⟨items', builtins', ha', hb', _, _, hd, _⟩ := C65_merged h
  rw [ha] at ha'
  rw [hb] at hb'
  simp only [ParseRes.ok.injEq] at ha' hb'
  subst ha' hb'
  refine ⟨fun d h1 => ?_, fun d h1 d' h2 hn => ?_⟩
  · have : ∀ l : List Item, .define d ∈ l → ∃ d', LastDefine l d' ∧ d'.name = d.name := by
      intro l
      induction l using List.reverseRecOn with
      | nil => simp
      | append_singleton l x ih =>
        intro hm
        by_cases hx : ∃ e, x = .define e ∧ e.name = d.name
        · obtain ⟨e, rfl, he⟩ := hx
          exact ⟨e, ⟨l, [], rfl, by simp⟩, he⟩
        · have hm : .define d ∈ l := by
            rcases List.mem_append.1 hm with hm | hm
            · exact hm
            · simp only [List.mem_singleton] at hm
              exact absurd ⟨d, hm.symm, rfl⟩ hx
          obtain ⟨d', ⟨pre, post, rfl, h3⟩, hn⟩ := ih hm
          refine ⟨d', ⟨pre, post ++ [x], by simp, fun e he => ?_⟩, hn⟩
          rcases List.mem_append.1 he with he | he
          · exact h3 e he
          · simp only [List.mem_singleton] at he
            exact fun h4 => hx ⟨e, he.symm, h4.trans hn⟩
    obtain ⟨d', h3, h4⟩ := this _ h1
    exact ⟨d', (hd d').2 h3, h4⟩
  · obtain ⟨pre, post, h3, h4⟩ := (hd d').1 h2
    -- `d'` lies in the second list, as `d` is not after it
    rcases List.append_eq_append_iff.1 h3 with ⟨a, rfl, h5⟩ | ⟨b, rfl, h5⟩
    · rw [h5]; simp
    · cases b with
      | nil =>
        rw [List.nil_append] at h5
        rw [← h5]
        simp
      | cons x b =>
        rw [List.cons_append] at h5
        injection h5 with h5 h6
        subst h6
        exact absurd hn.symm (h4 d (by simp [h1]))

/-- A function that calls another one. -/
def exFn (n m : Str) : Str := c!"define void @" ++ (n ++ (c!"() {\n  call void @" ++ (m ++ c!"()\n}")))

/-- The inputs used in the examples: `memcpy` is defined in both files and the archive. -/
def exInputs : Inputs where
  config := none
  flag := some c!"x"
  host := c!"h"
  ll := exFn c!"main" c!"f" ++ (c!"\n\n" ++ (exFn c!"f" c!"memcpy" ++ (c!"\n" ++ exFn c!"memcpy" c!"main")))
  builtinsLl := c!"; ModuleID\ndefine void @memcpy() {\n  ret void\n}\n"
  objSizes := [(c!"main", 8), (c!"f", 16), (c!"memcpy", 1)]
  archive := [(some c!"lib.rmeta", [(c!"main", 100)]), (some c!"compiler_builtins-1.o", [(c!"memcpy", 32)]), (none, [])]
  defined := [(8, ⟨[c!"main"], 4⟩), (16, ⟨[c!"f"], 8⟩), (24, ⟨[c!"memcpy"], 8⟩)]
  undefined := []

/-- The program of the example: `memcpy` does not call `main`. -/
def exLoaded : Program where
  target := .other
  defined := [(8, ⟨[c!"main"], 4⟩), (16, ⟨[c!"f"], 8⟩), (24, ⟨[c!"memcpy"], 8⟩)]
  undefined := []
  stackSizes := [(c!"main", 8), (c!"f", 16), (c!"memcpy", 32)]
  defines := [⟨c!"main", ⟨[], none⟩, [.directCall c!"f"]⟩, ⟨c!"f", ⟨[], none⟩, [.directCall c!"memcpy"]⟩,
    ⟨c!"memcpy", ⟨[], none⟩, [.other]⟩]
  declares := []

theorem exLoaded_eq : loadProgram exClass sameOrder exInputs = .ok exLoaded := by decide +kernel

/-! ### C71 -/

/-- **C71** does not hold: if both the configuration and the command line name a target, the analysis is made
for the first though cargo is told to build for the second. -/
theorem C71_flag_overridden (a b host : Str) (args : Args) (ht : args.target = some b) :
    BuiltFor (some a) args.target host b ∧ analysedTarget (some a) args.target host = a ∧
    ∃ t, BuiltFor (some c!"thumbv7m-none-eabi") (some c!"riscv32imac-unknown-none-elf") host t ∧
      targetOf t = .other ∧
      targetOf (analysedTarget (some c!"thumbv7m-none-eabi") (some c!"riscv32imac-unknown-none-elf") host) =
        .thumbv7m :=
  ⟨.inl ht, rfl, _, .inl rfl, by decide, rfl⟩

/-- **C71** The analysis is made for the target the program is built for if at most one of configuration and
command line names a target, or both the same. Missing: `C71_flag_overridden`. -/
theorem C71_same_target_partial {config flag : Option Str} {host t : Str} (hb : BuiltFor config flag host t)
    (h : config = none ∨ flag = none ∨ config = flag) : analysedTarget config flag host = t := by
  unfold analysedTarget
  rcases hb with rfl | ⟨rfl, rfl⟩ | ⟨rfl, rfl, rfl⟩
  · rcases h with rfl | h | rfl
    · rfl
    · cases h
    · rfl
  · rfl
  · rfl

/-- **C71** Exactly when the analysis is made for the target the program is built for. -/
theorem C71_same_target_iff {config flag : Option Str} {host t : Str} (hb : BuiltFor config flag host t) :
    analysedTarget config flag host = t ↔ config = none ∨ flag = none ∨ config = flag := by
  refine ⟨fun h => ?_, C71_same_target_partial hb⟩
  rcases hb with rfl | ⟨rfl, _⟩ | ⟨rfl, _, _⟩
  · cases config with
    | none => exact .inl rfl
    | some c => exact .inr (.inr (congrArg some h))
  · exact .inr (.inl rfl)
  · exact .inl ‹_›

example : BuiltFor (some c!"thumbv6m-none-eabi") none c!"h" c!"thumbv6m-none-eabi" ∧
    targetOf (analysedTarget (some c!"thumbv6m-none-eabi") none c!"h") = .thumbv6m :=
  ⟨.inr (.inl ⟨rfl, rfl⟩), by decide⟩

/-! ### C72 -/

/-- **C72** The stack size of a function is the last one reported by the object file of the application and
then by the objects of compiler_builtins in the archive; other members of the archive are not looked at. -/
theorem C72_sizes {u : CharClass} {ord : HashOrder} {inp : Inputs} {p : Program} {l : List (Str × Nat)}
    (h : loadProgram u ord inp = .ok p) (hl : ArchiveSizes inp.archive l) (n : Str) (k : Nat) :
    p.Reported n k ↔ LastSize (inp.objSizes ++ l) n k := by
  unfold loadProgram at h
  split at h
  · cases h
  · cases h
  · split at h
    · cases h
    · cases h
    · simp only [Except.ok.injEq] at h
      subst h
      exact loadSizes_eq hl n k

theorem exArchive : ArchiveSizes exInputs.archive [(c!"memcpy", 32)] := by
  refine .other (e := (some c!"lib.rmeta", [(c!"main", 100)])) ?_
    (.object (e := (some c!"compiler_builtins-1.o", [(c!"memcpy", 32)])) (l := []) ?_
      (.other (e := (none, [])) ?_ .nil))
  · rw [builtinsObject_iff]
    rintro ⟨s, h1, h2⟩
    simp only [Option.some.injEq] at h1
    subst h1
    revert h2
    decide
  · rw [builtinsObject_iff]
    exact ⟨_, rfl, by decide⟩
  · rintro ⟨_, _, h, _⟩
    cases h

example : exLoaded.Reported c!"memcpy" 32 :=
  (C72_sizes exLoaded_eq exArchive _ _).2 ⟨exInputs.objSizes, [], rfl, by simp⟩

/-! ### C73 -/

/-- **C73** From the files to the bound: if they are written as C58 describes, they are loaded, the functions
are the ones of C65 with the stack sizes of C72, and an exact `max` that is printed covers the frames of every
chain of calls in them. Partial: as `C41_end_to_end_partial`, the functions must not share a name and must
have unambiguous types. -/
theorem C73_from_files_partial {u : CharClass} {ord : HashOrder} {inp : Inputs} {items builtins : List Item}
    {l : List (Str × Nat)} (app : ModuleText u items inp.ll) (cb : ModuleText u builtins inp.builtinsLl)
    (hl : ArchiveSizes inp.archive l) (sizes : ∀ e ∈ inp.objSizes ++ l, e.2 < 2 ^ 64) :
    ∃ p, loadProgram u ord inp = .ok p ∧
      (∀ d, d ∈ p.defines ↔ LastDefine (items ++ builtins) d) ∧
      (∀ d, d ∈ p.declares ↔ LastDeclare (items ++ builtins) d) ∧
      (∀ n k, p.Reported n k ↔ LastSize (inp.objSizes ++ l) n k) ∧
      (p.NamesOnce → p.Unambiguous → ∀ demangle search elf g' cycles, elf.Fits32 →
        finalGraph demangle ord search p elf none = .ok (g', cycles) → ∀ i n,
        g'.maxOf? i = some (.exact n) → ∀ c, CallChain p.Call i c →
          (∀ j ∈ c, (g'.locOf j).Known) ∧ weight g'.locOf c ≤ n ∧
          (p.target = .other → i < p.defined.length →
            ∃ frames, List.Forall₂ p.Frame c frames ∧ frames.sum ≤ n)) := by
  have hload : loadProgram u ord inp = .ok (buildProgram ord inp items builtins) := by
    unfold loadProgram
    rw [C58_module_reads_back u _ _ app, C58_module_reads_back u _ _ cb]
  obtain ⟨items', builtins', h1, h2, _, declares, h3, h4⟩ := C65_merged hload
  rw [C58_module_reads_back u _ _ app] at h1
  rw [C58_module_reads_back u _ _ cb] at h2
  simp only [ParseRes.ok.injEq] at h1 h2
  subst h1 h2
  have hsz := C72_sizes hload hl
  refine ⟨_, hload, h3, h4, hsz, ?_⟩
  intro once un demangle search elf g' cycles fits h i n hmax c hc
  have s64 : (buildProgram ord inp items builtins).SizesU64 := by
    intro n k hk
    obtain ⟨pre, post, h5, _⟩ := (hsz n k).1 hk
    exact sizes (n, k) (by rw [h5]; simp)
  obtain ⟨k1, k2⟩ := C41_printed_locals_partial once declares un s64 fits h hmax hc
  exact ⟨k1, k2, fun other hi => C41_end_to_end_partial other once declares un s64 h hi hmax hc⟩

/-- The files of the example are text of the grammar. -/
theorem exInputs_text :
    ModuleText exClass [.define ⟨c!"main", ⟨[], none⟩, [.directCall c!"f"]⟩,
      .define ⟨c!"f", ⟨[], none⟩, [.directCall c!"memcpy"]⟩,
      .define ⟨c!"memcpy", ⟨[], none⟩, [.directCall c!"main"]⟩] exInputs.ll ∧
    ModuleText exClass [.comment, .define ⟨c!"memcpy", ⟨[], none⟩, [.other]⟩] exInputs.builtinsLl := by
  have oneLine : ∀ {s : Str}, s.all (fun c => decide (c ≠ '\n' ∧ c ≠ '\r')) = true → OneLine s :=
    fun h c hc => by simpa using List.all_eq_true.1 h c hc
  have ident : ∀ {s : Str}, s ≠ [] → s.all (identChar exClass) = true →
      s.head?.all (fun c => decide (c ∉ c!"0123456789")) = true → Ident exClass s :=
    fun h1 h2 h3 => ⟨h1, fun c hc => (identChar_iff _ c).1 (List.all_eq_true.1 h2 c hc), fun c hc => by
      rw [hc] at h3; simpa using h3⟩
  have sp : Blanks c!" " := ⟨by decide, by decide⟩
  have sp2 : Blanks c!"  " := ⟨by decide, by decide⟩
  have nl : Eol c!"\n" := .inl rfl
  have body : ∀ {n : Str} {st : Stmt} {s : Str}, Ident exClass n → StmtText exClass st s →
      ItemText exClass (.define ⟨n, ⟨[], none⟩, [st]⟩) (c!"define void @" ++ (n ++ (c!"() {\n" ++ (s ++ c!"\n}")))) := by
    intro n st s h1 h2
    have h := DefineText.mk (u := exClass) sp .nil .void sp (.plain h1) .nil (e := c!" {") (oneLine (by decide)) nl
      (.one h2) nl
    refine .define ?_
    simpa only [List.append_assoc, List.cons_append, List.nil_append] using h
  have fn : ∀ {n m : Str}, Ident exClass n → Ident exClass m →
      ItemText exClass (.define ⟨n, ⟨[], none⟩, [.directCall m]⟩) (exFn n m) := by
    intro n m h1 h2
    have h := body h1 (.instr sp2 (s := c!"call void @" ++ (m ++ c!"()")) (by simp)
      (.direct .nil .call sp .nil .void sp (.plain h2) (e := c!")") (oneLine (by decide))))
    simpa only [exFn, List.append_assoc, List.cons_append, List.nil_append] using h
  have main : Ident exClass c!"main" := ident (by decide) (by decide) (by decide)
  have f : Ident exClass c!"f" := ident (by decide) (by decide) (by decide)
  have memcpy : Ident exClass c!"memcpy" := ident (by decide) (by decide) (by decide)
  have noWord : ∀ {w s : Str}, ¬ w <:+: s → ¬ HasWord w s := fun h ⟨a, b, hs, _⟩ => h ⟨a, b, by simp [hs]⟩
  have other : StmtText exClass .other c!"  ret void" :=
    .instr sp2 (by decide) (.other ⟨by decide, oneLine (by decide), by decide, by decide, noWord (by decide),
      noWord (by decide), fun ⟨a, n, b, h, _⟩ => absurd (h ▸ by simp : '(' ∈ c!"ret void") (by decide), by decide⟩)
  constructor
  · exact .items (.cons (fn main f) (.cons nl (.one nl)) (.cons (fn f memcpy) (.one nl) (.one (fn memcpy main))))
  · have h := ModuleText.itemsEol (.cons (.comment (e := c!" ModuleID") (oneLine (by decide))) (.one nl)
      (.one (body memcpy other))) (.one nl)
    simpa only [exInputs, List.append_assoc, List.cons_append, List.nil_append] using h

/-- The hypotheses are met, and `main` gets `max = 56`. -/
example : (∀ e ∈ exInputs.objSizes ++ [(c!"memcpy", 32)], e.2 < 2 ^ 64) ∧ exLoaded.NamesOnce ∧
    exLoaded.Unambiguous ∧ CallChain exLoaded.Call 0 [0, 1, 2] ∧ (∀ search, ∃ g' cycles,
      finalGraph id sameOrder search exLoaded ⟨[], none⟩ none = .ok (g', cycles) ∧
      g'.maxOf? 0 = some (.exact 56)) ∧
    runFiles exClass id sameOrder linearSearch exInputs ⟨[], none⟩ none .top =
      .ok c!"56 MAX\nUsage Function\n32 memcpy\n16 f\n8 main\n" := by
  have live : ∀ {n : Str} {j : Nat}, exLoaded.LiveAt n j →
      (j = 0 ∧ n = c!"main") ∨ (j = 1 ∧ n = c!"f") ∨ (j = 2 ∧ n = c!"memcpy") := by
    rintro n j ⟨a, s, h1, h2, _⟩
    have hlt : j < 3 := (List.getElem?_eq_some_iff.mp h1).1
    match j, hlt with
    | 0, _ | 1, _ | 2, _ =>
      simp only [exLoaded, List.getElem?_cons_zero, List.getElem?_cons_succ, Option.some.injEq,
        Prod.mk.injEq] at h1
      obtain ⟨_, rfl⟩ := h1
      simp only [List.mem_cons, List.not_mem_nil, or_false] at h2
      subst h2
      simp
  have hdef : ∀ {j s}, exLoaded.DefinedSig j s → s = ⟨[], none⟩ := by
    rintro j s ⟨d, h1, _, h3⟩
    simp only [exLoaded, List.mem_cons, List.not_mem_nil, or_false] at h1
    rcases h1 with rfl | rfl | rfl <;> exact h3.symm
  have hdec : ∀ {j s}, ¬ exLoaded.DeclaredSig j s := by
    rintro j s ⟨d, h1, _⟩
    simp [exLoaded] at h1
  refine ⟨by decide, namesOnce_of (by decide), ⟨?_, ?_, ?_, ?_⟩, ?_, ?_, ?_⟩
  · intro j h
    have := live h
    simp at this
  · intro j s s' h1 h2
    rw [hdef h1, hdef h2]
  · intro j s s' _ h1 _
    exact absurd h1 hdec
  · intro j s _ h1
    exact absurd h1 hdec
  · refine .call (Or.inl ⟨c!"f", ⟨_, List.mem_cons_self, mem_live rfl List.mem_cons_self rfl, by simp⟩,
      ?_, mem_live rfl List.mem_cons_self rfl⟩) (.call (Or.inl ⟨c!"memcpy",
      ⟨⟨c!"f", ⟨[], none⟩, [.directCall c!"memcpy"]⟩, by simp [exLoaded],
        mem_live rfl List.mem_cons_self rfl, by simp⟩, ?_, mem_live rfl List.mem_cons_self rfl⟩) (.single 2))
    · rw [← classify_plain (t := false)]; rfl
    · rw [← classify_plain (t := false)]; rfl
  · intro search
    exact finalGraph_eval rfl search _ none (fun g _ => g.maxOf? 0 = _) (by decide +kernel)
  · decide +kernel

end CallStack
