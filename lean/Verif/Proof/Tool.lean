import Verif.Spec.Tool
import Verif.Props.Driver

/-!
Lemmas about the whole program.
-/

namespace CallStack

theorem orExit_exit {α : Type} {o : Option α} {k : α → End} {c : Int} {out : Str}
    (h : orExit o k = .exit c out) : (c = 1 ∧ out = []) ∨ ∃ a, o = some a ∧ k a = .exit c out := by
  cases o with
  | none =>
    simp only [orExit, End.exit.injEq] at h
    exact Or.inl ⟨h.1.symm, h.2.symm⟩
  | some a => exact Or.inr ⟨a, rfl, h⟩

theorem buildEnd_exit {code : Option Int} {a : Announced} {c : Int} (h : buildEnd code a = .exit c) :
    code ≠ some 0 ∧ c = code.getD 1 := by
  unfold buildEnd at h
  split at h
  · rename_i h1
    simp only [BuildEnd.exit.injEq] at h
    exact ⟨h1, h.symm⟩
  · split at h
    · simp at h
    · split at h <;> simp at h

theorem buildEnd_paths {code : Option Int} {a : Announced} {rlib ll : Str}
    (h : buildEnd code a = .paths rlib ll) : code = some 0 ∧ a.rlib = some rlib ∧ a.ll = some ll := by
  unfold buildEnd at h
  split at h
  · simp at h
  · rename_i h1
    split at h
    · simp at h
    · split at h
      · simp at h
      · rename_i r h2 _ l h3
        simp only [BuildEnd.paths.injEq] at h
        obtain ⟨rfl, rfl⟩ := h
        exact ⟨by simpa using h1, h2, h3⟩

theorem startup_supported {hash optOut : Option Str} (h : startup false hash optOut ≠ .unsupported) :
    hash = some c!"2b603f95a48f10f931a61dd208fe3e5ffd64e491" ∨
      optOut = some c!"I won't open issues about unsupported toolchains" := by
  have : startup false hash optOut = .proceed := by
    unfold startup at h ⊢
    rw [if_neg (by simp)] at h ⊢
    split at h
    · exact absurd rfl h
    · rename_i h1
      rw [if_neg h1]
  exact ((C63_toolchain_gate false hash optOut).1.mp this).2

theorem llFile_stem {file name : Str} (h : LlFile file name) :
    ∃ stem, name = stem ++ c!".ll" ∧ objName name = stem ++ c!".o" := by
  obtain ⟨c, x, _, h1, h2⟩ := C62_object_file h
  exact ⟨c ++ (c!"-" ++ x), by simp [h1], by simp [h2]⟩

theorem rustFile_iff (name : Str) :
    (stemExt name).any (fun e => e.2 == c!"rs") = true ↔ RustFile name := by
  constructor
  · intro h
    cases hs : stemExt name with
    | none => rw [hs] at h; simp at h
    | some e =>
      obtain ⟨stem, ext⟩ := e
      rw [hs] at h
      simp only [Option.any_some, beq_iff_eq] at h
      subst h
      unfold stemExt at hs
      split at hs
      · simp at hs
      · cases hr : rsplitDot name with
        | none => rw [hr] at hs; simp at hs
        | some r =>
          obtain ⟨x, y⟩ := r
          rw [hr] at hs
          cases x with
          | nil => simp at hs
          | cons c x =>
            simp only [Option.some.injEq, Prod.mk.injEq] at hs
            obtain ⟨rfl, rfl⟩ := hs
            exact ⟨c :: x, by simp, by rw [rsplitDot_some hr]⟩
  · rintro ⟨stem, h, rfl⟩
    have e : rsplitDot (stem ++ c!".rs") = some (stem, c!"rs") := rsplitDot_append stem (by decide)
    have : stemExt (stem ++ c!".rs") = some (stem, c!"rs") := by
      unfold stemExt
      rw [if_neg, e]
      · cases stem with
        | nil => exact absurd rfl h
        | cons => rfl
      · intro h'
        have := congrArg List.getLast? h'
        simp at this
    rw [this]
    rfl

theorem touchFirst_spec {settable : Str → Bool} (walk : List (Option (Str × Str))) :
    (∀ path, touchFirst settable walk = some (some path) ↔
      settable path = true ∧ ∃ pre name post, walk = pre ++ some (path, name) :: post ∧ RustFile name ∧
        ∀ e ∈ pre, ∃ path' name', e = some (path', name') ∧ ¬ RustFile name') ∧
    (touchFirst settable walk = some none ↔
      ∀ e ∈ walk, ∃ path' name', e = some (path', name') ∧ ¬ RustFile name') := by
  induction walk with
  | nil => simp [touchFirst]
  | cons e walk ih =>
    rcases e with _ | ⟨path0, name0⟩
    · constructor
      · intro path
        simp only [touchFirst, reduceCtorEq, false_iff]
        rintro ⟨_, pre, name, post, h1, _, h2⟩
        cases pre with
        | nil => simp at h1
        | cons x pre =>
          simp only [List.cons_append, List.cons.injEq] at h1
          obtain ⟨_, _, h3, _⟩ := h2 x List.mem_cons_self
          rw [← h1.1] at h3
          simp at h3
      · simp [touchFirst]
    · by_cases hr : RustFile name0
      · have hb := (rustFile_iff name0).mpr hr
        constructor
        · intro path
          rw [touchFirst, if_pos hb]
          constructor
          · intro h
            split at h
            · rename_i hs
              simp only [Option.some.injEq] at h
              subst h
              exact ⟨hs, [], name0, walk, rfl, hr, by simp⟩
            · simp at h
          · rintro ⟨hs, pre, name, post, h1, _, h2⟩
            cases pre with
            | nil =>
              simp only [List.nil_append, List.cons.injEq, Option.some.injEq, Prod.mk.injEq] at h1
              rw [h1.1.1, if_pos hs]
            | cons x pre =>
              simp only [List.cons_append, List.cons.injEq] at h1
              obtain ⟨_, _, h3, h4⟩ := h2 x List.mem_cons_self
              rw [← h1.1] at h3
              simp only [Option.some.injEq, Prod.mk.injEq] at h3
              exact absurd (h3.2 ▸ hr) h4
        · rw [touchFirst, if_pos hb]
          constructor
          · intro h
            split at h <;> simp at h
          · intro h
            obtain ⟨_, _, h3, h4⟩ := h _ List.mem_cons_self
            simp only [Option.some.injEq, Prod.mk.injEq] at h3
            exact absurd (h3.2 ▸ hr) h4
      · have hb : ¬ (stemExt name0).any (fun e => e.2 == c!"rs") = true := fun h =>
          hr ((rustFile_iff name0).mp h)
        constructor
        · intro path
          rw [touchFirst, if_neg hb, ih.1]
          refine and_congr Iff.rfl ⟨?_, ?_⟩
          · rintro ⟨pre, name, post, h1, h2, h3⟩
            refine ⟨some (path0, name0) :: pre, name, post, by rw [h1]; rfl, h2, ?_⟩
            intro e he
            rcases List.mem_cons.mp he with rfl | he
            · exact ⟨_, _, rfl, hr⟩
            · exact h3 e he
          · rintro ⟨pre, name, post, h1, h2, h3⟩
            cases pre with
            | nil =>
              simp only [List.nil_append, List.cons.injEq, Option.some.injEq, Prod.mk.injEq] at h1
              exact absurd (h1.1.2 ▸ h2) hr
            | cons x pre =>
              simp only [List.cons_append, List.cons.injEq] at h1
              exact ⟨pre, name, post, h1.2, h2, fun e he => h3 e (List.mem_cons_of_mem _ he)⟩
        · rw [touchFirst, if_neg hb, ih.2]
          constructor
          · intro h e he
            rcases List.mem_cons.mp he with rfl | he
            · exact ⟨_, _, rfl, hr⟩
            · exact h e he
          · exact fun h e he => h e (List.mem_cons_of_mem _ he)

theorem textLines_of {s : Str} {ls : List Str} (h : TextLines s ls) : textLines s = ls := by
  induction h with
  | nil => rfl
  | @lf l s ls h1 h2 _ ih =>
    have := textLines_line h1 s
    rw [chompR_of h2, ih] at this
    exact this
  | @crlf l s ls h1 _ ih =>
    have := textLines_line (l := l ++ ['\r']) (by simp [h1]) s
    rw [chompR_cr, ih] at this
    simpa using this
  | last h1 h2 => exact textLines_last h1 h2

theorem textLines_exists (s : Str) : TextLines s (textLines s) := by
  suffices h : ∃ ls, TextLines s ls by
    obtain ⟨ls, h⟩ := h
    rw [textLines_of h]
    exact h
  induction hn : s.length using Nat.strongRecOn generalizing s with
  | _ n ih =>
    by_cases hnl : '\n' ∈ s
    · obtain ⟨l, t, rfl, h1⟩ := List.eq_append_cons_of_mem hnl
      obtain ⟨ls, h2⟩ := ih t.length (by rw [← hn]; simp; omega) t rfl
      by_cases hr : l.getLast? = some '\r'
      · obtain ⟨l', rfl⟩ := List.getLast?_eq_some_iff.mp hr
        refine ⟨l' :: ls, ?_⟩
        have := TextLines.crlf (l := l') (fun h => h1 (by simp [h])) h2
        simpa using this
      · exact ⟨l :: ls, .lf h1 hr h2⟩
    · cases s with
      | nil => exact ⟨[], .nil⟩
      | cons c s => exact ⟨_, .last hnl (by simp)⟩

theorem askedTarget_iff {config flag : Option Str} {host t : Str} :
    AskedTarget config flag host t ↔ analysedTarget config flag host = t := by
  unfold AskedTarget analysedTarget
  cases config <;> cases flag <;> simp [eq_comm]

theorem isNoStd_lines {cfg : Str} {ls : List Str} (h : TextLines cfg ls) :
    isNoStd cfg = true ↔ c!"target_os=\"none\"" ∈ ls := by
  have line : ∀ l : Str, (startsWith l c!"target_os=" && l.drop c!"target_os=".length == c!"\"none\"") = true ↔
      l = c!"target_os=\"none\"" := by
    intro l
    rw [Bool.and_eq_true, startsWith_iff, beq_iff_eq]
    constructor
    · rintro ⟨⟨t, rfl⟩, h⟩
      rw [List.drop_left] at h
      rw [h]
      rfl
    · rintro rfl
      exact ⟨⟨c!"\"none\"", rfl⟩, rfl⟩
  unfold isNoStd
  rw [textLines_of h, List.any_eq_true]
  constructor
  · rintro ⟨l, h1, h2⟩
    rwa [← (line l).1 h2]
  · intro h
    exact ⟨_, h, (line _).2 rfl⟩

theorem lastMarked_fold {marker : Str} {f : Announced → Option Str} (h0 : f {} = none)
    (hs : ∀ st l, f (markerStep st l) = if marker <+: l then some (l.drop marker.length) else f st)
    (ls : List Str) (path : Str) :
    f (ls.foldl markerStep {}) = some path ↔
      ∃ pre post, ls = pre ++ (marker ++ path) :: post ∧ ∀ l ∈ post, ¬ marker <+: l := by
  induction ls using List.reverseRecOn with
  | nil => simp [h0]
  | append_singleton ls l ih =>
    rw [List.foldl_append, List.foldl_cons, List.foldl_nil, hs]
    split
    · rename_i hp
      obtain ⟨t, rfl⟩ := hp
      rw [List.drop_left, Option.some.injEq]
      constructor
      · rintro rfl
        exact ⟨ls, [], rfl, by simp⟩
      · rintro ⟨pre, post, h1, h2⟩
        rcases List.eq_nil_or_concat post with rfl | ⟨post', x, rfl⟩
        · have := (List.append_inj' h1 rfl).2
          simpa using this
        · exfalso
          have h3 : ls ++ [marker ++ t] = (pre ++ (marker ++ path) :: post') ++ [x] := by
            rw [h1]; simp
          have := (List.append_inj' h3 rfl).2
          simp only [List.cons.injEq, and_true] at this
          exact h2 x (by simp) ⟨t, this⟩
    · rename_i hp
      rw [ih]
      constructor
      · rintro ⟨pre, post, rfl, h2⟩
        refine ⟨pre, post ++ [l], by simp, ?_⟩
        intro x hx
        rcases List.mem_append.mp hx with hx | hx
        · exact h2 x hx
        · rw [List.mem_singleton] at hx
          rwa [hx]
      · rintro ⟨pre, post, h1, h2⟩
        rcases List.eq_nil_or_concat post with rfl | ⟨post', x, rfl⟩
        · have := (List.append_inj' h1 rfl).2
          simp only [List.cons.injEq, and_true] at this
          exact absurd ⟨path, this.symm⟩ hp
        · have h3 : ls ++ [l] = (pre ++ (marker ++ path) :: post') ++ [x] := by
            rw [h1]; simp
          exact ⟨pre, post', (List.append_inj' h3 rfl).1, fun y hy => h2 y (by simp [hy])⟩

theorem lastMarked_iff {marker : Str} {f : Announced → Option Str} (h0 : f {} = none)
    (hs : ∀ st l, f (markerStep st l) = if marker <+: l then some (l.drop marker.length) else f st)
    (stderr path : Str) : f (readStderr stderr) = some path ↔ LastMarked marker stderr path := by
  unfold readStderr
  rw [lastMarked_fold h0 hs]
  unfold LastMarked
  have := textLines_exists stderr
  constructor
  · rintro ⟨pre, post, h1, h2⟩
    rw [h1] at this
    exact ⟨pre, post, this, h2⟩
  · rintro ⟨pre, post, h1, h2⟩
    exact ⟨pre, post, textLines_of h1, h2⟩

theorem readStderr_rlib (stderr path : Str) : (readStderr stderr).rlib = some path ↔
    LastMarked c!"@CARGO_CALL_STACK:compiler_builtins_rlib_path@" stderr path := by
  show _ ↔ LastMarked rlibMarker stderr path
  refine lastMarked_iff (f := Announced.rlib) rfl (fun st l => ?_) stderr path
  unfold markerStep
  cases h : startsWith l rlibMarker with
  | true =>
    rw [if_pos rfl, if_pos ((startsWith_iff _ _).mp h)]
  | false =>
    rw [if_neg (by simp)]
    have hn : ¬ rlibMarker <+: l := fun hp => by rw [(startsWith_iff l rlibMarker).mpr hp] at h; cases h
    rw [if_neg hn]
    split <;> rfl

theorem readStderr_ll (stderr path : Str) : (readStderr stderr).ll = some path ↔
    LastMarked c!"@CARGO_CALL_STACK:compiler_builtins_ll_path@" stderr path := by
  show _ ↔ LastMarked llMarker stderr path
  refine lastMarked_iff (f := Announced.ll) rfl (fun st l => ?_) stderr path
  unfold markerStep
  cases h : startsWith l rlibMarker with
  | true =>
    rw [if_pos rfl, if_neg]
    obtain ⟨t, rfl⟩ := (startsWith_iff _ _).mp h
    rintro ⟨t', h'⟩
    have := congrArg (List.take 38) h'
    revert this
    simp [rlibMarker, llMarker]
  | false =>
    rw [if_neg (by simp)]
    cases h : startsWith l llMarker with
    | true =>
      rw [if_pos rfl, if_pos ((startsWith_iff _ _).mp h)]
    | false =>
      rw [if_neg (by simp), if_neg (fun hp => by rw [(startsWith_iff l llMarker).mpr hp] at h; cases h)]

theorem selectLl_iff {file name : Str} {entries : List (Str × Int)} :
    selectLl file entries = some name ↔ NewestLl file entries name := by
  constructor
  · exact (C62_newest_file file entries).1 name
  · rintro ⟨pre, t, post, h1, h2, h3, h4⟩
    have key : ∀ (es : List (Str × Int)) b, b.2 = t → (∀ e ∈ es, LlFile file e.1 → e.2 ≤ t) →
        es.foldl (llStep file) (some b) = some b := by
      intro es
      induction es with
      | nil => intros; rfl
      | cons e es ih =>
        intro b hb hes
        rw [List.foldl_cons]
        have : llStep file (some b) e = some b := by
          unfold llStep
          split
          · rename_i hc
            have := hes e List.mem_cons_self ((isCandidate_iff _ _).mp hc)
            simp only
            rw [if_neg (by omega)]
          · rfl
        rw [this]
        exact ih b hb fun e he => hes e (List.mem_cons_of_mem _ he)
    have pre' : ∀ (es : List (Str × Int)) (best : Option (Str × Int)), (∀ b, best = some b → b.2 < t) →
        (∀ e ∈ es, LlFile file e.1 → e.2 < t) → ∀ b, es.foldl (llStep file) best = some b → b.2 < t := by
      intro es
      induction es with
      | nil => intro best hb _ b h; exact hb b h
      | cons e es ih =>
        intro best hb hes
        refine ih _ ?_ fun e he => hes e (List.mem_cons_of_mem _ he)
        intro b h
        unfold llStep at h
        split at h
        · rename_i hc
          have := hes e List.mem_cons_self ((isCandidate_iff _ _).mp hc)
          split at h
          · simp only [Option.some.injEq] at h
            rw [← h]; exact this
          · rename_i b'
            split at h <;> simp only [Option.some.injEq] at h
            · rw [← h]; exact this
            · rw [← h]; exact hb _ rfl
        · exact hb b h
    unfold selectLl
    rw [h1, List.foldl_append, List.foldl_cons]
    have hstep : llStep file (pre.foldl (llStep file) none) (name, t) = some (name, t) := by
      cases hb : pre.foldl (llStep file) none with
      | none =>
        unfold llStep
        rw [if_pos ((isCandidate_iff _ _).mpr h2)]
      | some b =>
        have := pre' pre none (by simp) h3 b hb
        unfold llStep
        rw [if_pos ((isCandidate_iff _ _).mpr h2)]
        simp only
        rw [if_pos this]
    rw [hstep, key post _ rfl h4]
    rfl

theorem buildEnd_ok {a : Announced} {rlib ll : Str} (h1 : a.rlib = some rlib) (h2 : a.ll = some ll) :
    buildEnd (some 0) a = .paths rlib ll := by
  unfold buildEnd
  rw [if_neg (by simp), h1, h2]

/-- The run up to the end of the build, if that is reached. -/
theorem tool_built {u : CharClass} {demangle : Str → Str} {ord : HashOrder} {search : TagSearch}
    {w : World} {cl : Cli} {file host stderr : Str} {config : Option Str} {code : Option Int}
    (hw : w.wrapperVar = false) (hcl : w.cli = .ok cl) (h : w.Built cl file host config code stderr) :
    tool u demangle ord search w = match buildEnd code (readStderr stderr) with
      | .exit c => .exit c []
      | .panic _ => .panic
      | .paths rlib ll => afterBuild u demangle ord search w cl file host config rlib ll := by
  obtain ⟨⟨hash, h1, h2⟩, h3, h4, ⟨touched, h5⟩, target, cfg, lines, noStd, ht, h6, hl, hn, h7⟩ := h
  have hs : startup false hash w.optOut ≠ .unsupported := by
    rw [((C63_toolchain_gate false hash w.optOut).1).2 ⟨rfl, h2⟩]
    decide
  have hstd : isNoStd cfg = noStd := by
    rw [Bool.eq_iff_iff, isNoStd_lines hl, hn]
  unfold tool
  rw [if_neg (by rw [hw]; simp), h1]
  simp only [orExit]
  rw [if_neg hs, hcl]
  simp only
  rw [((C64_one_file _ _).1).2 h3, h4]
  simp only
  rw [askedTarget_iff.mp ht, h6]
  simp only
  rw [h5]
  simp only
  rw [hstd, h7]
  rfl

/-- Conversely, a run that does not fail before the build reaches its end. -/
theorem tool_exit {u : CharClass} {demangle : Str → Str} {ord : HashOrder} {search : TagSearch}
    {w : World} {cl : Cli} {c : Int} {out : Str} (hw : w.wrapperVar = false) (hcl : w.cli = .ok cl)
    (h : tool u demangle ord search w = .exit c out) :
    (c = 1 ∧ out = []) ∨ ∃ file host config code stderr, w.Built cl file host config code stderr ∧
      (match buildEnd code (readStderr stderr) with
        | .exit c => End.exit c []
        | .panic _ => End.panic
        | .paths rlib ll => afterBuild u demangle ord search w cl file host config rlib ll) = .exit c out := by
  unfold tool at h
  rw [if_neg (by rw [hw]; simp)] at h
  rcases orExit_exit h with h | ⟨⟨hash, host⟩, e1, h⟩
  · exact Or.inl h
  simp only at h
  split at h
  · simp only [End.exit.injEq] at h
    exact Or.inl ⟨h.1.symm, h.2.symm⟩
  rename_i hsup
  rw [hcl] at h
  simp only at h
  rcases orExit_exit h with h | ⟨file, e2, h⟩
  · exact Or.inl h
  rcases orExit_exit h with h | ⟨config, e3, h⟩
  · exact Or.inl h
  rcases orExit_exit h with h | ⟨cfg, e4, h⟩
  · exact Or.inl h
  rcases orExit_exit h with h | ⟨touched, e5, h⟩
  · exact Or.inl h
  rcases orExit_exit h with h | ⟨⟨code, stderr⟩, e6, h⟩
  · exact Or.inl h
  exact Or.inr ⟨file, host, config, code, stderr,
    ⟨⟨hash, e1, startup_supported hsup⟩, ((C64_one_file _ _).1).1 e2, e3, ⟨touched, e5⟩, _, cfg, _, _,
      askedTarget_iff.mpr rfl, e4, textLines_exists cfg, isNoStd_lines (textLines_exists cfg), e6⟩, h⟩

/-- As `World.Inputs`, with given files of compiler_builtins. -/
structure World.InputsAt (w : World) (cl : Cli) (file host : Str) (config : Option Str) (rlib ll : Str)
    (inp : CallStack.Inputs) : Prop where
  config : inp.config = config
  flag : inp.flag = cl.args.target
  host : inp.host = host
  app : ∃ entries stem, w.entries = some entries ∧ NewestLl file entries (stem ++ c!".ll") ∧
    w.appText (stem ++ c!".ll") = some inp.ll ∧ w.object (stem ++ c!".o") = true ∧
    w.objSizes (stem ++ c!".o") = some inp.objSizes
  ll : w.builtinsText ll = some inp.builtinsLl
  rlib : w.archive rlib = some inp.archive
  executable : w.executable = true
  symbols : w.symbols = some (inp.defined, inp.undefined)

theorem World.InputsAt.inputs {w : World} {cl : Cli} {file host stderr : Str} {config : Option Str}
    {rlib ll : Str} {inp : CallStack.Inputs} (h : w.InputsAt cl file host config rlib ll inp)
    (h1 : (readStderr stderr).rlib = some rlib) (h2 : (readStderr stderr).ll = some ll) :
    w.Inputs cl file host config stderr inp :=
  ⟨h.config, h.flag, h.host, h.app,
    ⟨rlib, ll, (readStderr_rlib _ _).mp h1, (readStderr_ll _ _).mp h2, h.ll, h.rlib⟩, h.executable, h.symbols⟩

theorem afterBuild_exit {u : CharClass} {demangle : Str → Str} {ord : HashOrder} {search : TagSearch}
    {w : World} {cl : Cli} {c : Int} {file host out : Str} {config : Option Str} {rlib ll : Str}
    (h : afterBuild u demangle ord search w cl file host config rlib ll = .exit c out) :
    (c = 1 ∧ out = []) ∨ (c = 0 ∧ ∃ inp, w.InputsAt cl file host config rlib ll inp ∧
      runFiles u demangle ord search inp w.elf cl.start cl.format = .ok out) := by
  unfold afterBuild at h
  split at h
  · simp only [End.exit.injEq] at h
    exact Or.inl ⟨h.1.symm, h.2.symm⟩
  rename_i hexe
  rcases orExit_exit h with h | ⟨entries, e7, h⟩
  · exact Or.inl h
  split at h
  · simp at h
  rename_i name e8
  rcases orExit_exit h with h | ⟨app, e9, h⟩
  · exact Or.inl h
  split at h
  · simp only [End.exit.injEq] at h
    exact Or.inl ⟨h.1.symm, h.2.symm⟩
  rename_i hobj
  rcases orExit_exit h with h | ⟨cb, e10, h⟩
  · exact Or.inl h
  split at h
  · simp only [End.exit.injEq] at h
    exact Or.inl ⟨h.1.symm, h.2.symm⟩
  · simp at h
  rename_i items e11
  split at h
  · simp only [End.exit.injEq] at h
    exact Or.inl ⟨h.1.symm, h.2.symm⟩
  · simp at h
  rename_i cbItems e12
  rcases orExit_exit h with h | ⟨objSizes, e13, h⟩
  · exact Or.inl h
  rcases orExit_exit h with h | ⟨archive, e14, h⟩
  · exact Or.inl h
  rcases orExit_exit h with h | ⟨⟨defined, undefined⟩, e15, h⟩
  · exact Or.inl h
  simp only at h
  split at h
  · simp at h
  rename_i text e16
  simp only [End.exit.injEq] at h
  obtain ⟨rfl, rfl⟩ := h
  have e8' := selectLl_iff.mp e8
  obtain ⟨stem, s1, s2⟩ := llFile_stem (by obtain ⟨_, _, _, _, n2, _⟩ := e8'; exact n2)
  rw [s2] at e13 hobj
  subst s1
  refine Or.inr ⟨rfl, ⟨config, cl.args.target, host, app, cb, objSizes, archive, defined, undefined⟩,
    ⟨rfl, rfl, rfl, ⟨entries, stem, e7, e8', e9, by simpa using hobj, e13⟩, e10, e14, by simpa using hexe, e15⟩, ?_⟩
  unfold runFiles loadProgram
  simp only [e11, e12, e16]

theorem afterBuild_ok {u : CharClass} {demangle : Str → Str} {ord : HashOrder} {search : TagSearch}
    {w : World} {cl : Cli} {file host stderr out : Str} {config : Option Str} {rlib ll : Str}
    {inp : CallStack.Inputs} (h1 : (readStderr stderr).rlib = some rlib)
    (h2 : (readStderr stderr).ll = some ll) (h : w.Inputs cl file host config stderr inp)
    (run : runFiles u demangle ord search inp w.elf cl.start cl.format = .ok out) :
    afterBuild u demangle ord search w cl file host config rlib ll = .exit 0 out := by
  obtain ⟨i1, i2, i3, ⟨entries, stem, i4, i5, i6, i7, i8⟩, ⟨rlib', ll', b1, b2, b3, b4⟩, i9, i10⟩ := h
  rw [← readStderr_rlib, h1] at b1
  rw [← readStderr_ll, h2] at b2
  simp only [Option.some.injEq] at b1 b2
  subst b1 b2 i1 i3
  obtain ⟨stem', s1, s2⟩ := llFile_stem (by obtain ⟨_, _, _, _, n2, _⟩ := i5; exact n2)
  obtain rfl : stem = stem' := List.append_cancel_right s1
  unfold afterBuild
  rw [if_neg (by rw [i9]; simp), i4]
  simp only [orExit]
  rw [selectLl_iff.mpr i5]
  simp only
  rw [i6, s2]
  simp only
  rw [if_neg (by rw [i7]; simp), ← i2]
  rw [b3, i8, b4, i10]
  simp only
  unfold runFiles loadProgram at run
  split at run
  · cases run
  rename_i p hp
  split at hp
  · cases hp
  · cases hp
  rename_i items e1
  split at hp
  · cases hp
  · cases hp
  rename_i builtins e2
  simp only [Except.ok.injEq] at hp
  subst hp
  rw [e1, e2]
  simp only
  split at run
  · cases run
  rename_i text e3
  simp only [Except.ok.injEq] at run
  subst run
  rw [e3]

end CallStack
