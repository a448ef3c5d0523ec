import Verif.Spec.Stderr
import Verif.Proof.Tool

/-!
Lemmas about standard error.
-/

namespace CallStack

theorem orFail_stop {α : Type} {o : Option α} {c : Cause} {k : α → Outcome} :
    (orFail o c k).stop = orExit o (fun a => (k a).stop) := by
  cases o <;> rfl

theorem orFail_cases {α : Type} {P : Outcome → Prop} {o : Option α} {c : Cause} {k : α → Outcome}
    (h1 : o = none → P (.fail c)) (h2 : ∀ a, o = some a → P (k a)) : P (orFail o c k) := by
  cases o with
  | none => exact h1 rfl
  | some a => exact h2 a rfl

theorem readStderr_echoed {stderr : Str} {ls : List Str} (h : TextLines stderr ls) :
    (readStderr stderr).echoed = ls.filter (fun l => !decide (Marked l)) := by
  unfold readStderr
  rw [textLines_of h]
  suffices ∀ st : Announced, (ls.foldl markerStep st).echoed =
      st.echoed ++ ls.filter (fun l => !decide (Marked l)) by simpa using this {}
  clear h
  induction ls with
  | nil => simp
  | cons l ls ih =>
    intro st
    rw [List.foldl_cons, ih]
    unfold markerStep
    by_cases h1 : startsWith l rlibMarker = true
    · have hm : Marked l := .inl ((startsWith_iff _ _).mp h1)
      rw [if_pos h1, List.filter_cons_of_neg (by simpa using hm)]
    · rw [if_neg h1]
      by_cases h2 : startsWith l llMarker = true
      · have hm : Marked l := .inr ((startsWith_iff _ _).mp h2)
        rw [if_pos h2, List.filter_cons_of_neg (by simpa using hm)]
      · have hm : ¬ Marked l := by
          rintro (h | h)
          · exact h1 ((startsWith_iff _ _).mpr h)
          · exact h2 ((startsWith_iff _ _).mpr h)
        rw [if_neg h2, List.filter_cons_of_pos (by simpa using hm)]
        simp

theorem afterBuildOutcome_stop {u : CharClass} {demangle : Str → Str} {ord : HashOrder} {search : TagSearch}
    {y : Why} {w : World} {cl : Cli} {file host : Str} {config : Option Str} {rlib ll : Str} :
    (afterBuildOutcome u demangle ord search y w cl file host config rlib ll).stop =
      afterBuild u demangle ord search w cl file host config rlib ll := by
  unfold afterBuildOutcome afterBuild
  split
  · rfl
  rw [orFail_stop]
  congr 1
  funext entries
  cases selectLl file entries with
  | none => rfl
  | some name =>
    simp only
    rw [orFail_stop]
    congr 1
    funext app
    split
    · rfl
    rw [orFail_stop]
    congr 1
    funext builtins
    cases parseIr u app with
    | errorAt => rfl
    | panic => rfl
    | ok items =>
      simp only
      cases parseIr u builtins with
      | errorAt => rfl
      | panic => rfl
      | ok builtinsItems =>
        simp only
        rw [orFail_stop]
        congr 1
        funext objSizes
        rw [orFail_stop]
        congr 1
        funext archive
        rw [orFail_stop]
        rfl

theorem wrapperOutcome_stop {w : World} : (wrapperOutcome w).stop = wrapperEnd w := by
  unfold wrapperOutcome wrapperEnd Outcome.after
  simp only
  cases (wrapper w.argv).command with
  | error e => cases e <;> rfl
  | ok c => exact orFail_stop

theorem toolOutcome_stop {u : CharClass} {demangle : Str → Str} {ord : HashOrder} {search : TagSearch}
    {y : Why} {w : World} : (toolOutcome u demangle ord search y w).stop = tool u demangle ord search w := by
  unfold toolOutcome tool
  split
  · exact wrapperOutcome_stop
  rw [orFail_stop]
  congr 1
  funext ⟨hash, host⟩
  simp only
  split
  · rfl
  cases w.cli with
  | error e => rfl
  | ok cl =>
    simp only
    rw [orFail_stop]
    congr 1
    funext file
    rw [orFail_stop]
    congr 1
    funext config
    rw [orFail_stop]
    congr 1
    funext cfg
    rw [orFail_stop]
    congr 1
    funext touched
    unfold Outcome.after
    simp only
    rw [orFail_stop]
    congr 1
    funext ⟨code, stderr⟩
    simp only
    cases buildEnd code (readStderr stderr) with
    | exit => rfl
    | panic => rfl
    | paths => exact afterBuildOutcome_stop

/-- What can happen after a successful build. -/
def AfterCases (u : CharClass) (demangle : Str → Str) (ord : HashOrder) (search : TagSearch) (y : Why) (w : World)
    (cl : Cli) (file host : Str) (config : Option Str) (stderr : Str) (o : Outcome) : Prop :=
  (∃ c, o = .fail c ∧ w.Fails u y cl c) ∨ o = ⟨.panic, []⟩ ∨
    ∃ inp p, w.Inputs cl file host config stderr inp ∧ loadProgram u ord inp = .ok p ∧
      o = ⟨match runText demangle ord search p w.elf cl.start cl.format with
          | .error _ => .panic
          | .ok text => .exit 0 text, (runLog demangle ord search p w.elf cl.start).map .log⟩

theorem afterBuildOutcome_cases {u : CharClass} {demangle : Str → Str} {ord : HashOrder} {search : TagSearch}
    {y : Why} {w : World} {cl : Cli} {file host stderr : Str} {config : Option Str} {rlib ll : Str}
    (built : w.Built cl file host config (some 0) stderr) (h1 : (readStderr stderr).rlib = some rlib)
    (h2 : (readStderr stderr).ll = some ll) :
    AfterCases u demangle ord search y w cl file host config stderr
      (afterBuildOutcome u demangle ord search y w cl file host config rlib ll) := by
  have a1 : w.Announces cl _ rlib := ⟨file, host, config, stderr, built, (readStderr_rlib _ _).mp h1⟩
  have a2 : w.Announces cl _ ll := ⟨file, host, config, stderr, built, (readStderr_ll _ _).mp h2⟩
  unfold afterBuildOutcome
  split
  · rename_i he
    cases hp : y.exePath with
    | none => exact .inl ⟨.exePath, rfl, he, hp⟩
    | some path => exact .inl ⟨.executable, rfl, he, path, hp⟩
  rename_i hexe
  refine orFail_cases (fun e => .inl ⟨_, rfl, e⟩) fun entries e7 => ?_
  cases e8 : selectLl file entries with
  | none => exact .inr (.inl rfl)
  | some name =>
  have e8' := selectLl_iff.mp e8
  obtain ⟨stem, s1, s2⟩ := llFile_stem (by obtain ⟨_, _, _, _, n2, _⟩ := e8'; exact n2)
  subst s1
  have hn : w.Newest cl (stem ++ c!".ll") := ⟨file, host, config, stderr, entries, built, e7, e8'⟩
  simp only
  refine orFail_cases (fun e => .inl ⟨_, rfl, hn, e⟩) fun app e9 => ?_
  rw [s2]
  split
  · rename_i e
    exact .inl ⟨_, rfl, stem, rfl, hn, e⟩
  rename_i hobj
  refine orFail_cases (fun e => .inl ⟨_, rfl, a2, e⟩) fun cb e10 => ?_
  cases e11 : parseIr u app with
  | errorAt line => exact .inl ⟨_, rfl, hn, app, e9, e11⟩
  | panic => exact .inr (.inl rfl)
  | ok items =>
  simp only
  cases e12 : parseIr u cb with
  | errorAt line => exact .inl ⟨_, rfl, a2, cb, e10, e12⟩
  | panic => exact .inr (.inl rfl)
  | ok cbItems =>
  simp only
  refine orFail_cases (fun e => .inl ⟨_, rfl, stem, rfl, hn, e⟩) fun objSizes e13 => ?_
  refine orFail_cases (fun e => ?_) fun archive e14 => ?_
  · cases ho : y.opens rlib with
    | true => exact .inl ⟨.archive rlib, rfl, a1, e, ho⟩
    | false => exact .inl ⟨.archiveOpen rlib, rfl, a1, e, ho⟩
  refine orFail_cases (fun e => .inl ⟨_, rfl, e⟩) fun ⟨defined, undefined⟩ e15 => ?_
  refine .inr (.inr ⟨⟨config, cl.args.target, host, app, cb, objSizes, archive, defined, undefined⟩, _,
    World.InputsAt.inputs ⟨rfl, rfl, rfl, ⟨entries, stem, e7, e8', e9, by simpa using hobj, e13⟩, e10, e14,
      by simpa using hexe, e15⟩ h1 h2, ?_, rfl⟩)
  unfold loadProgram
  simp only [e11, e12]

/-- The end of the process after the build. -/
def buildOutcome (u : CharClass) (demangle : Str → Str) (ord : HashOrder) (search : TagSearch) (y : Why) (w : World)
    (cl : Cli) (file host : Str) (config : Option Str) (code : Option Int) (stderr : Str) : Outcome :=
  match buildEnd code (readStderr stderr) with
  | .exit c => ⟨.exit c [], []⟩
  | .panic _ => ⟨.panic, []⟩
  | .paths rlib ll => afterBuildOutcome u demangle ord search y w cl file host config rlib ll

theorem toolOutcome_built {u : CharClass} {demangle : Str → Str} {ord : HashOrder} {search : TagSearch} {y : Why}
    {w : World} {cl : Cli} {file host stderr : Str} {config : Option Str} {code : Option Int}
    (hw : w.wrapperVar = false) (hcl : w.cli = .ok cl) (h : w.Built cl file host config code stderr) :
    ∃ bl, BuildLines y w code stderr bl ∧ toolOutcome u demangle ord search y w =
      .after bl (buildOutcome u demangle ord search y w cl file host config code stderr) := by
  obtain ⟨⟨hash, h1, h2⟩, h3, h4, ⟨touched, h5⟩, target, cfg, lines, noStd, ht, h6, hl, hn, h7⟩ := h
  have hs : startup false hash w.optOut ≠ .unsupported := by
    rw [((C63_toolchain_gate false hash w.optOut).1).2 ⟨rfl, h2⟩]
    decide
  have hstd : isNoStd cfg = noStd := by
    rw [Bool.eq_iff_iff, isNoStd_lines hl, hn]
  refine ⟨(if y.verbose then [.command (cargoArgs cl.args file noStd)] else []) ++
    ((textLines stderr).filter (fun l => !decide (Marked l))).map .passed,
    ⟨_, _, rfl, textLines_exists stderr, fun hv => by rw [hv]; rfl, fun hv => ⟨_, by rw [hv]; rfl, h7⟩⟩, ?_⟩
  unfold toolOutcome
  rw [if_neg (by rw [hw]; simp), h1]
  simp only [orFail]
  rw [if_neg hs, hcl]
  simp only
  rw [((C64_one_file _ _).1).2 h3, h4]
  simp only
  rw [askedTarget_iff.mp ht, h6]
  simp only
  rw [h5]
  simp only
  rw [hstd, h7]
  simp only
  rw [readStderr_echoed (textLines_exists stderr)]
  unfold Outcome.after buildOutcome
  simp only [List.append_assoc]
  rfl

/-- If cargo does not run, an error is reported, and nothing is written before it but the explanation or the
command. -/
theorem toolOutcome_unbuilt {u : CharClass} {demangle : Str → Str} {ord : HashOrder} {search : TagSearch} {y : Why}
    {w : World} {cl : Cli} (hw : w.wrapperVar = false) (hcl : w.cli = .ok cl)
    (h : ¬ ∃ file host config code stderr, w.Built cl file host config code stderr) :
    ∃ pre c, toolOutcome u demangle ord search y w = .after pre (.fail c) ∧ w.Fails u y cl c ∧
      (∀ l ∈ pre, l = .explanation ∨ ∃ args, l = .command args) := by
  unfold toolOutcome
  rw [if_neg (by rw [hw]; simp)]
  have fail : ∀ {c}, w.Fails u y cl c → ∃ pre c', Outcome.fail c = .after pre (.fail c') ∧ w.Fails u y cl c' ∧
      (∀ l ∈ pre, l = .explanation ∨ ∃ args, l = .command args) :=
    fun {c} hf => ⟨[], c, rfl, hf, by simp⟩
  cases e1 : w.toolchain with
  | none => exact fail e1
  | some t =>
  obtain ⟨hash, host⟩ := t
  simp only [orFail]
  split
  · rename_i hsup
    refine ⟨[.explanation], .unsupported, rfl, ⟨hash, host, e1, ?_⟩, by simp⟩
    rw [← not_or]
    intro hor
    rw [((C63_toolchain_gate false hash w.optOut).1).2 ⟨rfl, hor⟩] at hsup
    cases hsup
  rename_i hsup
  rw [hcl]
  simp only
  have hsupp : w.Supported host := ⟨hash, e1, startup_supported hsup⟩
  cases e2 : cl.args.file with
  | none =>
    refine fail (c := .selection) ?_
    have := ((C64_one_file cl.args []).2).1 e2
    unfold World.Fails
    cases he : cl.args.example <;> cases hb : cl.args.bin <;> simp_all
  | some file =>
  have hsel : cl.args.Selects file := ((C64_one_file _ _).1).1 e2
  simp only
  cases e3 : w.config with
  | none => exact fail e3
  | some config =>
  simp only
  cases e4 : w.cfg (analysedTarget config cl.args.target host) with
  | none => exact fail ⟨e4, config, host, e3, hsupp, askedTarget_iff.mpr rfl⟩
  | some cfg =>
  simp only
  cases e5 : touch w.settable w.srcExists w.walkSrc w.walkRoot with
  | none => exact fail e5
  | some touched =>
  simp only
  cases e6 : w.cargo (cargoArgs cl.args file (isNoStd cfg)) with
  | none =>
    refine ⟨_, .cargo, rfl, ⟨file, _, hsel, e6⟩, ?_⟩
    intro l hl
    split at hl
    · exact .inr ⟨_, List.mem_singleton.mp hl⟩
    · cases hl
  | some r =>
    exact absurd ⟨file, host, config, r.1, r.2, hsupp, hsel, e3, ⟨touched, e5⟩, _, cfg, _, _,
      askedTarget_iff.mpr rfl, e4, textLines_exists cfg, isNoStd_lines (textLines_exists cfg), e6⟩ h

end CallStack
