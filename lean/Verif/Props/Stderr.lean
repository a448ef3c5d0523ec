import Verif.Proof.Stderr
import Verif.Props.Tool

/-!
Property C112: what is written to standard error.
-/

namespace CallStack

theorem BuildLines.passed {y : Why} {w : World} {code : Option Int} {stderr : Str} {bl : List ErrLine}
    (h : BuildLines y w code stderr bl) :
    ∀ l ∈ bl, (∃ args, l = .command args) ∨ ∃ line, l = .passed line := by
  obtain ⟨cmd, ls, rfl, _, h1, h2⟩ := h
  intro l hl
  rcases List.mem_append.mp hl with hl | hl
  · cases hv : y.verbose with
    | false => rw [h1 hv] at hl; cases hl
    | true =>
      obtain ⟨args, rfl, _⟩ := h2 hv
      exact .inl ⟨args, List.mem_singleton.mp hl⟩
  · obtain ⟨line, _, rfl⟩ := List.mem_map.mp hl
    exact .inr ⟨line, rfl⟩

/-- The companion that records standard error ends as the tool does. -/
theorem C112_same_end (u : CharClass) (demangle : Str → Str) (ord : HashOrder) (search : TagSearch) (y : Why)
    (w : World) : (toolOutcome u demangle ord search y w).stop = tool u demangle ord search w :=
  toolOutcome_stop

/-- **C112** What is written to standard error is one of the following: an error in the last line, which is the case,
and then the exit status is 1; the lines of cargo that are not meant for the tool, and then the exit status is that of
cargo, or the tool has aborted after a successful build; these lines and, if all files could be read, the messages
about the program. -/
theorem C112_standard_error {u : CharClass} {demangle : Str → Str} {ord : HashOrder} {search : TagSearch} {y : Why}
    {w : World} {cl : Cli} (hw : w.wrapperVar = false) (hcl : w.cli = .ok cl) :
    (∃ pre c, (toolOutcome u demangle ord search y w).lines = pre ++ [.error c] ∧ w.Fails u y cl c ∧
      (∀ l ∈ pre, l = .explanation ∨ (∃ args, l = .command args) ∨ ∃ line, l = .passed line) ∧
      tool u demangle ord search w = .exit 1 []) ∨
    (∃ file host config code stderr, w.Built cl file host config code stderr ∧
      BuildLines y w code stderr (toolOutcome u demangle ord search y w).lines ∧
      ((code ≠ some 0 ∧ tool u demangle ord search w = .exit (code.getD 1) []) ∨
        (code = some 0 ∧ tool u demangle ord search w = .panic))) ∨
    (∃ file host config stderr inp p bl, w.Built cl file host config (some 0) stderr ∧
      BuildLines y w (some 0) stderr bl ∧ w.Inputs cl file host config stderr inp ∧ loadProgram u ord inp = .ok p ∧
      (toolOutcome u demangle ord search y w).lines =
        bl ++ (runLog demangle ord search p w.elf cl.start).map .log ∧
      ((∃ text, runText demangle ord search p w.elf cl.start cl.format = .ok text ∧
          tool u demangle ord search w = .exit 0 text) ∨
        (∃ e, runText demangle ord search p w.elf cl.start cl.format = .error e ∧
          tool u demangle ord search w = .panic))) := by
  rw [← C112_same_end u demangle ord search y w]
  by_cases hb : ∃ file host config code stderr, w.Built cl file host config code stderr
  · obtain ⟨file, host, config, code, stderr, built⟩ := hb
    obtain ⟨bl, h1, h2⟩ := toolOutcome_built (u := u) (demangle := demangle) (ord := ord) (search := search) (y := y)
      hw hcl built
    rw [h2]
    unfold buildOutcome Outcome.after
    simp only
    cases he : buildEnd code (readStderr stderr) with
    | exit c =>
      obtain ⟨e1, e2⟩ := buildEnd_exit he
      exact .inr (.inl ⟨file, host, config, code, stderr, built, by simpa using h1, .inl ⟨e1, by rw [e2]⟩⟩)
    | panic =>
      have : code = some 0 := by
        unfold buildEnd at he
        split at he
        · cases he
        · rename_i h; simpa using h
      exact .inr (.inl ⟨file, host, config, code, stderr, built, by simpa using h1, .inr ⟨this, rfl⟩⟩)
    | paths rlib ll =>
      obtain ⟨rfl, b1, b2⟩ := buildEnd_paths he
      simp only
      rcases afterBuildOutcome_cases (u := u) (demangle := demangle) (ord := ord) (search := search) (y := y) built
        b1 b2 with ⟨c, e, hf⟩ | e | ⟨inp, p, i1, i2, e⟩
      · rw [e]
        refine .inl ⟨bl, c, rfl, hf, fun l hl => .inr (h1.passed l hl), rfl⟩
      · rw [e]
        exact .inr (.inl ⟨file, host, config, some 0, stderr, built, by simpa using h1, .inr ⟨rfl, rfl⟩⟩)
      · rw [e]
        refine .inr (.inr ⟨file, host, config, stderr, inp, p, bl, built, h1, i1, i2, rfl, ?_⟩)
        cases runText demangle ord search p w.elf cl.start cl.format with
        | error e => exact .inr ⟨e, rfl, rfl⟩
        | ok text => exact .inl ⟨text, rfl, rfl⟩
  · obtain ⟨pre, c, h1, h2, h3⟩ := toolOutcome_unbuilt (u := u) (demangle := demangle) (ord := ord) (search := search)
      (y := y) hw hcl hb
    rw [h1]
    refine .inl ⟨pre, c, rfl, h2, fun l hl => ?_, rfl⟩
    rcases h3 l hl with h | h
    · exact .inl h
    · exact .inr (.inl h)

/-- **C112** An error is reported exactly if the exit status is 1 for another reason than that cargo has failed. -/
theorem C112_error_reported {u : CharClass} {demangle : Str → Str} {ord : HashOrder} {search : TagSearch} {y : Why}
    {w : World} {cl : Cli} (hw : w.wrapperVar = false) (hcl : w.cli = .ok cl) :
    (∃ c, .error c ∈ (toolOutcome u demangle ord search y w).lines) ↔
      tool u demangle ord search w = .exit 1 [] ∧
        ∀ file host config code stderr, w.Built cl file host config code stderr → code = some 0 := by
  rcases C112_standard_error (u := u) (demangle := demangle) (ord := ord) (search := search) (y := y) hw hcl with
    ⟨pre, c, h1, h2, h3, h4⟩ | ⟨file, host, config, code, stderr, built, h1, h2⟩ |
    ⟨file, host, config, stderr, inp, p, bl, built, h1, h2, h3, h4, h5⟩
  · refine ⟨fun _ => ⟨h4, fun file host config code stderr built => ?_⟩, fun _ => ⟨c, by rw [h1]; simp⟩⟩
    by_contra hc
    obtain ⟨bl, b1, b2⟩ := toolOutcome_built (u := u) (demangle := demangle) (ord := ord) (search := search) (y := y)
      hw hcl built
    have : (toolOutcome u demangle ord search y w).lines = bl := by
      rw [b2]
      unfold buildOutcome Outcome.after
      simp only [buildEnd, if_pos hc]
      simp
    rw [this] at h1
    rcases b1.passed (.error c) (by rw [h1]; simp) with ⟨_, h⟩ | ⟨_, h⟩ <;> cases h
  · constructor
    · rintro ⟨c, hc⟩
      rcases h1.passed _ hc with ⟨_, h⟩ | ⟨_, h⟩ <;> cases h
    · rintro ⟨e1, e2⟩
      have := e2 _ _ _ _ _ built
      rcases h2 with ⟨h, _⟩ | ⟨_, h⟩
      · exact absurd this h
      · rw [h] at e1; cases e1
  · constructor
    · rintro ⟨c, hc⟩
      rw [h4] at hc
      rcases List.mem_append.mp hc with hc | hc
      · rcases h1.passed _ hc with ⟨_, h⟩ | ⟨_, h⟩ <;> cases h
      · obtain ⟨_, _, h⟩ := List.mem_map.mp hc
        cases h
    · rintro ⟨e1, _⟩
      rcases h5 with ⟨_, _, h⟩ | ⟨_, _, h⟩ <;> rw [h] at e1 <;> cases e1

/-- **C112** The lines of cargo: whatever happens later, those not meant for the tool are passed on, all of them, once
and in order; and no others. -/
theorem C112_passed_on {u : CharClass} {demangle : Str → Str} {ord : HashOrder} {search : TagSearch} {y : Why}
    {w : World} {cl : Cli} {file host stderr : Str} {config : Option Str} {code : Option Int}
    (hw : w.wrapperVar = false) (hcl : w.cli = .ok cl) (built : w.Built cl file host config code stderr) :
    ∃ ls, TextLines stderr ls ∧
      (toolOutcome u demangle ord search y w).lines.filterMap (fun | .passed l => some l | _ => none) =
        ls.filter (fun l => !decide (Marked l)) := by
  obtain ⟨bl, ⟨cmd, ls, h0, h1, h2, h3⟩, hb⟩ := toolOutcome_built (u := u) (demangle := demangle) (ord := ord)
    (search := search) (y := y) hw hcl built
  refine ⟨ls, h1, ?_⟩
  have hcmd : cmd.filterMap (fun | .passed l => some l | _ => none) = ([] : List Str) := by
    cases hv : y.verbose with
    | false => rw [h2 hv]; rfl
    | true =>
      obtain ⟨args, rfl, _⟩ := h3 hv
      rfl
  have hrest : (buildOutcome u demangle ord search y w cl file host config code stderr).lines.filterMap
      (fun | .passed l => some l | _ => none) = ([] : List Str) := by
    unfold buildOutcome
    cases he : buildEnd code (readStderr stderr) with
    | exit => rfl
    | panic => rfl
    | paths rlib ll =>
      obtain ⟨rfl, b1, b2⟩ := buildEnd_paths he
      rcases afterBuildOutcome_cases (u := u) (demangle := demangle) (ord := ord) (search := search) (y := y) built
        b1 b2 with ⟨c, e, _⟩ | e | ⟨inp, p, _, _, e⟩
      · simp only [e]; rfl
      · simp only [e]; rfl
      · simp only [e, List.filterMap_map, List.filterMap_eq_nil_iff]
        intro m _
        rfl
  rw [hb, h0]
  unfold Outcome.after
  simp only [List.filterMap_append, hcmd, hrest, List.nil_append, List.append_nil, List.filterMap_map]
  exact List.filterMap_some

/-- The kind of an error whose text the tool composes. -/
def Cause.kind : Cause → Option Nat
  | .unsupported => some 0
  | .selection => some 1
  | .executable => some 2
  | .appText _ => some 3
  | .object _ => some 4
  | .builtinsText _ => some 5
  | .appIr _ _ => some 6
  | .builtinsIr _ _ => some 7
  | .archiveOpen _ => some 8
  | .spawn _ => some 9
  | .wrapper (.missingArgument _) => some 10
  | .wrapper .missingExtraFilename => some 11
  | .wrapper .missingCrateName => some 12
  | .wrapper .missingOutDir => some 13
  | _ => none

/-- How the text of each kind begins. -/
def Cause.head : Nat → Str
  | 0 => c!"unsupported"
  | 1 => c!"Please"
  | 2 => c!"couldn't open E"
  | 3 => c!"couldn't read L"
  | 4 => c!"couldn't read o"
  | 5 => c!"couldn't read `"
  | 6 => c!"failed to parse a"
  | 7 => c!"failed to parse `"
  | 8 => c!"couldn't open `"
  | 9 => c!"failed to spawn"
  | 10 => c!"missing argument"
  | 11 => c!"missing value"
  | 12 => c!"missing `--c"
  | _ => c!"missing `--o"

theorem Cause.kind_head {y : Why} {c : Cause} {k : Nat} (h : c.kind = some k) : Cause.head k <+: c.text y := by
  unfold Cause.kind at h
  split at h <;> first | (cases h; done) | (obtain rfl := Option.some.inj h; exact ⟨_, rfl⟩)

/-- **C112** Errors of different kinds have different texts, whatever the names of the files and the reasons are, as
far as the tool composes the text. -/
theorem C112_texts_differ {y : Why} {c c' : Cause} {k k' : Nat} (h1 : c.kind = some k) (h2 : c'.kind = some k')
    (h : c.text y = c'.text y) : k = k' := by
  have p1 := Cause.kind_head (y := y) h1
  have p2 := Cause.kind_head (y := y) h2
  rw [h] at p1
  have hk : ∀ {d : Cause} {n : Nat}, d.kind = some n → n < 14 := by
    intro d n hd
    unfold Cause.kind at hd
    split at hd <;> simp at hd <;> omega
  have table : ∀ a < 14, ∀ b < 14, Cause.head a <+: Cause.head b → a = b := by decide +kernel
  rcases List.prefix_or_prefix_of_prefix p1 p2 with hp | hp
  · exact table k (hk h1) k' (hk h2) hp
  · exact (table k' (hk h2) k (hk h1) hp).symm

/-- **C112** An error about a file names it by its directory, a slash and the name, in backquotes; so one reads off
which of the files is meant. -/
theorem C112_names_file {y : Why} {name : Str} {c : Cause} {line : Nat}
    (hc : c = .appText name ∨ c = .object name ∨ c = .appIr name line) :
    ∃ pre post, c.text y = pre ++ c!"`" ++ y.dir ++ c!"/" ++ name ++ c!"`: " ++ post ∧ '`' ∉ pre := by
  rcases hc with rfl | rfl | rfl
  · exact ⟨c!"couldn't read LLVM IR from ", y.reason (.appText name), by simp [Cause.text, Why.path], by decide⟩
  · exact ⟨c!"couldn't read object file ", y.reason (.object name), by simp [Cause.text, Why.path], by decide⟩
  · exact ⟨c!"failed to parse application's LLVM IR from ", parseText (y.parseKind (.appIr name line)) line,
      by simp [Cause.text, Why.path], by decide⟩

/-- **C112** If a file of LLVM-IR cannot be parsed, the message ends with the number, in decimal, of the line with the
first character that was not read; lines are counted from one. -/
theorem C112_names_line {u : CharClass} {demangle : Str → Str} {ord : HashOrder} {search : TagSearch} {y : Why}
    {w : World} {cl : Cli} (hw : w.wrapperVar = false) (hcl : w.cli = .ok cl) {name : Str} {line : Nat} {c : Cause}
    (hc : c = .appIr name line ∨ c = .builtinsIr name line)
    (h : .error c ∈ (toolOutcome u demangle ord search y w).lines) :
    ∃ ll done ch rest digits, (w.appText name = some ll ∨ w.builtinsText name = some ll) ∧ ll = done ++ ch :: rest ∧
      itemsP u ll = .failure (ch :: rest) ∧ IsDecimal digits (done.count '\n' + 1) ∧
      c!" in line " ++ digits ++ c!"\")" <:+ c.text y := by
  have hf : w.Fails u y cl c := by
    rcases C112_standard_error (u := u) (demangle := demangle) (ord := ord) (search := search) (y := y) hw hcl with
      ⟨pre, c', e, hf, hpre, _⟩ | ⟨_, _, _, _, _, _, hb, _⟩ | ⟨_, _, _, _, _, _, bl, _, hb, _, _, e, _⟩
    · rw [e] at h
      rcases List.mem_append.mp h with h | h
      · rcases hpre _ h with h | ⟨_, h⟩ | ⟨_, h⟩ <;> cases h
      · cases List.mem_singleton.mp h
        exact hf
    · rcases hb.passed _ h with ⟨_, h⟩ | ⟨_, h⟩ <;> cases h
    · rw [e] at h
      rcases List.mem_append.mp h with h | h
      · rcases hb.passed _ h with ⟨_, h⟩ | ⟨_, h⟩ <;> cases h
      · obtain ⟨_, _, h⟩ := List.mem_map.mp h
        cases h
  have place : ∀ {ll : Str}, parseIr u ll = .errorAt line → ∃ done ch rest, ll = done ++ ch :: rest ∧
      itemsP u ll = .failure (ch :: rest) ∧ IsDecimal (showNat line) (done.count '\n' + 1) := by
    intro ll hl
    rcases C55_error_line u ll with ⟨items, _, e⟩ | ⟨done, ch, rest, e1, e2, e3⟩
    · rw [e] at hl; cases hl
    · rw [e3] at hl
      cases hl
      exact ⟨done, ch, rest, e1, e2, showNat_isDecimal _⟩
  rcases hc with rfl | rfl
  · obtain ⟨_, ll, h1, h2⟩ := hf
    obtain ⟨done, ch, rest, e1, e2, e3⟩ := place h2
    refine ⟨ll, done, ch, rest, _, .inl h1, e1, e2, e3, ?_⟩
    unfold Cause.text parseText
    simp only [List.append_assoc]
    iterate 5 apply List.suffix_append_of_suffix
    exact List.suffix_refl _
  · obtain ⟨_, ll, h1, h2⟩ := hf
    obtain ⟨done, ch, rest, e1, e2, e3⟩ := place h2
    refine ⟨ll, done, ch, rest, _, .inr h1, e1, e2, e3, ?_⟩
    unfold Cause.text parseText
    simp only [List.append_assoc]
    iterate 5 apply List.suffix_append_of_suffix
    exact List.suffix_refl _

/-- Files are in `/t`; missing files are the reason for all errors. -/
def exWhy (verbose : Bool) : Why where
  verbose := verbose
  exePath := some c!"/t/app"
  dir := c!"/t/deps"
  opens _ := true
  reason _ := c!"No such file"
  parseKind _ := c!"Failure(\"Eof"

/-- The tool cannot read the object file beside the newest LLVM-IR file, after a build with a warning. -/
example :
    (toolOutcome exClass id sameOrder linearSearch (exWhy false)
      { exWorld (some 0) (rlibMarker ++ (c!"/b.rlib\nwarning: unused\n" ++ (llMarker ++ c!"/b.ll\n"))) with
        object := fun _ => false }).lines =
      [.passed c!"warning: unused", .error (.object c!"app-2.o")] ∧
    Cause.text (exWhy false) (.object c!"app-2.o") =
      c!"couldn't read object file `/t/deps/app-2.o`: No such file" := by
  decide +kernel

/-- A run that succeeds, with warnings about the program: there is no LLVM-IR of the application. The command comes
first. -/
example :
    (toolOutcome exClass id sameOrder linearSearch (exWhy true)
      { exWorld (some 0) (rlibMarker ++ (c!"/b.rlib\nwarning: unused\n" ++ (llMarker ++ c!"/b.ll\n"))) with
        appText := fun _ => some [] }).lines.tail =
      [.passed c!"warning: unused", .log (.noType c!"main"), .log (.noType c!"f"), .log .untypedSymbols] := by
  decide +kernel

/-- A parse error names the file and the line. -/
example :
    (toolOutcome exClass id sameOrder linearSearch (exWhy false)
      { exWorld (some 0) (rlibMarker ++ (c!"/b.rlib\n" ++ (llMarker ++ c!"/b.ll\n"))) with
        appText := fun _ => some c!"\n%x\n" }).lines = [.error (.appIr c!"app-2.ll" 2)] ∧
    Cause.text (exWhy false) (.appIr c!"app-2.ll" 2) =
      c!"failed to parse application's LLVM IR from `/t/deps/app-2.ll`: BUG: failed to parse LLVM IR; please submit " ++
      c!"a cargo-call-stack bug report and attach the `.ll` file: Failure(\"Eof in line 2\")" := by
  decide +kernel

end CallStack
