import Verif.Proof.WrapperArgs

/-!
Property C60 for all argument vectors.
-/

namespace CallStack

/-- **C60** For all arguments: they are accepted exactly if each option has its value and there is a crate name. The
result then consists of the last crate name, the last output directory, the last extra file name and all extern
crates in order. -/
theorem C60_accepted_iff (args : List Str) (r : RustcArgs) :
    RustcArgs.parse args = .ok r ↔ ∃ os, WrapperReads args os ∧ crateNameOf os = some r.crateName ∧
      r.extraFilename = (extraOf os).getD [] ∧ r.outDir = outDirOf os ∧ r.externCrates = externsOf os := by
  constructor
  · intro h
    rcases wrapperReads_or_lacks args with ⟨os, ho⟩ | ⟨e, he⟩
    · refine ⟨os, ho, ?_⟩
      rw [ho.parse] at h
      cases hn : crateNameOf os with
      | none => simp [hn] at h
      | some name =>
        simp only [hn, Except.ok.injEq] at h
        subst h
        simp
    · simp [RustcArgs.parse, he.error] at h
  · rintro ⟨os, ho, h1, h2, h3, h4⟩
    rw [ho.parse, h1]
    obtain ⟨x, n, d, es⟩ := r
    simp_all

/-- **C60** For all arguments: they are refused exactly if an option lacks its value, with an error that names the
option, or if all options have their value and there is no crate name. -/
theorem C60_refused_iff (args : List Str) (e : WrapErr) :
    RustcArgs.parse args = .error e ↔ LacksValue args e ∨
      (e = .missingCrateName ∧ ∃ os, WrapperReads args os ∧ crateNameOf os = none) := by
  constructor
  · intro h
    rcases wrapperReads_or_lacks args with ⟨os, ho⟩ | ⟨e', he⟩
    · rw [ho.parse] at h
      cases hn : crateNameOf os with
      | none =>
        simp only [hn, Except.error.injEq] at h
        exact .inr ⟨h.symm, os, ho, hn⟩
      | some name => simp [hn] at h
    · simp only [RustcArgs.parse, he.error, Except.error.injEq] at h
      exact .inl (h ▸ he)
  · rintro (h | ⟨rfl, os, ho, hn⟩)
    · simp [RustcArgs.parse, h.error]
    · rw [ho.parse, hn]

/-- **C60** Arguments are understood in at most one way. -/
theorem C60_read_once {args : List Str} {os os' : List RustcOpt} (h : WrapperReads args os)
    (h' : WrapperReads args os') : os = os' := by
  induction h generalizing os' with
  | nil => cases h'; rfl
  | ext hv _ ih =>
    cases h' with
    | ext hv' h' => rw [← hv.eq, ← hv'.eq, ih h']
    | pass h1 => simp at h1
  | crateName _ ih =>
    cases h' with
    | crateName h' => rw [ih h']
    | pass h1 => simp at h1
  | outDir _ ih =>
    cases h' with
    | outDir h' => rw [ih h']
    | pass h1 => simp at h1
  | short hv _ ih =>
    generalize hx : c!"-C" = x at h'
    cases h' with
    | ext => simp at hx
    | crateName => simp at hx
    | outDir => simp at hx
    | short hv' h' =>
      rw [ih h', codegen_unique hv hv']
    | joined hne => simp at hx; exact absurd hx.symm (by simpa using hne)
    | pass _ h2 => exact absurd (hx ▸ List.prefix_rfl) h2
  | @joined v o rest os hne hv _ ih =>
    generalize hx : c!"-C" ++ v = x at h'
    cases h' with
    | ext => simp at hx
    | crateName => simp at hx
    | outDir => simp at hx
    | short => simp at hx; exact absurd hx hne
    | joined _ hv' h' =>
      have := List.append_cancel_left hx
      subst this
      rw [ih h', codegen_unique hv hv']
    | pass _ h2 => exact absurd ⟨_, hx⟩ h2
  | pass h1 h2 _ ih =>
    cases h' with
    | ext => simp at h1
    | crateName => simp at h1
    | outDir => simp at h1
    | short => exact absurd List.prefix_rfl h2
    | joined => exact absurd ⟨_, rfl⟩ h2
    | pass _ _ h' => rw [ih h']
where
  /-- A code generation option is understood in at most one way. -/
  codegen_unique {v : Str} {o o' : RustcOpt} (h : CodegenValue v o) (h' : CodegenValue v o') : o = o' := by
    cases h with
    | extraFilename x =>
      generalize hx : c!"extra-filename=" ++ x = y at h'
      cases h' with
      | extraFilename x' => rw [List.append_cancel_left hx]
      | other _ h2 => exact absurd ⟨_, hx⟩ h2
    | other h1 h2 =>
      cases h' with
      | extraFilename x' => exact absurd ⟨_, rfl⟩ h2
      | other => rfl

/-- `--extern` at the end lacks its value, although the arguments contain a crate name; in the second case the
value of `--out-dir` looks like an option. -/
example : RustcArgs.parse [c!"--crate-name", c!"a", c!"--extern"] = .error (.missingArgument c!"--extern") ∧
    RustcArgs.parse [c!"--out-dir", c!"--crate-name", c!"a"] = .error .missingCrateName ∧
    WrapperReads [c!"--out-dir", c!"--crate-name", c!"a"] [.outDir c!"--crate-name", .other] :=
  ⟨by decide +kernel, by decide +kernel, .outDir (.pass (by decide) (by decide) .nil)⟩

/-- **C59** For all arguments: the compiler is started exactly if they are understood, contain a crate name and, for
`compiler_builtins`, an output directory. It gets all arguments unchanged, after `-Zemit-stack-sizes` and, exactly
for `compiler_builtins`, `--emit=llvm-ir`. -/
theorem C59_started_iff (self rustc : Str) (args : List Str) (prog : Str) (cmd : List Str) :
    (wrapper (self :: rustc :: args)).command = .ok (prog, cmd) ↔ prog = rustc ∧ ∃ os name, WrapperReads args os ∧
      crateNameOf os = some name ∧
      ((name ≠ c!"compiler_builtins" ∧ cmd = c!"-Zemit-stack-sizes" :: args) ∨
        (name = c!"compiler_builtins" ∧ (∃ dir, outDirOf os = some dir) ∧
          cmd = c!"--emit=llvm-ir" :: c!"-Zemit-stack-sizes" :: args)) := by
  rcases wrapperReads_or_lacks args with ⟨os, ho⟩ | ⟨e, he⟩
  · have once : ∀ os', WrapperReads args os' → os' = os := fun os' h => C60_read_once h ho
    constructor
    · intro h
      cases hn : crateNameOf os with
      | none =>
        have hp := ho.parse
        rw [hn] at hp
        simp [wrapper, hp] at h
      | some name =>
        have hp := ho.parse
        rw [hn] at hp
        by_cases hb : name = c!"compiler_builtins"
        · subst hb
          cases hd : outDirOf os with
          | none => simp [wrapper, hp, hd] at h
          | some dir =>
            simp only [wrapper, List.drop_succ_cons, List.drop_zero, hp, if_true, hd, Except.ok.injEq,
              Prod.mk.injEq] at h
            exact ⟨h.1.symm, os, _, ho, hn, .inr ⟨rfl, ⟨dir, hd⟩, h.2.symm⟩⟩
        · simp only [wrapper, List.drop_succ_cons, List.drop_zero, hp, hb, if_false, Except.ok.injEq,
            Prod.mk.injEq] at h
          exact ⟨h.1.symm, os, _, ho, hn, .inl ⟨hb, h.2.symm⟩⟩
    · rintro ⟨rfl, os', name, ho', hn, h⟩
      rw [once os' ho'] at hn h
      have hp := ho.parse
      rw [hn] at hp
      rcases h with ⟨hb, rfl⟩ | ⟨rfl, ⟨dir, hd⟩, rfl⟩
      · simp [wrapper, hp, hb]
      · simp [wrapper, hp, hd]
  · constructor
    · intro h
      simp [wrapper, RustcArgs.parse, he.error] at h
    · rintro ⟨_, os, _, ho, _⟩
      have h1 := ho.loop [] {}
      rw [List.append_nil, he.error] at h1
      simp [parseArgsLoop] at h1

/-- The path of the extern crate `compiler_builtins`. -/
def Extern.builtins? (e : Extern) : Option Str := if e.crateName = c!"compiler_builtins" then e.path else none

/-- **C61** For all arguments that are understood: the wrapper announces the path of each extern crate
`compiler_builtins` that has one, in order, then the path of the LLVM-IR of that crate if it is the one that is
compiled, and writes nothing else. -/
theorem C61_wrapper_lines {args : List Str} {os : List RustcOpt} {name : Str} (self rustc : Str)
    (h : WrapperReads args os) (hn : crateNameOf os = some name) :
    ∃ ms : List Msg, (wrapper (self :: rustc :: args)).stderr = ms.map Msg.text ∧
      ms.filterMap Msg.rlib? = (externsOf os).filterMap Extern.builtins? ∧
      (∀ p, ms.filterMap Msg.ll? = [p] ↔ name = c!"compiler_builtins" ∧ ∃ dir, outDirOf os = some dir ∧
        p = dir ++ c!"/compiler_builtins" ++ (extraOf os).getD [] ++ c!".ll") ∧
      (name ≠ c!"compiler_builtins" → ms.filterMap Msg.ll? = []) ∧
      ∀ t, .line t ∉ ms := by
  have hp := h.parse
  rw [hn] at hp
  have rlibs : ∀ es : List Extern, ∃ ms : List Msg, es.flatMap announceRlib = ms.map Msg.text ∧
      ms.filterMap Msg.rlib? = es.filterMap Extern.builtins? ∧ ms.filterMap Msg.ll? = [] ∧ ∀ t, .line t ∉ ms := by
    intro es
    induction es with
    | nil => exact ⟨[], rfl, rfl, rfl, by simp⟩
    | cons e es ih =>
      obtain ⟨ms, h1, h2, h3, h4⟩ := ih
      obtain ⟨n, path⟩ := e
      by_cases hn : n = c!"compiler_builtins"
      · cases path with
        | none => exact ⟨ms, by simp [announceRlib, h1], by simp [Extern.builtins?, h2], h3, h4⟩
        | some path =>
          subst hn
          refine ⟨.rlib path :: ms, ?_, ?_, ?_, ?_⟩
          · simp [announceRlib, h1, Msg.text, rlibMarker]
          · simp [Extern.builtins?, Msg.rlib?, h2]
          · rw [List.filterMap_cons]; exact h3
          · simpa using h4
      · exact ⟨ms, by simp [announceRlib, hn, h1], by simp [Extern.builtins?, hn, h2], h3, h4⟩
  obtain ⟨ms, h1, h2, h3, h4⟩ := rlibs (externsOf os)
  by_cases hb : name = c!"compiler_builtins"
  · cases hd : outDirOf os with
    | none =>
      refine ⟨ms, ?_, h2, ?_, fun _ => h3, h4⟩
      · subst hb
        simp [wrapper, hp, hd, h1]
      · simp [h3]
    | some dir =>
      refine ⟨ms ++ [.ll (dir ++ c!"/compiler_builtins" ++ (extraOf os).getD [] ++ c!".ll")], ?_, ?_, ?_,
        fun h => absurd hb h, ?_⟩
      · subst hb
        simp [wrapper, hp, hd, h1, Msg.text, llMarker, builtinsLlPath]
      · simp [h2, Msg.rlib?]
      · intro p
        simp [h3, hb, Msg.ll?, eq_comm]
      · simpa using h4
  · refine ⟨ms, ?_, h2, ?_, fun _ => h3, h4⟩
    · simp [wrapper, hp, hb, h1]
    · simp [h3, hb]

/-- Two crates `compiler_builtins`: both are announced, in order, so that the last one is used. -/
example : (wrapper [c!"w", c!"rustc", c!"--extern", c!"compiler_builtins=/a", c!"-Cx", c!"--extern", c!"core=/c",
      c!"--extern", c!"noprelude:compiler_builtins=/b", c!"--crate-name", c!"app"]).stderr =
    [rlibMarker ++ c!"/a", rlibMarker ++ c!"/b"] := by decide +kernel

end CallStack
