import Verif.Props.Tool

/-!
Property C59: the exit status of the process when it runs as the wrapper (main.rs:84-108, wrapper.rs:25-58).
-/

namespace CallStack

theorem parseCodegen_path {arg : Str} {st : ArgState} : parseCodegen arg st ≠ .error .noRustcPath := by
  unfold parseCodegen
  split
  · split <;> simp
  · simp

theorem parseArgsLoop_path (args : List Str) (st : ArgState) : parseArgsLoop args st ≠ .error .noRustcPath := by
  fun_induction parseArgsLoop args st <;> try simp_all
  all_goals
    rename_i h
    rintro rfl
    exact parseCodegen_path h

theorem parse_path (args : List Str) : RustcArgs.parse args ≠ .error .noRustcPath := by
  unfold RustcArgs.parse
  split
  · rename_i e he
    rintro h
    cases h
    exact parseArgsLoop_path _ _ he
  · split <;> simp

/-- **C59** As a wrapper, the process ends with the status of the compiler, and with a failure if the compiler was
killed, could not be started, or the arguments are refused. It reports success only for a compiler that was started
with all arguments and succeeded. Nothing is written to standard output, which belongs to the compiler. -/
theorem C59_wrapper_status {u : CharClass} {demangle : Str → Str} {ord : HashOrder} {search : TagSearch} {w : World}
    (hw : w.wrapperVar = true) :
    (∀ prog args code, (wrapper w.argv).command = .ok (prog, args) → w.compiler prog args = some (some code) →
      tool u demangle ord search w = .exit code []) ∧
    (∀ prog args, (wrapper w.argv).command = .ok (prog, args) → w.compiler prog args = some none →
      ∃ c, c ≠ 0 ∧ tool u demangle ord search w = .exit c []) ∧
    (∀ out, tool u demangle ord search w = .exit 0 out → out = [] ∧
      ∃ self prog args cmd, w.argv = self :: prog :: args ∧ w.compiler prog cmd = some (some 0) ∧
        (cmd = c!"-Zemit-stack-sizes" :: args ∨ cmd = c!"--emit=llvm-ir" :: c!"-Zemit-stack-sizes" :: args)) ∧
    (∀ c out, tool u demangle ord search w = .exit c out → out = []) ∧
    (tool u demangle ord search w = .panic ↔ w.argv.length < 2) := by
  have ht : tool u demangle ord search w = wrapperEnd w := by simp [tool, hw]
  rw [ht]
  refine ⟨?_, ?_, ?_, ?_, ?_⟩
  · intro prog args code h1 h2
    simp [wrapperEnd, h1, h2, orExit, wrapperExit]
  · intro prog args h1 h2
    exact ⟨-1, by decide, by simp [wrapperEnd, h1, h2, orExit, wrapperExit]⟩
  · intro out h
    unfold wrapperEnd at h
    split at h
    · cases h
    · simp at h
    · rename_i prog cmd h1
      unfold orExit at h
      split at h
      · simp at h
      · rename_i code h2
        simp only [End.exit.injEq] at h
        obtain ⟨h3, rfl⟩ := h
        obtain ⟨self, args, h4, h5⟩ := C59_nothing_lost h1
        cases code with
        | none => simp [wrapperExit] at h3
        | some k =>
          obtain rfl : k = 0 := h3
          exact ⟨rfl, self, prog, args, cmd, h4, h2, h5⟩
  · intro c out h
    unfold wrapperEnd at h
    split at h
    · cases h
    · simp only [End.exit.injEq] at h
      exact h.2.symm
    · unfold orExit at h
      split at h <;>
      · simp only [End.exit.injEq] at h
        exact h.2.symm
  · have hdrop : (wrapper w.argv).command = .error .noRustcPath ↔ w.argv.length < 2 := by
      rcases w.argv with _ | ⟨self, _ | ⟨rustc, args⟩⟩
      · simp [wrapper]
      · simp [wrapper]
      · constructor
        · intro h
          unfold wrapper at h
          simp only [List.drop_succ_cons, List.drop_zero] at h
          split at h
          · rename_i e he
            simp only [Except.error.injEq] at h
            subst h
            exact absurd he (parse_path args)
          · split at h
            · split at h <;> simp at h
            · simp at h
        · intro h
          simp only [List.length_cons] at h
          omega
    rw [← hdrop]
    unfold wrapperEnd
    split
    · rename_i h1
      simp [h1]
    · rename_i e h1 h2
      simp only [reduceCtorEq, false_iff]
      intro h3
      rw [h2] at h3
      cases h3
      exact absurd rfl h1
    · rename_i h1
      rw [h1]
      unfold orExit
      split <;> simp

/-- Three compilers: one that fails, one that is killed, and one that succeeds. -/
example (w : World) (u : CharClass) (ord : HashOrder) (search : TagSearch) :
    let run := fun r => tool u id ord search { w with
      wrapperVar := true
      argv := [c!"cargo-call-stack", c!"rustc", c!"--crate-name", c!"app"]
      compiler := fun _ args => if args = [c!"-Zemit-stack-sizes", c!"--crate-name", c!"app"] then r else none }
    run (some (some 101)) = .exit 101 [] ∧ run (some none) = .exit (-1) [] ∧ run (some (some 0)) = .exit 0 [] :=
  ⟨rfl, rfl, rfl⟩

end CallStack
