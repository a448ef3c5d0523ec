import Verif.Spec.WrapperArgs
import Verif.Proof.Wrapper

/-!
The arguments that the rustc wrapper understands: all that do not lack a value.
-/

namespace CallStack

theorem parseExtern_value (v : Str) : ExternValue v (parseExtern v) := by
  unfold ExternValue parseExtern
  by_cases h : startsWith v c!"noprelude:" = true
  · obtain ⟨w, rfl⟩ := (startsWith_iff _ _).1 h
    rw [if_pos h, List.drop_left]
    obtain ⟨h1, h2⟩ := splitEq_spec w
    exact ⟨w, .inl rfl, h1, h2.imp id (fun ⟨t, h2, h3⟩ => ⟨t, h2, h3⟩)⟩
  · rw [if_neg h]
    rw [startsWith_iff] at h
    obtain ⟨h1, h2⟩ := splitEq_spec v
    exact ⟨v, .inr ⟨rfl, h⟩, h1, h2.imp id (fun ⟨t, h2, h3⟩ => ⟨t, h2, h3⟩)⟩

theorem ExternValue.eq {v : Str} {e : Extern} (h : ExternValue v e) : parseExtern v = e := by
  obtain ⟨w, hv, hn, hw⟩ := h
  have hs : splitEq w = (e.crateName, e.path) := by
    rcases hw with ⟨hp, rfl⟩ | ⟨p, hp, rfl⟩
    · rw [splitEq_none hn, hp]
    · rw [splitEq_some hn, hp]
  rcases hv with rfl | ⟨rfl, hv⟩
  · have : startsWith (c!"noprelude:" ++ w) c!"noprelude:" = true := (startsWith_iff _ _).2 ⟨w, rfl⟩
    rw [parseExtern, if_pos this, List.drop_left, hs]
  · simp only [parseExtern, startsWith_false hv, Bool.false_eq_true, if_false, hs]

theorem CodegenValue.eq {v : Str} {o : RustcOpt} (h : CodegenValue v o) (st : ArgState) :
    parseCodegen v st = .ok (st.add o) := by
  cases h with
  | extraFilename x =>
    have : c!"extra-filename=" ++ x = c!"extra-filename" ++ '=' :: x := by simp
    rw [parseCodegen, this, splitEq_some (by decide)]
    rfl
  | other h1 h2 =>
    unfold parseCodegen
    rw [if_neg]
    · rfl
    · intro he
      rcases (splitEq_spec v).2 with ⟨_, h3⟩ | ⟨t, _, h3⟩
      · exact h1 (by rw [h3, he])
      · refine h2 ⟨t, ?_⟩
        rw [h3, he]
        simp

theorem codegen_cases (v : Str) : v = c!"extra-filename" ∨ ∃ o, CodegenValue v o := by
  by_cases h1 : v = c!"extra-filename"
  · exact .inl h1
  · refine .inr ?_
    by_cases h2 : c!"extra-filename=" <+: v
    · obtain ⟨x, rfl⟩ := h2
      exact ⟨_, .extraFilename x⟩
    · exact ⟨_, .other h1 h2⟩

/-- What is understood is understood in front of anything. -/
theorem WrapperReads.loop {args : List Str} {os : List RustcOpt} (h : WrapperReads args os) (rest : List Str)
    (st : ArgState) : parseArgsLoop (args ++ rest) st = parseArgsLoop rest (os.foldl ArgState.add st) := by
  induction h generalizing st with
  | nil => rfl
  | ext hv _ ih =>
    rw [List.foldl_cons, ← ih, parseArgsLoop.eq_def]
    simp [hv.eq, ArgState.add]
  | crateName _ ih => rw [List.foldl_cons, ← ih, parseArgsLoop.eq_def]; simp [ArgState.add]
  | outDir _ ih => rw [List.foldl_cons, ← ih, parseArgsLoop.eq_def]; simp [ArgState.add]
  | short hv _ ih =>
    rw [List.foldl_cons, ← ih, parseArgsLoop.eq_def]
    have hs : startsWith c!"-C" c!"-C" = true := by decide
    simp [hs, hv.eq]
  | @joined v o rest' os hne hv _ ih =>
    rw [List.foldl_cons, ← ih]
    have hs : startsWith (c!"-C" ++ v) c!"-C" = true := (startsWith_iff _ _).2 ⟨_, rfl⟩
    have hdrop : (c!"-C" ++ v).drop c!"-C".length = v := List.drop_left
    have h1 : c!"-C" ++ v ≠ c!"--extern" := by simp
    have h2 : c!"-C" ++ v ≠ c!"--crate-name" := by simp
    have h3 : c!"-C" ++ v ≠ c!"--out-dir" := by simp
    generalize c!"-C" ++ v = a at hs hdrop h1 h2 h3
    rw [List.cons_append, parseArgsLoop.eq_def]
    simp only [h1, h2, h3, if_false, hs, if_true, hdrop, hne, hv.eq]
  | pass h1 h2 _ ih =>
    simp only [List.mem_cons, List.not_mem_nil, not_or, or_false] at h1
    rw [List.foldl_cons, List.cons_append, parseArgsLoop.eq_def]
    simp only [h1.1, h1.2.1, h1.2.2, startsWith_false h2, if_false, Bool.false_eq_true]
    exact ih _

theorem WrapperReads.append {args rest : List Str} {os os' : List RustcOpt} (h : WrapperReads args os)
    (h' : WrapperReads rest os') : WrapperReads (args ++ rest) (os ++ os') := by
  induction h with
  | nil => exact h'
  | ext hv _ ih => exact .ext hv ih
  | crateName _ ih => exact .crateName ih
  | outDir _ ih => exact .outDir ih
  | short hv _ ih => exact .short hv ih
  | joined hne hv _ ih => exact .joined hne hv ih
  | pass h1 h2 _ ih => exact .pass h1 h2 ih

theorem LacksValue.after {pre args : List Str} {os : List RustcOpt} {e : WrapErr} (h : WrapperReads pre os)
    (hl : LacksValue args e) : LacksValue (pre ++ args) e := by
  cases hl with
  | argument ho hr he => exact .argument ho (h.append hr) (by rw [he, List.append_assoc])
  | short hr he => exact .short (h.append hr) (by rw [he, List.append_assoc])
  | joined hr he => exact .joined (h.append hr) (by rw [he, List.append_assoc])

theorem LacksValue.error {args : List Str} {e : WrapErr} (h : LacksValue args e) (st : ArgState) :
    parseArgsLoop args st = .error e := by
  have hs : startsWith c!"-C" c!"-C" = true := by decide
  have bad : ∀ st, parseCodegen c!"extra-filename" st = .error .missingExtraFilename := by
    intro st
    rw [parseCodegen, splitEq_none (by decide)]
    rfl
  cases h with
  | argument ho hr he =>
    rw [he, hr.loop]
    simp only [List.mem_cons, List.not_mem_nil, or_false] at ho
    rcases ho with rfl | rfl | rfl | rfl <;> rw [parseArgsLoop.eq_def] <;> simp [hs]
  | short hr he =>
    rw [he, hr.loop, parseArgsLoop.eq_def]
    simp [hs, bad]
  | joined hr he =>
    rw [he, hr.loop, parseArgsLoop.eq_def]
    have hs : startsWith c!"-Cextra-filename" c!"-C" = true := by decide
    have hd : c!"-Cextra-filename".drop c!"-C".length = c!"extra-filename" := by decide
    have h1 : c!"-Cextra-filename" ≠ c!"--extern" := by decide
    have h2 : c!"-Cextra-filename" ≠ c!"--crate-name" := by decide
    have h3 : c!"-Cextra-filename" ≠ c!"--out-dir" := by decide
    have h4 : c!"extra-filename" ≠ [] := by decide
    simp only [h1, h2, h3, if_false, hs, if_true, hd, h4, bad]

/-- Arguments are understood unless a value is missing. -/
theorem wrapperReads_or_lacks (args : List Str) :
    (∃ os, WrapperReads args os) ∨ ∃ e, LacksValue args e := by
  generalize hn : args.length = n
  induction n using Nat.strongRecOn generalizing args with
  | ind n ih =>
    cases args with
    | nil => exact .inl ⟨_, .nil⟩
    | cons a rest =>
      have next : ∀ {pre tail : List Str} {o : RustcOpt}, a :: rest = pre ++ tail → pre ≠ [] →
          WrapperReads pre [o] → (∃ os, WrapperReads (a :: rest) os) ∨ ∃ e, LacksValue (a :: rest) e := by
        intro pre tail o he hne hr
        have hl : tail.length < n := by
          have := congrArg List.length he
          rw [List.length_append, hn] at this
          have : 0 < pre.length := List.length_pos_iff.2 hne
          omega
        rw [he]
        rcases ih _ hl tail rfl with ⟨os, h⟩ | ⟨e, h⟩
        · exact .inl ⟨_, hr.append h⟩
        · exact .inr ⟨e, h.after hr⟩
      by_cases hm : a ∈ [c!"--extern", c!"--crate-name", c!"--out-dir", c!"-C"]
      · cases rest with
        | nil => exact .inr ⟨_, .argument hm .nil rfl⟩
        | cons v rest =>
          simp only [List.mem_cons, List.not_mem_nil, or_false] at hm
          rcases hm with rfl | rfl | rfl | rfl
          · exact next (pre := [c!"--extern", v]) rfl (by simp) (.ext (parseExtern_value v) .nil)
          · exact next (pre := [c!"--crate-name", v]) rfl (by simp) (.crateName .nil)
          · exact next (pre := [c!"--out-dir", v]) rfl (by simp) (.outDir .nil)
          · rcases codegen_cases v with rfl | ⟨o, ho⟩
            · exact .inr ⟨_, .short .nil rfl⟩
            · exact next (pre := [c!"-C", v]) rfl (by simp) (.short ho .nil)
      · by_cases hC : c!"-C" <+: a
        · obtain ⟨v, rfl⟩ := hC
          have hne : v ≠ [] := by
            rintro rfl
            simp at hm
          rcases codegen_cases v with rfl | ⟨o, ho⟩
          · exact .inr ⟨_, .joined (pre := []) (post := rest) .nil rfl⟩
          · exact next (pre := [c!"-C" ++ v]) rfl (by simp) (.joined hne ho .nil)
        · refine next (pre := [a]) rfl (by simp) (.pass ?_ hC .nil)
          intro h
          apply hm
          simp only [List.mem_cons, List.not_mem_nil, or_false] at h ⊢
          rcases h with h | h | h <;> simp [h]

theorem WrapperReads.parse {args : List Str} {os : List RustcOpt} (h : WrapperReads args os) :
    RustcArgs.parse args = match crateNameOf os with
      | none => .error .missingCrateName
      | some name => .ok ⟨(extraOf os).getD [], name, outDirOf os, externsOf os⟩ := by
  have := h.loop [] {}
  rw [List.append_nil] at this
  unfold RustcArgs.parse
  rw [this, foldl_add]
  simp only [parseArgsLoop, Option.or_none, List.nil_append]
  cases crateNameOf os <;> rfl

end CallStack
