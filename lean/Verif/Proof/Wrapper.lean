import Verif.Spec.Driver
import Verif.Proof.Str

/-!
Lemmas about the rustc wrapper.
-/

namespace CallStack

theorem splitEq_none {s : Str} (h : '=' ∉ s) : splitEq s = (s, none) := by
  induction s with
  | nil => rfl
  | cons c s ih =>
    simp only [List.mem_cons, not_or] at h
    have hc : c ≠ '=' := fun hc => h.1 hc.symm
    simp [splitEq, hc, ih h.2]

theorem splitEq_some {s t : Str} (h : '=' ∉ s) : splitEq (s ++ '=' :: t) = (s, some t) := by
  induction s with
  | nil => simp [splitEq]
  | cons c s ih =>
    simp only [List.mem_cons, not_or] at h
    have hc : c ≠ '=' := fun hc => h.1 hc.symm
    simp [splitEq, hc, ih h.2]

theorem splitEq_spec (s : Str) :
    '=' ∉ (splitEq s).1 ∧ (((splitEq s).2 = none ∧ s = (splitEq s).1) ∨
      ∃ t, (splitEq s).2 = some t ∧ s = (splitEq s).1 ++ '=' :: t) := by
  induction s with
  | nil => simp [splitEq]
  | cons c s ih =>
    by_cases hc : c = '='
    · subst hc
      simp [splitEq]
    · obtain ⟨h1, h2⟩ := ih
      have e : splitEq (c :: s) = (c :: (splitEq s).1, (splitEq s).2) := by
        rw [splitEq, if_neg hc]
      rw [e]
      refine ⟨by simp [h1, Ne.symm hc], ?_⟩
      rcases h2 with ⟨h2, h3⟩ | ⟨t, h2, h3⟩
      · exact .inl ⟨h2, by simpa using h3⟩
      · exact .inr ⟨t, h2, by simpa using h3⟩

theorem startsWith_false {s pre : Str} (h : ¬ pre <+: s) : startsWith s pre = false := by
  rw [← Bool.not_eq_true, startsWith_iff]
  exact h

theorem parseExtern_eq {o v : Str} {e : Extern} (h : ExternText o v e) (ho : o = [] ∨ o = c!"noprelude:") :
    parseExtern v = e := by
  have key : ∀ {name t : Str}, ':' ∉ name → '=' ∉ name → t = [] ∨ (∃ p, t = '=' :: p) →
      ¬ c!"noprelude:" <+: name ++ t := by
    rintro name t h1 h2 ht ⟨r, hr⟩
    have h3 : c!"noprelude" ++ ':' :: r = name ++ t := by simpa using hr
    rw [List.append_eq_append_iff] at h3
    rcases h3 with ⟨a, h4, h5⟩ | ⟨a, h4, h5⟩
    · cases a with
      | nil =>
        simp only [List.nil_append] at h5
        rcases ht with rfl | ⟨p, rfl⟩ <;> simp at h5
      | cons x a =>
        simp only [List.cons_append, List.cons.injEq] at h5
        apply h1
        rw [h4, ← h5.1]
        simp
    · rcases ht with rfl | ⟨p, rfl⟩
      · have : ':' ∈ a ++ ([] : Str) := by simpa using (h5 ▸ by simp : ':' ∈ a ++ [])
        simp at this h5
      · cases a with
        | nil => simp at h5
        | cons x a =>
          simp only [List.cons_append, List.cons.injEq] at h5
          have : '=' ∈ c!"noprelude" := by
            rw [h4, ← h5.1]
            simp
          simp at this
  cases h with
  | @mk name h1 h2 h3 =>
    rcases ho with rfl | rfl
    · have := key h2 h1 (t := []) (.inl rfl)
      rw [List.append_nil] at this
      simp only [parseExtern, List.nil_append, startsWith_false this, Bool.false_eq_true, if_false, splitEq_none h1]
    · have : startsWith (c!"noprelude:" ++ name) c!"noprelude:" = true := (startsWith_iff _ _).2 ⟨name, rfl⟩
      rw [parseExtern, if_pos this, List.drop_left, splitEq_none h1]
  | @path name path h1 h2 h3 =>
    rcases ho with rfl | rfl
    · have := key h2 h1 (t := '=' :: path) (.inr ⟨_, rfl⟩)
      simp only [parseExtern, List.nil_append, startsWith_false this, Bool.false_eq_true, if_false, splitEq_some h1]
    · have : startsWith (c!"noprelude:" ++ (name ++ '=' :: path)) c!"noprelude:" = true :=
        (startsWith_iff _ _).2 ⟨_, rfl⟩
      rw [parseExtern, if_pos this, List.drop_left, splitEq_some h1]

/-- The effect of an option. -/
def ArgState.add (st : ArgState) : RustcOpt → ArgState
  | .ext e => { st with externCrates := st.externCrates ++ [e] }
  | .crateName n => { st with crateName := some n }
  | .outDir d => { st with outDir := some d }
  | .extraFilename x => { st with extraFilename := some x }
  | .other => st

theorem parseCodegen_eq {v : Str} {o : RustcOpt} (h : LongValue c!"--codegen" v o)
    (hd : ¬ c!"extra_filename" <+: v) (st : ArgState) : parseCodegen v st = .ok (st.add o) := by
  generalize hn : c!"--codegen" = name at h
  cases h with
  | ext => simp at hn
  | crateName => simp at hn
  | outDir => simp at hn
  | @extraFilename k x hk =>
    rcases hk with rfl | rfl
    · unfold parseCodegen
      rw [splitEq_some (by decide)]
      rfl
    · exact absurd ⟨_, rfl⟩ hd
  | codegen hk =>
    obtain ⟨h1, h2⟩ := hk _ (.inl rfl)
    unfold parseCodegen
    rw [if_neg]
    · rfl
    · intro he
      rcases (splitEq_spec v).2 with ⟨_, h3⟩ | ⟨t, _, h3⟩
      · exact h1 (by rw [h3, he])
      · refine h2 ⟨t, ?_⟩
        rw [h3, he]
        simp

theorem CargoStyle.tail {valued : Str → Prop} {a : Str} {args : List Str} (h : CargoStyle valued (a :: args)) :
    CargoStyle valued args where
  separate b hb := h.separate b (by simp [hb])
  short hb := h.short (by simp [hb])
  dash b hb := h.dash b (by simp [hb])
  noprelude v o e hi := h.noprelude v o e (hi.trans (List.suffix_cons a args).isInfix)
  values b v hi := h.values b v (hi.trans (List.suffix_cons a args).isInfix)

theorem parseArgsLoop_foreign {a : Str} (h : Foreign a) (rest : List Str) (st : ArgState) :
    parseArgsLoop (a :: rest) st = parseArgsLoop rest st := by
  obtain ⟨h1, _, h2⟩ := h
  simp only [LongNames, List.mem_cons, not_or] at h1
  rw [parseArgsLoop.eq_def]
  simp only [h1.1, h1.2.1, h1.2.2.1, startsWith_false h2]
  simp

theorem parseArgsLoop_eq {valued : Str → Prop} {args : List Str} {os : List RustcOpt}
    (h : RustcReads valued args os) (hc : CargoStyle valued args) (st : ArgState) :
    parseArgsLoop args st = .ok (os.foldl ArgState.add st) := by
  induction h generalizing st with
  | nil => rfl
  | @long name v o rest os hv _ ih =>
    have ih := ih hc.tail.tail
    rw [List.foldl_cons, ← ih]
    cases hv with
    | ext hopt hv =>
      rename_i o e
      have : o = [] ∨ o = c!"noprelude:" := by
        by_cases ho : o = []
        · exact .inl ho
        · exact .inr (hc.noprelude v o e ⟨[], rest, by simp⟩ hopt hv ho)
      rw [parseArgsLoop.eq_def]
      simp [parseExtern_eq hv this, ArgState.add]
    | crateName => rw [parseArgsLoop.eq_def]; simp [ArgState.add]
    | outDir => rw [parseArgsLoop.eq_def]; simp [ArgState.add]
    | extraFilename => exact absurd (by simp) hc.short
    | codegen => exact absurd (by simp) hc.short
  | @joined name v o rest os hv _ _ =>
    exfalso
    refine hc.separate (name ++ '=' :: v) (by simp) name ?_ ⟨v, by simp⟩
    cases hv <;> simp [LongNames]
  | @short v o rest os hv _ ih =>
    have ih := ih hc.tail.tail
    rw [List.foldl_cons, ← ih, parseArgsLoop.eq_def]
    have hs : startsWith c!"-C" c!"-C" = true := by decide
    simp [hs, parseCodegen_eq hv (hc.dash v (by simp)).1]
  | @shortJoined v o rest os hne hv _ ih =>
    have ih := ih hc.tail
    rw [List.foldl_cons, ← ih, parseArgsLoop.eq_def]
    have hs : startsWith (c!"-C" ++ v) c!"-C" = true := (startsWith_iff _ _).2 ⟨_, rfl⟩
    have hd : ¬ c!"extra_filename" <+: v := by
      rintro ⟨t, rfl⟩
      exact (hc.dash (c!"-C" ++ (c!"extra_filename" ++ t)) (by simp)).2 ⟨t, by simp⟩
    have hdrop : (c!"-C" ++ v).drop c!"-C".length = v := List.drop_left
    have h1 : c!"-C" ++ v ≠ c!"--extern" := by simp
    have h2 : c!"-C" ++ v ≠ c!"--crate-name" := by simp
    have h3 : c!"-C" ++ v ≠ c!"--out-dir" := by simp
    simp only [h1, h2, h3, if_false, hs, if_true, hdrop, hne, parseCodegen_eq hv hd]
  | @valued a v rest os ha hva _ ih =>
    have ih := ih hc.tail.tail
    rw [List.foldl_cons, parseArgsLoop_foreign ha,
      parseArgsLoop_foreign (hc.values a v ⟨[], rest, by simp⟩ hva)]
    exact ih _
  | flag ha _ _ ih =>
    rw [List.foldl_cons, parseArgsLoop_foreign ha]
    exact ih hc.tail _

theorem foldl_add (os : List RustcOpt) (st : ArgState) :
    os.foldl ArgState.add st =
      { extraFilename := (extraOf os).or st.extraFilename
        crateName := (crateNameOf os).or st.crateName
        outDir := (outDirOf os).or st.outDir
        externCrates := st.externCrates ++ externsOf os } := by
  induction os generalizing st with
  | nil => simp [extraOf, crateNameOf, outDirOf, externsOf]
  | cons o os ih =>
    have last : ∀ (l : List Str) (x : Str) (y : Option Str), (x :: l).getLast?.or y = l.getLast?.or (some x) := by
      intro l x y
      rw [List.getLast?_cons]
      cases l.getLast? <;> simp
    rw [List.foldl_cons, ih]
    cases o <;> simp [ArgState.add, extraOf, crateNameOf, outDirOf, externsOf, List.getLast?_cons] <;>
      split <;> simp_all

theorem parseArgsLoop_error {args : List Str} {st : ArgState} {e : WrapErr}
    (h : parseArgsLoop args st = .error e) :
    (∃ opt ∈ [c!"--extern", c!"--crate-name", c!"--out-dir", c!"-C"], e = .missingArgument opt ∧
      args.getLast? = some opt) ∨
    (e = .missingExtraFilename ∧ ([c!"-C", c!"extra-filename"] <:+: args ∨ c!"-Cextra-filename" ∈ args)) := by
  have codegen : ∀ {v : Str} {st : ArgState} {e : WrapErr}, parseCodegen v st = .error e →
      e = .missingExtraFilename ∧ v = c!"extra-filename" := by
    intro v st e h
    unfold parseCodegen at h
    split at h
    · rename_i hv
      split at h
      · rename_i hn
        simp only [Except.error.injEq] at h
        refine ⟨h.symm, ?_⟩
        rcases (splitEq_spec v).2 with ⟨_, h2⟩ | ⟨t, h2, _⟩
        · rw [h2, hv]
        · rw [hn] at h2
          simp at h2
      · simp at h
    · simp at h
  have step : ∀ (a : Str) {rest : List Str} {e : WrapErr},
      ((∃ opt ∈ [c!"--extern", c!"--crate-name", c!"--out-dir", c!"-C"], e = .missingArgument opt ∧
        rest.getLast? = some opt) ∨
      (e = .missingExtraFilename ∧ ([c!"-C", c!"extra-filename"] <:+: rest ∨ c!"-Cextra-filename" ∈ rest))) →
      (∃ opt ∈ [c!"--extern", c!"--crate-name", c!"--out-dir", c!"-C"], e = .missingArgument opt ∧
        (a :: rest).getLast? = some opt) ∨
      (e = .missingExtraFilename ∧
        ([c!"-C", c!"extra-filename"] <:+: a :: rest ∨ c!"-Cextra-filename" ∈ a :: rest)) := by
    rintro a rest e (⟨opt, h1, h2, h3⟩ | ⟨h1, h2 | h2⟩)
    · exact .inl ⟨opt, h1, h2, by rw [List.getLast?_cons, h3]; rfl⟩
    · exact .inr ⟨h1, .inl (h2.trans (List.suffix_cons _ _).isInfix)⟩
    · exact .inr ⟨h1, .inr (by simp [h2])⟩
  obtain ⟨n, hn⟩ : ∃ n, args.length ≤ n := ⟨_, Nat.le_refl _⟩
  induction n generalizing args st with
  | zero =>
    have : args = [] := List.length_eq_zero_iff.1 (by omega)
    subst this
    simp [parseArgsLoop] at h
  | succ n ih =>
    cases args with
    | nil => simp [parseArgsLoop] at h
    | cons arg rest =>
      simp only [List.length_cons] at hn
      have two : ∀ (v : Str) (rest' : List Str), rest = v :: rest' → rest'.length ≤ n := by
        intro v rest' hr
        subst hr
        simp at hn
        omega
      rw [parseArgsLoop.eq_def] at h
      simp only at h
      split at h
      · rename_i ha
        subst ha
        split at h
        · simp only [Except.error.injEq] at h
          exact .inl ⟨_, by simp, h.symm, rfl⟩
        · exact step _ (step _ (ih h (two _ _ rfl)))
      · split at h
        · rename_i ha
          subst ha
          split at h
          · simp only [Except.error.injEq] at h
            exact .inl ⟨_, by simp, h.symm, rfl⟩
          · exact step _ (step _ (ih h (two _ _ rfl)))
        · split at h
          · rename_i ha
            subst ha
            split at h
            · simp only [Except.error.injEq] at h
              exact .inl ⟨_, by simp, h.symm, rfl⟩
            · exact step _ (step _ (ih h (two _ _ rfl)))
          · split at h
            · rename_i hs
              rw [startsWith_iff] at hs
              obtain ⟨t, rfl⟩ := hs
              rw [List.drop_left] at h
              split at h
              · rename_i ht
                subst ht
                split at h
                · simp only [Except.error.injEq] at h
                  exact .inl ⟨_, by simp, h.symm, rfl⟩
                · split at h
                  · rename_i hc
                    simp only [Except.error.injEq] at h
                    obtain ⟨h1, rfl⟩ := codegen hc
                    exact .inr ⟨h ▸ h1, .inl ⟨[], _, rfl⟩⟩
                  · exact step _ (step _ (ih h (two _ _ rfl)))
              · split at h
                · rename_i hc
                  simp only [Except.error.injEq] at h
                  obtain ⟨h1, rfl⟩ := codegen hc
                  exact .inr ⟨h ▸ h1, .inr (by simp)⟩
                · exact step _ (ih h (by omega))
            · exact step _ (ih h (by omega))

end CallStack
