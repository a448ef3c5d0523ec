import Verif.Proof.Output

/-!
A dot file with a backslash in a shown name does not show the graph: each backslash that is read needs two.
-/

namespace CallStack

/-- Number of backslashes. -/
def slashes (s : Str) : Nat := s.count '\\'

@[simp] theorem slashes_nil : slashes [] = 0 := rfl

theorem slashes_append (a b : Str) : slashes (a ++ b) = slashes a + slashes b := List.count_append

theorem slashes_cons {c : Char} (h : c ≠ '\\') (s : Str) : slashes (c :: s) = slashes s :=
  List.count_cons_of_ne h

@[simp] theorem slashes_slash (s : Str) : slashes ('\\' :: s) = slashes s + 1 := List.count_cons_self

theorem slashes_reverse (s : Str) : slashes s.reverse = slashes s := List.count_reverse

theorem slashes_eq_zero {s : Str} (h : '\\' ∉ s) : slashes s = 0 := List.count_eq_zero_of_not_mem h

theorem slashes_le_cons (c : Char) (s : Str) : slashes s ≤ slashes (c :: s) := List.count_le_count_cons

theorem slashes_cons_le (c : Char) (s : Str) : slashes (c :: s) ≤ slashes s + 1 := by
  by_cases h : c = '\\'
  · subst h; simp
  · rw [slashes_cons h]; omega

/-- Backslashes from the end of a line on. -/
def endSlashes : Option Str → Nat
  | none => 0
  | some rest => slashes rest + 1

/-- A backslash in a line of a label takes two in the text, and the end of a line takes one. -/
theorem splitEsc_slashes (v a : Str) (b : Option Str) (h : splitEsc v = some (a, b)) :
    2 * slashes a + endSlashes b ≤ slashes v := by
  induction v using splitEsc.induct generalizing a b with
  | case1 =>
    simp only [splitEsc, Option.some.injEq, Prod.mk.injEq] at h
    obtain ⟨rfl, rfl⟩ := h
    simp [endSlashes]
  | case2 => simp [splitEsc] at h
  | case3 c rest hc =>
    rw [splitEsc] at h
    · rw [if_pos hc] at h
      simp only [Option.some.injEq, Prod.mk.injEq] at h
      obtain ⟨rfl, rfl⟩ := h
      have := slashes_le_cons c rest
      simp only [slashes_slash, slashes_nil, endSlashes]
      omega
  | case4 c rest hc hc' =>
    rw [splitEsc] at h
    · rw [if_neg hc, if_pos hc'] at h
      cases h
  | case5 c rest hc hc' ih =>
    rw [splitEsc] at h
    · rw [if_neg hc, if_neg hc'] at h
      cases hs : splitEsc rest with
      | none => rw [hs] at h; cases h
      | some x =>
        obtain ⟨a', b'⟩ := x
        rw [hs] at h
        simp only [Option.map_some, Option.some.injEq, Prod.mk.injEq] at h
        obtain ⟨rfl, rfl⟩ := h
        have := ih a' b' hs
        simp only [slashes_slash]
        by_cases h' : c = '\\'
        · subst h'
          simp only [slashes_slash]
          omega
        · rw [slashes_cons h', slashes_cons h']
          omega
  | case6 c rest h1 h2 ih =>
    have hc : c ≠ '\\' := by
      rintro rfl
      cases rest with
      | nil => exact h1 rfl rfl
      | cons c' r => exact h2 c' r rfl rfl
    rw [splitEsc_cons hc] at h
    cases hs : splitEsc rest with
    | none => rw [hs] at h; cases h
    | some x =>
      obtain ⟨a', b'⟩ := x
      rw [hs] at h
      simp only [Option.map_some, Option.some.injEq, Prod.mk.injEq] at h
      obtain ⟨rfl, rfl⟩ := h
      have := ih a' b' hs
      rw [slashes_cons hc, slashes_cons hc]
      exact this

/-- Number of line ends in the label of a node. -/
def labelEnds (m : Option Max) : Nat := if m.isSome then 2 else 1

/-- A label that is read as this name with this maximum has twice as many backslashes as the name, and those
that end lines. -/
theorem readLabel_slashes {v name : Str} {m : Option Max} {l : Local} (h : readLabel v = some (name, m, l)) :
    2 * slashes name + labelEnds m ≤ slashes v := by
  unfold readLabel at h
  split at h
  · cases h
  · cases h
  · rename_i nm rest h1
    have a1 := splitEsc_slashes _ _ _ h1
    split at h
    · cases h
    · rename_i loc h2
      have a2 := splitEsc_slashes _ _ _ h2
      cases hl : readLocal loc with
      | none => rw [hl] at h; cases h
      | some l' =>
        rw [hl] at h
        simp only [Option.map_some, Option.some.injEq, Prod.mk.injEq] at h
        obtain ⟨rfl, rfl, rfl⟩ := h
        simp only [labelEnds, Option.isSome_none, Bool.false_eq_true, if_false] 
        simp only [endSlashes] at a1 a2
        omega
    · rename_i mx loc h2
      have a2 := splitEsc_slashes _ _ _ h2
      split at h
      · simp only [Option.some.injEq, Prod.mk.injEq] at h
        obtain ⟨rfl, rfl, rfl⟩ := h
        simp only [labelEnds, Option.isSome_some, if_true] 
        simp only [endSlashes] at a1 a2
        omega
      · cases h

/-! ### lexing -/

/-- The lexer only adds tokens. -/
theorem lexTop_suffix {ts ts' : List DotTok} {c : Char} {m : LexMode}
    (h : lexTop ts c = some (m, ts')) : ∃ more, ts' = more ++ ts := by
  unfold lexTop at h
  repeat' split at h
  all_goals first
    | cases h; done
    | (simp only [Option.some.injEq, Prod.mk.injEq] at h
       obtain ⟨_, rfl⟩ := h
       first | exact ⟨[], rfl⟩ | exact ⟨[_], rfl⟩)

theorem lexStep_suffix {st st' : LexMode × List DotTok} {c : Char} (h : lexStep st c = some st') :
    ∃ more, st'.2 = more ++ st.2 := by
  obtain ⟨m, ts⟩ := st
  obtain ⟨m', ts'⟩ := st'
  cases m with
  | top => exact lexTop_suffix h
  | word acc =>
    simp only [lexStep] at h
    split at h
    · simp only [Option.some.injEq, Prod.mk.injEq] at h
      exact ⟨[], h.2.symm⟩
    · obtain ⟨more, hm⟩ := lexTop_suffix h
      exact ⟨more ++ [.word acc.reverse], by simp [hm]⟩
  | dash =>
    simp only [lexStep] at h
    split at h
    · simp only [Option.some.injEq, Prod.mk.injEq] at h
      exact ⟨[.arrow], h.2.symm⟩
    · cases h
  | quoted acc =>
    simp only [lexStep] at h
    split at h
    · simp only [Option.some.injEq, Prod.mk.injEq] at h
      exact ⟨[.str acc.reverse], h.2.symm⟩
    · split at h <;>
      · simp only [Option.some.injEq, Prod.mk.injEq] at h
        exact ⟨[], h.2.symm⟩
  | esc acc =>
    simp only [lexStep] at h
    split at h
    · simp only [Option.some.injEq, Prod.mk.injEq] at h
      exact ⟨[], h.2.symm⟩
    · split at h <;>
      · simp only [Option.some.injEq, Prod.mk.injEq] at h
        exact ⟨[], h.2.symm⟩

theorem lex_suffix (s : Str) {st st' : LexMode × List DotTok} (h : s.foldlM lexStep st = some st') :
    ∃ more, st'.2 = more ++ st.2 := by
  induction s generalizing st with
  | nil =>
    simp only [List.foldlM_nil, pure, Option.some.injEq] at h
    exact ⟨[], by rw [h]; rfl⟩
  | cons c s ih =>
    rw [List.foldlM_cons] at h
    cases hc : lexStep st c with
    | none => rw [hc] at h; cases h
    | some st1 =>
      rw [hc] at h
      simp only [Option.bind_eq_bind, Option.bind_some] at h
      obtain ⟨m1, e1⟩ := lexStep_suffix hc
      obtain ⟨m2, e2⟩ := ih h
      exact ⟨m2 ++ m1, by rw [e2, e1]; simp⟩

/-- The tokens of a text begin with those of its first part. -/
theorem dotLex_split {a b : Str} {ts : List DotTok} {m : LexMode} (h : a.foldlM lexStep (.top, []) = some (m, ts))
    {toks : List DotTok} (hl : dotLex (a ++ b) = some toks) : ∃ more, toks = ts.reverse ++ more := by
  unfold dotLex at hl
  rw [List.foldlM_append, h] at hl
  simp only [Option.bind_eq_bind, Option.bind_some] at hl
  split at hl
  · rename_i ts' hf
    cases hl
    obtain ⟨more, hm⟩ := lex_suffix _ hf
    exact ⟨more.reverse, by simp only at hm; rw [hm]; simp⟩
  · rename_i acc ts' hf
    cases hl
    obtain ⟨more, hm⟩ := lex_suffix _ hf
    exact ⟨more.reverse ++ [.word acc.reverse], by simp only at hm; rw [hm]; simp⟩
  · cases hl

/-- The string is ended within the text, with at most `k` backslashes. -/
def EndsString (st : LexMode × List DotTok) (ts : List DotTok) (s : Str) (k : Nat) : Prop :=
  ∃ pre post v, s = pre ++ post ∧ pre.foldlM lexStep st = some (.top, .str v :: ts) ∧ slashes v ≤ k

theorem EndsString.step {st st' : LexMode × List DotTok} {ts : List DotTok} {a s : Str} {k k' : Nat}
    (ha : a.foldlM lexStep st = some st') (h : EndsString st' ts s k) (hk : k ≤ k') :
    EndsString st ts (a ++ s) k' := by
  obtain ⟨pre, post, v, rfl, h1, h2⟩ := h
  refine ⟨a ++ pre, post, v, by simp, ?_, by omega⟩
  rw [List.foldlM_append, ha]
  exact h1

theorem EndsString.append {st : LexMode × List DotTok} {ts : List DotTok} {s : Str} {k k' : Nat}
    (h : EndsString st ts s k) (t : Str) (hk : k ≤ k') : EndsString st ts (s ++ t) k' := by
  obtain ⟨pre, post, v, rfl, h1, h2⟩ := h
  exact ⟨pre, post ++ t, v, by simp, h1, by omega⟩

theorem escape_cons_plain {c : Char} (h : c ≠ '"') (s : Str) : escape (c :: s) = c :: escape s := by
  unfold escape
  rw [List.flatMap_cons]
  have : escapeChar c = [c] := by
    unfold escapeChar
    split
    · exact absurd rfl h
    · rfl
  rw [this]
  rfl

theorem escape_cons_quote (s : Str) : escape ('"' :: s) = '\\' :: '"' :: escape s := rfl

theorem foldl_cons' (c : Char) (s : Str) (st : LexMode × List DotTok) :
    (c :: s).foldlM lexStep st = (lexStep st c).bind fun st' => s.foldlM lexStep st' := rfl

/-- A name within quotes: the string is ended, or its text has no more backslashes than the name. -/
theorem lex_escaped (s : Str) (ts : List DotTok) :
    (∀ acc, EndsString (.quoted acc, ts) ts (escape s) (slashes acc + slashes s + 1) ∨
      (∃ acc', (escape s).foldlM lexStep (.quoted acc, ts) = some (.quoted acc', ts) ∧
        slashes acc' ≤ slashes acc + slashes s) ∨
      (∃ acc', (escape s).foldlM lexStep (.quoted acc, ts) = some (.esc acc', ts) ∧
        slashes acc' + 1 ≤ slashes acc + slashes s)) ∧
    (∀ acc, EndsString (.esc acc, ts) ts (escape s) (slashes acc + 1 + slashes s + 1) ∨
      (∃ acc', (escape s).foldlM lexStep (.esc acc, ts) = some (.quoted acc', ts) ∧
        slashes acc' ≤ slashes acc + 1 + slashes s) ∨
      (∃ acc', (escape s).foldlM lexStep (.esc acc, ts) = some (.esc acc', ts) ∧
        slashes acc' + 1 ≤ slashes acc + 1 + slashes s)) := by
  induction s with
  | nil =>
    refine ⟨fun acc => .inr (.inl ⟨acc, rfl, by omega⟩), fun acc => .inr (.inr ⟨acc, rfl, by omega⟩)⟩
  | cons c s ih =>
    obtain ⟨ihq, ihe⟩ := ih
    by_cases hq : c = '"'
    · subst hq
      rw [escape_cons_quote, slashes_cons (by decide)]
      constructor
      · intro acc
        have h2 : (c!"\\\"").foldlM lexStep (.quoted acc, ts) = some (.quoted ('"' :: acc), ts) := rfl
        have hs : slashes ('"' :: acc) = slashes acc := slashes_cons (by decide) acc
        rcases ihq ('"' :: acc) with h | ⟨acc', h, hk⟩ | ⟨acc', h, hk⟩
        · exact .inl (h.step h2 (by omega))
        · exact .inr (.inl ⟨acc', lexSeq h2 h, by omega⟩)
        · exact .inr (.inr ⟨acc', lexSeq h2 h, by omega⟩)
      · intro acc
        refine .inl ⟨c!"\\\"", escape s, ('\\' :: '\\' :: acc).reverse, rfl, rfl, ?_⟩
        rw [slashes_reverse]
        simp only [slashes_slash]
        omega
    · rw [escape_cons_plain hq]
      constructor
      · intro acc
        by_cases hb : c = '\\'
        · subst hb
          have h2 : (c!"\\").foldlM lexStep (.quoted acc, ts) = some (.esc acc, ts) := rfl
          rw [slashes_slash]
          rcases ihe acc with h | ⟨acc', h, hk⟩ | ⟨acc', h, hk⟩
          · exact .inl (h.step h2 (by omega))
          · exact .inr (.inl ⟨acc', lexSeq h2 h, by omega⟩)
          · exact .inr (.inr ⟨acc', lexSeq h2 h, by omega⟩)
        · have h2 : [c].foldlM lexStep (.quoted acc, ts) = some (.quoted (c :: acc), ts) := by
            simp [lexStep, hq, hb]
          have hs : slashes (c :: acc) = slashes acc := slashes_cons hb acc
          rw [slashes_cons hb]
          rcases ihq (c :: acc) with h | ⟨acc', h, hk⟩ | ⟨acc', h, hk⟩
          · exact .inl (h.step h2 (by omega))
          · exact .inr (.inl ⟨acc', lexSeq h2 h, by omega⟩)
          · exact .inr (.inr ⟨acc', lexSeq h2 h, by omega⟩)
      · intro acc
        have h2 : ∃ acc1, [c].foldlM lexStep (.esc acc, ts) = some (.quoted acc1, ts) ∧
            slashes acc1 + slashes s ≤ slashes acc + 1 + slashes (c :: s) := by
          by_cases hn : c = '\n'
          · subst hn
            exact ⟨acc, rfl, by rw [slashes_cons (by decide)]; omega⟩
          · refine ⟨c :: '\\' :: acc, by simp [lexStep, hq, hn], ?_⟩
            by_cases hb : c = '\\'
            · subst hb
              simp only [slashes_slash]
              omega
            · rw [slashes_cons hb, slashes_cons hb, slashes_slash]
              exact Nat.le_refl _
        obtain ⟨acc1, h2, hs⟩ := h2
        rcases ihq acc1 with h | ⟨acc', h, hk⟩ | ⟨acc', h, hk⟩
        · exact .inl (h.step h2 (by omega))
        · exact .inr (.inl ⟨acc', lexSeq h2 h, by omega⟩)
        · exact .inr (.inr ⟨acc', lexSeq h2 h, by omega⟩)

theorem slashes_local (l : Local) : slashes (c!"\\nlocal = " ++ l.show) = 1 := by
  rw [slashes_append, slashes_eq_zero (local_plain l)]
  decide

theorem slashes_max (m : Max) : slashes (c!"\\nmax " ++ m.show) = 1 := by
  rw [slashes_append, slashes_eq_zero (max_plain m)]
  decide

/-- After a name, the lines with the figures end the string. -/
theorem lex_figures (m : Option Max) (l : Local) (acc : Str) (ts : List DotTok) (rest : Str) :
    EndsString (.quoted acc, ts) ts (dotMax m ++ ((c!"\\nlocal = " ++ l.show ++ c!"\"") ++ rest))
      (slashes acc + labelEnds m) := by
  have e3 : ∀ acc ts, (c!"\"").foldlM lexStep (.quoted acc, ts) =
      some (.top, .str acc.reverse :: ts) := fun _ _ => rfl
  cases m with
  | none =>
    refine ⟨c!"\\nlocal = " ++ l.show ++ c!"\"", rest, _, by simp [dotMax],
      lexSeq (lex_local l acc ts) (e3 _ _), ?_⟩
    rw [slashes_reverse, slashes_append, slashes_reverse, slashes_local]
    simp only [labelEnds, Option.isSome_none, Bool.false_eq_true, if_false]
    omega
  | some m =>
    refine ⟨(c!"\\nmax " ++ m.show) ++ (c!"\\nlocal = " ++ l.show ++ c!"\""), rest, _, by simp [dotMax],
      lexSeq (lex_max m acc ts) (lexSeq (lex_local l _ ts) (e3 _ _)), ?_⟩
    rw [slashes_reverse, slashes_append, slashes_reverse, slashes_local, slashes_append,
      slashes_reverse, slashes_max]
    simp only [labelEnds, Option.isSome_some, if_true]
    omega

/-- The same after a name that ends in a backslash without a partner. -/
theorem lex_figures_esc (m : Option Max) (l : Local) (acc : Str) (ts : List DotTok) (rest : Str) :
    EndsString (.esc acc, ts) ts (dotMax m ++ ((c!"\\nlocal = " ++ l.show ++ c!"\"") ++ rest))
      (slashes acc + 1 + labelEnds m) := by
  have e3 : ∀ acc ts, (c!"\"").foldlM lexStep (.quoted acc, ts) =
      some (.top, .str acc.reverse :: ts) := fun _ _ => rfl
  have e1 : ∀ acc ts, (c!"\\").foldlM lexStep (.esc acc, ts) =
      some (.quoted ('\\' :: '\\' :: acc), ts) := fun _ _ => rfl
  cases m with
  | none =>
    have hp : ∀ c ∈ c!"nlocal = " ++ l.show, c ≠ '"' ∧ c ≠ '\\' := by
      intro c hc
      have h := lex_local l [] ts
      refine ⟨?_, ?_⟩
      · rintro rfl
        rcases List.mem_append.mp hc with hc | hc
        · revert hc; decide
        · cases l with
          | exact n => exact (digit_plain ((showNat_isDecimal n).2.1 _ hc)).1 rfl
          | unknown => revert hc; decide
      · rintro rfl
        rcases List.mem_append.mp hc with hc | hc
        · revert hc; decide
        · exact local_plain l hc
    refine ⟨c!"\\" ++ ((c!"nlocal = " ++ l.show) ++ c!"\""), rest, _, by simp [dotMax],
      lexSeq (e1 acc ts) (lexSeq (lex_plain _ hp _ ts) (e3 _ _)), ?_⟩
    rw [slashes_reverse, slashes_append, slashes_reverse, slashes_eq_zero (fun h => (hp _ h).2 rfl)]
    simp only [labelEnds, Option.isSome_none, Bool.false_eq_true, if_false, slashes_slash]
    omega
  | some m =>
    have hp : ∀ c ∈ c!"nmax " ++ m.show, c ≠ '"' ∧ c ≠ '\\' := by
      intro c hc
      refine ⟨?_, ?_⟩
      · rintro rfl
        rcases List.mem_append.mp hc with hc | hc
        · revert hc; decide
        · cases m with
          | exact n =>
            rcases List.mem_append.mp hc with hc | hc
            · revert hc; decide
            · exact (digit_plain ((showNat_isDecimal n).2.1 _ hc)).1 rfl
          | lowerBound n =>
            rcases List.mem_append.mp hc with hc | hc
            · revert hc; decide
            · exact (digit_plain ((showNat_isDecimal n).2.1 _ hc)).1 rfl
      · rintro rfl
        rcases List.mem_append.mp hc with hc | hc
        · revert hc; decide
        · exact max_plain m hc
    refine ⟨c!"\\" ++ ((c!"nmax " ++ m.show) ++ (c!"\\nlocal = " ++ l.show ++ c!"\"")), rest, _,
      by simp [dotMax],
      lexSeq (e1 acc ts) (lexSeq (lex_plain _ hp _ ts) (lexSeq (lex_local l _ ts) (e3 _ _))), ?_⟩
    rw [slashes_reverse, slashes_append, slashes_reverse, slashes_local, slashes_append,
      slashes_reverse, slashes_eq_zero (fun h => (hp _ h).2 rfl)]
    simp only [labelEnds, Option.isSome_some, if_true, slashes_slash]
    omega

/-- The label of a node, whatever its name is, ends somewhere, and has few backslashes. -/
theorem lex_label (s : Str) (m : Option Max) (l : Local) (ts : List DotTok) (rest : Str) :
    EndsString (.quoted [], ts) ts (escape s ++ (dotMax m ++ ((c!"\\nlocal = " ++ l.show ++ c!"\"") ++ rest)))
      (slashes s + labelEnds m) := by
  have hk : 1 ≤ labelEnds m := by
    unfold labelEnds
    split <;> omega
  rcases (lex_escaped s ts).1 [] with h | ⟨acc, h, hb⟩ | ⟨acc, h, hb⟩
  · exact h.append _ (by rw [slashes_nil]; omega)
  · exact (lex_figures m l acc ts rest).step h (by rw [slashes_nil] at hb; omega)
  · exact (lex_figures_esc m l acc ts rest).step h (by rw [slashes_nil] at hb; omega)

/-! ### parsing -/

/-- The parser only adds nodes. -/
theorem dotStep_nodes {st st' : DotState × DotFile} {t : DotTok} (h : dotStep st t = some st') :
    ∃ more, st'.2.nodes = st.2.nodes ++ more := by
  obtain ⟨s, d⟩ := st
  obtain ⟨s', d'⟩ := st'
  have add : ∀ w as, ∃ more, (d.addAttrs w as).nodes = d.nodes ++ more := by
    intro w as
    unfold DotFile.addAttrs
    split
    · exact ⟨[], by simp⟩
    · exact ⟨[(w, as)], rfl⟩
  cases s <;> cases t <;> simp only [dotStep, reduceCtorEq] at h <;> (try split at h) <;>
    first
      | (simp only [Option.some.injEq, Prod.mk.injEq] at h
         obtain ⟨_, rfl⟩ := h
         first
           | exact add _ _
           | exact ⟨[], (List.append_nil _).symm⟩)
      | cases h

theorem parse_more (toks : List DotTok) {st st' : DotState × DotFile}
    (h : toks.foldlM dotStep st = some st') : ∃ more, st'.2.nodes = st.2.nodes ++ more := by
  induction toks generalizing st with
  | nil =>
    simp only [List.foldlM_nil, pure, Option.some.injEq] at h
    exact ⟨[], by rw [h]; simp⟩
  | cons t toks ih =>
    rw [List.foldlM_cons] at h
    cases hc : dotStep st t with
    | none => rw [hc] at h; cases h
    | some st1 =>
      rw [hc] at h
      simp only [Option.bind_eq_bind, Option.bind_some] at h
      obtain ⟨m1, e1⟩ := dotStep_nodes hc
      obtain ⟨m2, e2⟩ := ih h
      exact ⟨m1 ++ m2, by rw [e2, e1]; simp⟩

/-- Within the attributes of a node, of which the first one is known. -/
inductive InNode (w : Str) (a : Str × Str) : DotState → Prop where
  | attrs (as : Attrs) : InNode w a (.attrs w (a :: as))
  | attrName (as : Attrs) (k : Str) : InNode w a (.attrName w (a :: as) k)
  | attrEq (as : Attrs) (k : Str) : InNode w a (.attrEq w (a :: as) k)

/-- The node is recorded with its first attribute. -/
theorem parse_inNode {w : Str} {a : Str × Str} (hw : w ≠ c!"node") (toks : List DotTok) {s : DotState}
    {d d' : DotFile} (hs : InNode w a s) (h : toks.foldlM dotStep (s, d) = some (.done, d')) :
    ∃ as rest, d'.nodes = d.nodes ++ (w, a :: as) :: rest := by
  induction toks generalizing s with
  | nil =>
    simp only [List.foldlM_nil, pure, Option.some.injEq, Prod.mk.injEq] at h
    obtain ⟨rfl, _⟩ := h
    cases hs
  | cons t toks ih =>
    rw [List.foldlM_cons] at h
    cases hc : dotStep (s, d) t with
    | none => rw [hc] at h; cases h
    | some st1 =>
      rw [hc] at h
      simp only [Option.bind_eq_bind, Option.bind_some] at h
      cases hs with
      | attrs as =>
        cases t <;> simp only [dotStep, reduceCtorEq, Option.some.injEq] at hc
        · subst hc
          exact ih (.attrName as _) h
        · subst hc
          obtain ⟨rest, hr⟩ := parse_more _ h
          refine ⟨as, rest, ?_⟩
          rw [hr]
          simp [DotFile.addAttrs, hw]
      | attrName as k =>
        cases t <;> simp only [dotStep, reduceCtorEq, Option.some.injEq] at hc
        subst hc
        exact ih (.attrEq as _) h
      | attrEq as k =>
        cases t <;> simp only [dotStep, reduceCtorEq, Option.some.injEq] at hc
        · subst hc
          exact ih (.attrs _) h
        · subst hc
          exact ih (.attrs _) h

theorem readNodes_append {a b : List (Str × Attrs)} {i : Nat} {ns : List ShownNode}
    (h : readNodes i (a ++ b) = some ns) : ∃ n1 n2, ns = n1 ++ n2 ∧ n1.length = a.length ∧
      readNodes (i + a.length) b = some n2 := by
  induction a generalizing i ns with
  | nil => exact ⟨[], ns, rfl, rfl, h⟩
  | cons x a ih =>
    obtain ⟨w, as⟩ := x
    simp only [List.cons_append, readNodes] at h
    split at h
    · split at h
      · rename_i n ns' h1 h2
        cases h
        obtain ⟨n1, n2, rfl, hl, hr⟩ := ih h2
        exact ⟨n :: n1, n2, rfl, by simp [hl], by
          rw [List.length_cons, show i + (a.length + 1) = i + 1 + a.length by omega]; exact hr⟩
      · cases h
    · cases h

theorem nodesParsed_length (demangle : Str → Str) (nodes : List Node) (i : Nat) :
    (nodesParsed demangle i nodes).length = nodes.length := by
  induction nodes generalizing i with
  | nil => rfl
  | cons nd nodes ih => simp [nodesParsed, ih]

theorem dotNodes_append (demangle : Str → Str) (a b : List Node) (i : Nat) :
    dotNodes demangle i (a ++ b) = dotNodes demangle i a ++ dotNodes demangle (i + a.length) b := by
  induction a generalizing i with
  | nil => rfl
  | cons nd a ih =>
    simp only [List.cons_append, dotNodes, ih, List.append_assoc, List.length_cons]
    rw [show i + 1 + a.length = i + (a.length + 1) by omega]

/-- The tokens before the nodes. -/
def headToks : List DotTok :=
  [.word c!"digraph", .lbrace, .word c!"node", .lbrack, .word c!"fontname", .eq, .word font,
    .word c!"shape", .eq, .word c!"box", .rbrack]

/-- The first node with a backslash in its name is not read back. -/
theorem not_read_back (demangle : Str → Str) {g : Graph} {cycles : List (List Nat)} {before after : List Node}
    {nd : Node} (hg : g.nodes = before ++ nd :: after) (hb : ∀ x ∈ before, '\\' ∉ demangle x.name)
    (hn : '\\' ∈ demangle nd.name) {ns : List ShownNode} {es : List (Nat × Nat)} {cs : List (List Nat)}
    (h : (readDot (dotText demangle g cycles)).bind DotFile.meaning = some (ns, es, cs)) :
    ∃ sn, ns[before.length]? = some sn ∧ ¬ (sn.name = demangle nd.name ∧ sn.max = nd.max) := by
  cases hd : readDot (dotText demangle g cycles) with
  | none => rw [hd] at h; cases h
  | some d =>
    rw [hd] at h
    simp only [Option.bind_some] at h
    -- lexing
    have e1 : (c!"digraph {\n" ++ (c!"    node [fontname=" ++ font ++ c!" shape=box]\n")).foldlM lexStep (.top, []) =
        some (.top, headToks.reverse) := rfl
    have e2 : ∀ ts, (c!"    ").foldlM lexStep (.top, ts) = some (.top, ts) := fun _ => rfl
    have e3 : ∀ acc ts, (c!" [label=\"").foldlM lexStep (.word acc, ts) =
        some (.quoted [], .eq :: .word c!"label" :: .lbrack :: .word acc.reverse :: ts) := fun _ _ => rfl
    have hlex := lexSeq e1 (lexSeq (lex_nodes demangle before hb 0 _)
      (lexSeq (e2 _) (lexSeq (lex_num before.length _) (e3 _ _))))
    obtain ⟨pre, post, v, hsplit, hpre, hv⟩ := lex_label (demangle nd.name) nd.max nd.loc
      (.eq :: .word c!"label" :: .lbrack :: .word (showNat before.length).reverse.reverse ::
        ((nodesToks demangle 0 before).reverse ++ headToks.reverse))
      ((if nd.dashed then c!" style=dashed" else []) ++ (c!"]\n" ++
        (dotNodes demangle (before.length + 1) after ++ (g.edges.flatMap dotEdge ++
          (dotClusters 0 cycles ++ c!"}\n")))))
    have htext : dotText demangle g cycles =
        (c!"digraph {\n" ++ (c!"    node [fontname=" ++ font ++ c!" shape=box]\n")) ++
          (dotNodes demangle 0 before ++ (c!"    " ++ (showNat before.length ++ c!" [label=\""))) ++
          (pre ++ post) := by
      rw [← hsplit]
      unfold dotText
      rw [hg, dotNodes_append]
      simp only [dotNodes, dotNode, Nat.zero_add, List.append_assoc]
    have hall := lexSeq hlex hpre
    unfold readDot at hd
    split at hd
    · cases hd
    rename_i toks hl
    rw [htext, ← List.append_assoc] at hl
    obtain ⟨more, rfl⟩ := dotLex_split hall hl
    split at hd
    · rename_i d' hp
      cases hd
      -- parsing
      have h1 : showNat before.length ≠ c!"subgraph" := showNat_ne_word _ ⟨'s', by decide, by decide⟩
      have h2 : showNat before.length ≠ c!"node" := showNat_ne_word _ ⟨'n', by decide, by decide⟩
      have p1 : headToks.foldlM dotStep
            (.start, ⟨[], [], [], []⟩) =
          some (.body, ⟨[[(c!"fontname", font), (c!"shape", c!"box")]], [], [], []⟩) := rfl
      simp only [List.reverse_cons, List.reverse_append, List.reverse_reverse, List.append_assoc] at hp
      rw [List.foldlM_append, p1] at hp
      simp only [Option.bind_eq_bind, Option.bind_some] at hp
      rw [List.foldlM_append, parse_nodes] at hp
      simp only [Option.bind_eq_bind, Option.bind_some, List.nil_append, List.cons_append] at hp
      have p2 : ∀ d : DotFile, (DotTok.word (showNat before.length) :: .lbrack :: .word c!"label" :: .eq ::
          .str v :: more).foldlM dotStep (.body, d) =
          more.foldlM dotStep (.attrs (showNat before.length) [(c!"label", v)], d) := by
        intro d
        simp [dotStep, h1]
      rw [p2] at hp
      obtain ⟨as, rest, hnodes⟩ := parse_inNode h2 _ (.attrs []) hp
      simp only at hnodes
      -- meaning
      unfold DotFile.meaning at h
      split at h
      · rename_i ns' es' cs' hr _ _
        cases h
        rw [hnodes] at hr
        obtain ⟨n1, n2, rfl, hlen, hr⟩ := readNodes_append hr
        rw [nodesParsed_length] at hlen
        simp only [readNodes] at hr
        split at hr
        · split at hr
          · rename_i sn ns2 ha _
            cases hr
            refine ⟨sn, by rw [List.getElem?_append_right (by omega), hlen]; simp, ?_⟩
            rintro ⟨hname, hmax⟩
            have hlabel : ∃ l, readLabel v = some (sn.name, sn.max, l) := by
              unfold readNodeAttrs at ha
              split at ha
              · rename_i k' v' heq
                simp only [List.cons.injEq, Prod.mk.injEq] at heq
                obtain ⟨⟨rfl, rfl⟩, rfl⟩ := heq
                cases hv' : readLabel v with
                | none => rw [hv'] at ha; simp at ha
                | some x =>
                  obtain ⟨a, b, c⟩ := x
                  rw [hv'] at ha
                  simp only [if_true, Option.map_some, Option.some.injEq] at ha
                  subst ha
                  exact ⟨c, rfl⟩
              · rename_i k' v' k2 v2 heq
                simp only [List.cons.injEq, Prod.mk.injEq] at heq
                obtain ⟨⟨rfl, rfl⟩, _⟩ := heq
                split at ha
                · cases hv' : readLabel v with
                  | none => rw [hv'] at ha; simp at ha
                  | some x =>
                    obtain ⟨a, b, c⟩ := x
                    rw [hv'] at ha
                    simp only [Option.map_some, Option.some.injEq] at ha
                    subst ha
                    exact ⟨c, rfl⟩
                · cases ha
              · cases ha
            obtain ⟨l, hlabel⟩ := hlabel
            have hcount := readLabel_slashes hlabel
            rw [hname, hmax] at hcount
            have hpos : 0 < slashes (demangle nd.name) := List.count_pos_iff.mpr hn
            omega
          · cases hr
        · cases hr
      · cases h
    · cases hd

end CallStack
