import Mathlib.Data.List.Induction
import Verif.Proof.Wrapper
import Verif.Proof.Maps

/-!
Lemmas about the driver: lines, announced paths, choice of the LLVM-IR file, merged definitions.
-/

namespace CallStack

/-! ### Lines -/

/-- A line without its carriage return. -/
def chompR (s : Str) : Str := if s.getLast? = some '\r' then s.dropLast else s

theorem textLinesAux_line {l : Str} (hl : '\n' ∉ l) (cur s : Str) :
    textLinesAux cur (l ++ '\n' :: s) = chompR (cur.reverse ++ l) :: textLines s := by
  induction l generalizing cur with
  | nil =>
    rw [List.nil_append, textLinesAux, if_pos rfl, List.append_nil]
    congr 1
    unfold chompR lineOf
    rw [List.getLast?_reverse]
    split <;> simp
  | cons c l ih =>
    simp only [List.mem_cons, not_or] at hl
    rw [List.cons_append, textLinesAux, if_neg (fun h => hl.1 h.symm), ih hl.2]
    simp

theorem textLines_line {l : Str} (hl : '\n' ∉ l) (s : Str) :
    textLines (l ++ '\n' :: s) = chompR l :: textLines s := by
  unfold textLines
  rw [textLinesAux_line hl]
  rfl

theorem textLinesAux_last {l : Str} (hl : '\n' ∉ l) (cur : Str) :
    textLinesAux cur l = if cur.reverse ++ l = [] then [] else [cur.reverse ++ l] := by
  induction l generalizing cur with
  | nil => simp [textLinesAux]
  | cons c l ih =>
    simp only [List.mem_cons, not_or] at hl
    rw [textLinesAux, if_neg (fun h => hl.1 h.symm), ih hl.2]
    simp

theorem textLines_last {l : Str} (hl : '\n' ∉ l) (hne : l ≠ []) : textLines l = [l] := by
  unfold textLines
  rw [textLinesAux_last hl]
  simp [hne]

theorem chompR_of {l : Str} (h : l.getLast? ≠ some '\r') : chompR l = l := if_neg h

theorem chompR_cr (l : Str) : chompR (l ++ ['\r']) = l := by simp [chompR]

theorem stream_lines {ms : List Msg} {s : Str} (h : StreamText ms s) (hp : ∀ m ∈ ms, m.Proper) :
    textLines s = ms.map Msg.text := by
  induction h with
  | nil => rfl
  | @line m ms e s he _ ih =>
    have h1 := hp m (by simp)
    have ih := ih (fun m hm => hp m (by simp [hm]))
    rcases he with rfl | rfl
    · have : m.text ++ (c!"\n" ++ s) = m.text ++ '\n' :: s := rfl
      rw [this, textLines_line h1.1, chompR_of h1.2.1, ih]
      rfl
    · have : m.text ++ (c!"\r\n" ++ s) = (m.text ++ ['\r']) ++ '\n' :: s := by simp
      rw [this, textLines_line (by simp [h1.1]), chompR_cr, ih]
      rfl
  | last hne => rw [textLines_last (hp _ (by simp)).1 hne]; rfl

/-- The lines between the breaks. -/
theorem textLines_mem {s l : Str} (h : l ∈ textLines s) :
    ∃ a e b, s = a ++ (l ++ (e ++ b)) ∧ (a = [] ∨ a.getLast? = some '\n') ∧ '\n' ∉ l ∧
      (e = c!"\n" ∨ e = c!"\r\n" ∨ e ++ b = []) := by
  obtain ⟨n, hn⟩ : ∃ n, s.length ≤ n := ⟨_, Nat.le_refl _⟩
  induction n generalizing s with
  | zero =>
    have : s = [] := List.length_eq_zero_iff.1 (by omega)
    subst this
    simp [textLines, textLinesAux] at h
  | succ n ih =>
    by_cases hs : '\n' ∈ s
    · obtain ⟨x, y, rfl, hx⟩ := List.eq_append_cons_of_mem hs
      rw [textLines_line hx] at h
      rcases List.mem_cons.1 h with rfl | h
      · refine ⟨[], ?_⟩
        unfold chompR
        split
        · rename_i hr
          obtain ⟨z, rfl⟩ := List.getLast?_eq_some_iff.1 hr
          refine ⟨c!"\r\n", y, by simp, .inl rfl, ?_, .inr (.inl rfl)⟩
          simp only [List.dropLast_concat]
          intro hz
          exact hx (by simp [hz])
        · exact ⟨c!"\n", y, by simp, .inl rfl, hx, .inl rfl⟩
      · obtain ⟨a, e, b, h1, h2, h3, h4⟩ := ih h (by simp at hn; omega)
        refine ⟨x ++ '\n' :: a, e, b, by simp [h1], .inr ?_, h3, h4⟩
        rcases h2 with rfl | h2
        · simp
        · rw [List.getLast?_append, List.getLast?_cons, h2]
          rfl
    · by_cases hne : s = []
      · subst hne
        simp [textLines, textLinesAux] at h
      · rw [textLines_last hs hne] at h
        rw [List.mem_singleton.1 h]
        exact ⟨[], [], [], by simp, .inl rfl, hs, .inr (.inr rfl)⟩

theorem textLines_append {x y : Str} (h : x = [] ∨ x.getLast? = some '\n') :
    ∃ ls, textLines (x ++ y) = ls ++ textLines y := by
  obtain ⟨n, hn⟩ : ∃ n, x.length ≤ n := ⟨_, Nat.le_refl _⟩
  induction n generalizing x with
  | zero =>
    have : x = [] := List.length_eq_zero_iff.1 (by omega)
    subst this
    exact ⟨[], rfl⟩
  | succ n ih =>
    rcases h with rfl | h
    · exact ⟨[], rfl⟩
    · obtain ⟨z, w, rfl, hz⟩ := List.eq_append_cons_of_mem (List.mem_of_getLast? h)
      have hw : w = [] ∨ w.getLast? = some '\n' := by
        cases w with
        | nil => exact .inl rfl
        | cons c w =>
          right
          rw [List.getLast?_append, List.getLast?_cons_cons] at h
          rw [List.getLast?_cons] at h ⊢
          simpa using h
      obtain ⟨ls, h1⟩ := ih hw (by simp at hn; omega)
      refine ⟨chompR z :: ls, ?_⟩
      rw [List.append_assoc, List.cons_append, textLines_line hz, h1]
      rfl

/-! ### Announcements -/

theorem markerStep_msg {m : Msg} (h : m.Proper) (st : Announced) :
    markerStep st m.text =
      match m with
      | .rlib p => { st with rlib := some p }
      | .ll p => { st with ll := some p }
      | .line t => { st with echoed := st.echoed ++ [t] } := by
  cases m with
  | rlib p =>
    have : startsWith (rlibMarker ++ p) rlibMarker = true := (startsWith_iff _ _).2 ⟨_, rfl⟩
    show markerStep st (rlibMarker ++ p) = _
    rw [markerStep, if_pos this, List.drop_left]
  | ll p =>
    have h1 : startsWith (llMarker ++ p) rlibMarker = false := by
      apply startsWith_false
      rintro ⟨t, ht⟩
      simp [rlibMarker, llMarker] at ht
    have h2 : startsWith (llMarker ++ p) llMarker = true := (startsWith_iff _ _).2 ⟨_, rfl⟩
    show markerStep st (llMarker ++ p) = _
    rw [markerStep, h1, if_neg (by simp), if_pos h2, List.drop_left]
  | line t =>
    obtain ⟨h1, h2⟩ := h.2.2 t rfl
    show markerStep st t = _
    have h3 : startsWith t rlibMarker = false := startsWith_false h1
    have h4 : startsWith t llMarker = false := startsWith_false h2
    rw [markerStep, h3, h4]
    simp

theorem markers_eq (ms : List Msg) (hp : ∀ m ∈ ms, m.Proper) (st : Announced) :
    (ms.map Msg.text).foldl markerStep st =
      { rlib := ((ms.filterMap Msg.rlib?).getLast?).or st.rlib
        ll := ((ms.filterMap Msg.ll?).getLast?).or st.ll
        echoed := st.echoed ++ ms.filterMap Msg.line? } := by
  induction ms generalizing st with
  | nil => simp
  | cons m ms ih =>
    rw [List.map_cons, List.foldl_cons, markerStep_msg (hp m (by simp)), ih (fun m hm => hp m (by simp [hm]))]
    have last : ∀ (l : List Str) (x : Str) (y : Option Str), (x :: l).getLast?.or y = l.getLast?.or (some x) := by
      intro l x y
      rw [List.getLast?_cons]
      cases l.getLast? <;> simp
    cases m <;> simp only [List.filterMap_cons, Msg.rlib?, Msg.ll?, Msg.line?, last, List.append_assoc,
      List.singleton_append]

/-! ### The LLVM-IR file -/

theorem rsplitDot_none {s : Str} : rsplitDot s = none ↔ '.' ∉ s := by
  induction s with
  | nil => simp [rsplitDot]
  | cons c s ih =>
    rw [rsplitDot]
    cases h : rsplitDot s with
    | none =>
      have := ih.1 h
      by_cases hc : c = '.'
      · simp [hc]
      · simp [hc, this, Ne.symm hc]
    | some ab =>
      have : '.' ∈ s := by
        apply Classical.byContradiction
        intro h'
        rw [ih.2 h'] at h
        simp at h
      obtain ⟨a, b⟩ := ab
      simp [this]

theorem rsplitDot_append (a : Str) {b : Str} (hb : '.' ∉ b) : rsplitDot (a ++ '.' :: b) = some (a, b) := by
  induction a with
  | nil => simp [rsplitDot, rsplitDot_none.2 hb]
  | cons c a ih => simp [rsplitDot, ih]

theorem rsplitDot_some {s a b : Str} (h : rsplitDot s = some (a, b)) : s = a ++ '.' :: b := by
  induction s generalizing a with
  | nil => simp [rsplitDot] at h
  | cons c s ih =>
    rw [rsplitDot] at h
    split at h
    · rename_i x y hxy
      simp only [Option.some.injEq, Prod.mk.injEq] at h
      obtain ⟨rfl, rfl⟩ := h
      rw [ih hxy]
      rfl
    · split at h
      · rename_i hc
        simp only [Option.some.injEq, Prod.mk.injEq] at h
        obtain ⟨rfl, rfl⟩ := h
        rw [hc]
        rfl
      · simp at h

theorem crateName_iff (f c : Str) : CrateName f c ↔ c = f.map (fun c => if c = '-' then '_' else c) := by
  constructor
  · intro h
    induction h with
    | nil => rfl
    | dash _ ih => simp [← ih]
    | char hx _ ih => simp [hx, ← ih]
  · rintro rfl
    induction f with
    | nil => exact .nil
    | cons x f ih =>
      by_cases hx : x = '-'
      · subst hx
        exact .dash ih
      · simp only [List.map_cons, if_neg hx]
        exact .char hx ih

theorem stemExt_ll {stem : Str} (h : stem ≠ []) : stemExt (stem ++ c!".ll") = some (stem, c!"ll") := by
  have e : rsplitDot (stem ++ c!".ll") = some (stem, c!"ll") := rsplitDot_append stem (by decide)
  unfold stemExt
  rw [if_neg, e]
  · cases stem with
    | nil => exact absurd rfl h
    | cons => rfl
  · intro h'
    have := congrArg List.getLast? h'
    simp at this

theorem isCandidate_iff (file name : Str) : isCandidate file name = true ↔ LlFile file name := by
  constructor
  · intro h
    unfold isCandidate at h
    split at h
    · rename_i stem ext hs
      simp only [Bool.and_eq_true, beq_iff_eq, startsWith_iff] at h
      obtain ⟨rfl, x, rfl⟩ := h
      refine ⟨_, x, (crateName_iff _ _).2 rfl, ?_⟩
      unfold stemExt at hs
      split at hs
      · simp at hs
      · have : rsplitDot name = some (llPrefix file ++ x, c!"ll") := by
          split at hs
          · simp at hs
          · exact hs
        rw [rsplitDot_some this]
        simp [llPrefix]
    · simp at h
  · rintro ⟨c, x, hc, rfl⟩
    obtain rfl := (crateName_iff _ _).1 hc
    have : file.map (fun c => if c = '-' then '_' else c) ++ (c!"-" ++ (x ++ c!".ll")) =
        (llPrefix file ++ x) ++ c!".ll" := by simp [llPrefix]
    unfold isCandidate
    rw [this, stemExt_ll (by simp [llPrefix])]
    simp only [Bool.and_eq_true, beq_iff_eq, startsWith_iff, true_and]
    exact ⟨x, rfl⟩

/-- The best entry so far. -/
def BestOf (file : Str) (es : List (Str × Int)) : Option (Str × Int) → Prop
  | none => ∀ e ∈ es, ¬ LlFile file e.1
  | some b => ∃ pre post, es = pre ++ b :: post ∧ LlFile file b.1 ∧
      (∀ e ∈ pre, LlFile file e.1 → e.2 < b.2) ∧ ∀ e ∈ post, LlFile file e.1 → e.2 ≤ b.2

theorem bestOf_step {file : Str} {es : List (Str × Int)} {best : Option (Str × Int)} (h : BestOf file es best)
    (e : Str × Int) : BestOf file (es ++ [e]) (llStep file best e) := by
  unfold llStep
  split
  · rename_i hc
    rw [isCandidate_iff] at hc
    cases best with
    | none =>
      refine ⟨es, [], rfl, hc, fun e' he' h' => absurd h' (h e' he'), by simp⟩
    | some b =>
      obtain ⟨pre, post, rfl, hb, h1, h2⟩ := h
      simp only
      split
      · rename_i hgt
        refine ⟨pre ++ b :: post, [], rfl, hc, ?_, by simp⟩
        intro e' he' h'
        rcases List.mem_append.1 he' with he' | he'
        · have := h1 e' he' h'; omega
        · rcases List.mem_cons.1 he' with rfl | he'
          · omega
          · have := h2 e' he' h'; omega
      · refine ⟨pre, post ++ [e], by simp, hb, h1, ?_⟩
        intro e' he' h'
        rcases List.mem_append.1 he' with he' | he'
        · exact h2 e' he' h'
        · rw [List.mem_singleton.1 he']; omega
  · rename_i hc
    rw [isCandidate_iff] at hc
    cases best with
    | none =>
      intro e' he'
      rcases List.mem_append.1 he' with he' | he'
      · exact h e' he'
      · rw [List.mem_singleton.1 he']; exact hc
    | some b =>
      obtain ⟨pre, post, rfl, hb, h1, h2⟩ := h
      refine ⟨pre, post ++ [e], by simp, hb, h1, ?_⟩
      intro e' he' h'
      rcases List.mem_append.1 he' with he' | he'
      · exact h2 e' he' h'
      · rw [List.mem_singleton.1 he'] at h'
        exact absurd h' hc

theorem bestOf_fold {file : Str} (es' : List (Str × Int)) {es : List (Str × Int)} {best : Option (Str × Int)}
    (h : BestOf file es best) : BestOf file (es ++ es') (es'.foldl (llStep file) best) := by
  induction es' generalizing es best with
  | nil => simpa using h
  | cons e es' ih =>
    have := ih (bestOf_step h e)
    simpa using this

/-! ### Merged maps -/

/-- The entries of the map are the last definitions. -/
structure DefineMap (items : List Item) (m : List (Str × Define)) : Prop where
  nodup : (m.map (·.1)).Nodup
  mem : ∀ n d, (n, d) ∈ m ↔ n = d.name ∧ LastDefine items d

theorem lastDefine_snoc_define (items : List Item) (d d' : Define) :
    LastDefine (items ++ [.define d]) d' ↔ d' = d ∨ (LastDefine items d' ∧ d'.name ≠ d.name) := by
  constructor
  · rintro ⟨pre, post, h1, h2⟩
    rcases List.eq_nil_or_concat post with rfl | ⟨post', x, rfl⟩
    · have := (List.append_inj' h1 rfl).2
      simp only [List.cons.injEq, Item.define.injEq, and_true] at this
      exact .inl this.symm
    · have h3 : items ++ [Item.define d] = (pre ++ .define d' :: post') ++ [x] := by simp [h1]
      obtain ⟨h4, h5⟩ := List.append_inj' h3 rfl
      simp only [List.cons.injEq, and_true] at h5
      subst h5
      refine .inr ⟨⟨pre, post', h4, fun e he => h2 e (by simp [he])⟩, ?_⟩
      exact fun h => h2 d (by simp) h.symm
  · rintro (rfl | ⟨⟨pre, post, rfl, h2⟩, h3⟩)
    · exact ⟨items, [], rfl, by simp⟩
    · refine ⟨pre, post ++ [.define d], by simp, ?_⟩
      intro e he
      rcases List.mem_append.1 he with he | he
      · exact h2 e he
      · simp only [List.mem_singleton, Item.define.injEq] at he
        subst he
        exact h3.symm

theorem lastDefine_snoc_other {x : Item} (hx : ∀ d, x ≠ .define d) (items : List Item) (d' : Define) :
    LastDefine (items ++ [x]) d' ↔ LastDefine items d' := by
  constructor
  · rintro ⟨pre, post, h1, h2⟩
    rcases List.eq_nil_or_concat post with rfl | ⟨post', y, rfl⟩
    · have := (List.append_inj' h1 rfl).2
      simp only [List.cons.injEq, and_true] at this
      exact absurd this (hx _)
    · have h3 : items ++ [x] = (pre ++ .define d' :: post') ++ [y] := by simp [h1]
      obtain ⟨h4, _⟩ := List.append_inj' h3 rfl
      exact ⟨pre, post', h4, fun e he => h2 e (by simp [he])⟩
  · rintro ⟨pre, post, rfl, h2⟩
    refine ⟨pre, post ++ [x], by simp, ?_⟩
    intro e he
    rcases List.mem_append.1 he with he | he
    · exact h2 e he
    · simp only [List.mem_singleton] at he
      exact absurd he.symm (hx e)

theorem defineMap_step {items : List Item} {m : List (Str × Define)} (h : DefineMap items m) (x : Item) :
    DefineMap (items ++ [x]) (collectDefine m x) := by
  by_cases hx : ∃ d, x = .define d
  · obtain ⟨d, rfl⟩ := hx
    refine ⟨mset_nodup _ _ _ h.nodup, fun n d' => ?_⟩
    show (n, d') ∈ mset d.name d m ↔ _
    rw [mset_mem_iff _ _ _ h.nodup, h.mem, lastDefine_snoc_define]
    constructor
    · rintro (h1 | ⟨⟨h1, h2⟩, h3⟩)
      · simp only [Prod.mk.injEq] at h1
        obtain ⟨rfl, rfl⟩ := h1
        exact ⟨rfl, .inl rfl⟩
      · exact ⟨h1, .inr ⟨h2, by rw [← h1]; exact h3⟩⟩
    · rintro ⟨rfl, rfl | ⟨h1, h2⟩⟩
      · exact .inl rfl
      · exact .inr ⟨⟨rfl, h1⟩, h2⟩
  · have hx : ∀ d, x ≠ .define d := fun d hd => hx ⟨d, hd⟩
    have e : collectDefine m x = m := by
      cases x with
      | define d => exact absurd rfl (hx d)
      | _ => rfl
    rw [e]
    exact ⟨h.nodup, fun n d' => by rw [h.mem, lastDefine_snoc_other hx]⟩

theorem defineMap_fold (items' : List Item) {items : List Item} {m : List (Str × Define)}
    (h : DefineMap items m) : DefineMap (items ++ items') (items'.foldl collectDefine m) := by
  induction items' generalizing items m with
  | nil => simpa using h
  | cons e es' ih =>
    have := ih (defineMap_step h e)
    simpa using this

/-- The entries of the map are the last declarations. -/
structure DeclareMap (items : List Item) (m : List (Str × Declare)) : Prop where
  nodup : (m.map (·.1)).Nodup
  mem : ∀ n d, (n, d) ∈ m ↔ n = d.name ∧ LastDeclare items d

theorem lastDeclare_snoc_declare (items : List Item) (d d' : Declare) :
    LastDeclare (items ++ [.declare d]) d' ↔ d' = d ∨ (LastDeclare items d' ∧ d'.name ≠ d.name) := by
  constructor
  · rintro ⟨pre, post, h1, h2⟩
    rcases List.eq_nil_or_concat post with rfl | ⟨post', x, rfl⟩
    · have := (List.append_inj' h1 rfl).2
      simp only [List.cons.injEq, Item.declare.injEq, and_true] at this
      exact .inl this.symm
    · have h3 : items ++ [Item.declare d] = (pre ++ .declare d' :: post') ++ [x] := by simp [h1]
      obtain ⟨h4, h5⟩ := List.append_inj' h3 rfl
      simp only [List.cons.injEq, and_true] at h5
      subst h5
      refine .inr ⟨⟨pre, post', h4, fun e he => h2 e (by simp [he])⟩, ?_⟩
      exact fun h => h2 d (by simp) h.symm
  · rintro (rfl | ⟨⟨pre, post, rfl, h2⟩, h3⟩)
    · exact ⟨items, [], rfl, by simp⟩
    · refine ⟨pre, post ++ [.declare d], by simp, ?_⟩
      intro e he
      rcases List.mem_append.1 he with he | he
      · exact h2 e he
      · simp only [List.mem_singleton, Item.declare.injEq] at he
        subst he
        exact h3.symm

theorem lastDeclare_snoc_other {x : Item} (hx : ∀ d, x ≠ .declare d) (items : List Item) (d' : Declare) :
    LastDeclare (items ++ [x]) d' ↔ LastDeclare items d' := by
  constructor
  · rintro ⟨pre, post, h1, h2⟩
    rcases List.eq_nil_or_concat post with rfl | ⟨post', y, rfl⟩
    · have := (List.append_inj' h1 rfl).2
      simp only [List.cons.injEq, and_true] at this
      exact absurd this (hx _)
    · have h3 : items ++ [x] = (pre ++ .declare d' :: post') ++ [y] := by simp [h1]
      obtain ⟨h4, _⟩ := List.append_inj' h3 rfl
      exact ⟨pre, post', h4, fun e he => h2 e (by simp [he])⟩
  · rintro ⟨pre, post, rfl, h2⟩
    refine ⟨pre, post ++ [x], by simp, ?_⟩
    intro e he
    rcases List.mem_append.1 he with he | he
    · exact h2 e he
    · simp only [List.mem_singleton] at he
      exact absurd he.symm (hx e)

theorem declareMap_step {items : List Item} {m : List (Str × Declare)} (h : DeclareMap items m) (x : Item) :
    DeclareMap (items ++ [x]) (collectDeclare m x) := by
  by_cases hx : ∃ d, x = .declare d
  · obtain ⟨d, rfl⟩ := hx
    refine ⟨mset_nodup _ _ _ h.nodup, fun n d' => ?_⟩
    show (n, d') ∈ mset d.name d m ↔ _
    rw [mset_mem_iff _ _ _ h.nodup, h.mem, lastDeclare_snoc_declare]
    constructor
    · rintro (h1 | ⟨⟨h1, h2⟩, h3⟩)
      · simp only [Prod.mk.injEq] at h1
        obtain ⟨rfl, rfl⟩ := h1
        exact ⟨rfl, .inl rfl⟩
      · exact ⟨h1, .inr ⟨h2, by rw [← h1]; exact h3⟩⟩
    · rintro ⟨rfl, rfl | ⟨h1, h2⟩⟩
      · exact .inl rfl
      · exact .inr ⟨⟨rfl, h1⟩, h2⟩
  · have hx : ∀ d, x ≠ .declare d := fun d hd => hx ⟨d, hd⟩
    have e : collectDeclare m x = m := by
      cases x with
      | declare d => exact absurd rfl (hx d)
      | _ => rfl
    rw [e]
    exact ⟨h.nodup, fun n d' => by rw [h.mem, lastDeclare_snoc_other hx]⟩

theorem declareMap_fold (items' : List Item) {items : List Item} {m : List (Str × Declare)}
    (h : DeclareMap items m) : DeclareMap (items ++ items') (items'.foldl collectDeclare m) := by
  induction items' generalizing items m with
  | nil => simpa using h
  | cons e es' ih =>
    have := ih (declareMap_step h e)
    simpa using this

theorem DefineMap.values {items : List Item} {m : List (Str × Define)} (h : DefineMap items m) :
    ((m.map (·.2)).map (·.name)).Nodup ∧ ∀ d, d ∈ m.map (·.2) ↔ LastDefine items d := by
  constructor
  · have : (m.map (·.2)).map (·.name) = m.map (·.1) := by
      rw [List.map_map]
      apply List.map_congr_left
      intro e he
      exact ((h.mem e.1 e.2).1 he).1.symm
    rw [this]
    exact h.nodup
  · intro d
    simp only [List.mem_map]
    constructor
    · rintro ⟨⟨n, d'⟩, he, rfl⟩
      exact ((h.mem _ _).1 he).2
    · intro hd
      exact ⟨(d.name, d), (h.mem _ _).2 ⟨rfl, hd⟩, rfl⟩

theorem DeclareMap.values {items : List Item} {m : List (Str × Declare)} (h : DeclareMap items m) :
    ((m.map (·.2)).map (·.name)).Nodup ∧ ∀ d, d ∈ m.map (·.2) ↔ LastDeclare items d := by
  constructor
  · have : (m.map (·.2)).map (·.name) = m.map (·.1) := by
      rw [List.map_map]
      apply List.map_congr_left
      intro e he
      exact ((h.mem e.1 e.2).1 he).1.symm
    rw [this]
    exact h.nodup
  · intro d
    simp only [List.mem_map]
    constructor
    · rintro ⟨⟨n, d'⟩, he, rfl⟩
      exact ((h.mem _ _).1 he).2
    · intro hd
      exact ⟨(d.name, d), (h.mem _ _).2 ⟨rfl, hd⟩, rfl⟩

/-! ### Stack sizes -/

theorem mget_fold (es : List (Str × Nat)) (m : List (Str × Nat)) (n : Str) :
    mget n (es.foldl (fun m e => mset e.1 e.2 m) m) =
      ((es.filterMap (fun e => if e.1 = n then some e.2 else none)).getLast?).or (mget n m) := by
  induction es generalizing m with
  | nil => simp
  | cons e es ih =>
    rw [List.foldl_cons, ih, mget_mset]
    by_cases hn : e.1 = n
    · simp only [hn, if_true, List.filterMap_cons, List.getLast?_cons]
      cases (es.filterMap (fun e => if e.1 = n then some e.2 else none)).getLast? <;> simp
    · simp [hn]

theorem lastSize_iff (es : List (Str × Nat)) (n : Str) (k : Nat) :
    LastSize es n k ↔ (es.filterMap (fun e => if e.1 = n then some e.2 else none)).getLast? = some k := by
  induction es using List.reverseRecOn with
  | nil => simp [LastSize]
  | append_singleton es e ih =>
    rw [List.filterMap_append]
    by_cases hn : e.1 = n
    · have e1 : ([e].filterMap (fun e => if e.1 = n then some e.2 else none)) = [e.2] := by simp [hn]
      rw [e1, List.getLast?_concat]
      constructor
      · rintro ⟨pre, post, h1, h2⟩
        rcases List.eq_nil_or_concat post with rfl | ⟨post', x, rfl⟩
        · have := (List.append_inj' h1 rfl).2
          simp only [List.cons.injEq, and_true] at this
          rw [this]
        · have h3 : es ++ [e] = (pre ++ (n, k) :: post') ++ [x] := by simp [h1]
          obtain ⟨_, h5⟩ := List.append_inj' h3 rfl
          simp only [List.cons.injEq, and_true] at h5
          subst h5
          exact absurd hn (h2 e (by simp))
      · intro h
        refine ⟨es, [], ?_, by simp⟩
        simp only [Option.some.injEq] at h
        rw [← h, ← hn]
    · have e1 : ([e].filterMap (fun e => if e.1 = n then some e.2 else none)) = [] := by simp [hn]
      rw [e1, List.append_nil, ← ih]
      constructor
      · rintro ⟨pre, post, h1, h2⟩
        rcases List.eq_nil_or_concat post with rfl | ⟨post', x, rfl⟩
        · have := (List.append_inj' h1 rfl).2
          simp only [List.cons.injEq, and_true] at this
          exact absurd (by rw [this]) hn
        · have h3 : es ++ [e] = (pre ++ (n, k) :: post') ++ [x] := by simp [h1]
          obtain ⟨h4, _⟩ := List.append_inj' h3 rfl
          exact ⟨pre, post', h4, fun e he => h2 e (by simp [he])⟩
      · rintro ⟨pre, post, rfl, h2⟩
        refine ⟨pre, post ++ [e], by simp, ?_⟩
        intro x hx
        rcases List.mem_append.1 hx with hx | hx
        · exact h2 x hx
        · simp only [List.mem_singleton] at hx
          subst hx
          exact hn

theorem containsStr_iff (s w : Str) : containsStr s w = true ↔ w <:+: s := by
  induction s with
  | nil => simp [containsStr, startsWith_iff]
  | cons c s ih =>
    rw [containsStr, Bool.or_eq_true, startsWith_iff, ih, List.infix_cons_iff]

theorem builtinsObject_iff (id : Option Str) :
    BuiltinsObject id ↔ ∃ s, id = some s ∧
      (containsStr s c!"compiler_builtins" && startsWith s.reverse c!".o".reverse) = true := by
  have hsuf : ∀ s : Str, startsWith s.reverse c!".o".reverse = true ↔ c!".o" <:+ s := by
    intro s
    rw [startsWith_iff, List.reverse_prefix]
  constructor
  · rintro ⟨a, b, rfl, h⟩
    refine ⟨_, rfl, ?_⟩
    rw [Bool.and_eq_true, containsStr_iff, hsuf]
    exact ⟨⟨a, b, by simp⟩, h⟩
  · rintro ⟨s, rfl, h⟩
    rw [Bool.and_eq_true, containsStr_iff, hsuf] at h
    obtain ⟨⟨a, b, rfl⟩, h⟩ := h
    refine ⟨a, b, by simp, by simpa using h⟩

theorem archive_fold {archive : List (Option Str × List (Str × Nat))} {l : List (Str × Nat)}
    (h : ArchiveSizes archive l) (m : List (Str × Nat)) :
    archive.foldl archiveStep m = l.foldl (fun m e => mset e.1 e.2 m) m := by
  induction h generalizing m with
  | nil => rfl
  | object h1 _ ih =>
    obtain ⟨s, h2, h3⟩ := (builtinsObject_iff _).1 h1
    rw [List.foldl_cons, ih, List.foldl_append, archiveStep, h2]
    simp only [h3, if_true]
  | @other e es l h1 _ ih =>
    rw [List.foldl_cons, ih]
    congr 1
    unfold archiveStep
    split
    · rename_i id h2
      rw [if_neg]
      exact fun h3 => h1 ((builtinsObject_iff _).2 ⟨id, h2, h3⟩)
    · rfl

theorem archiveSizes_exists (archive : List (Option Str × List (Str × Nat))) :
    ∃ l, ArchiveSizes archive l := by
  induction archive with
  | nil => exact ⟨[], .nil⟩
  | cons e es ih =>
    obtain ⟨l, h⟩ := ih
    by_cases he : BuiltinsObject e.1
    · exact ⟨_, .object he h⟩
    · exact ⟨_, .other he h⟩

theorem loadSizes_eq {obj : List (Str × Nat)} {archive : List (Option Str × List (Str × Nat))}
    {l : List (Str × Nat)} (h : ArchiveSizes archive l) (n : Str) (k : Nat) :
    mget n (loadSizes obj archive) = some k ↔ LastSize (obj ++ l) n k := by
  unfold loadSizes
  rw [archive_fold h, ← List.foldl_append, mget_fold, lastSize_iff]
  simp [mget]

/-! ### The command line of cargo -/

theorem cargoReads_single {a : Str} {rest : List Str} {r : CargoRequest} (h : cargoReads rest = some r)
    (h1 : a ≠ c!"--") (h2 : a ∉ [c!"--target", c!"--features", c!"--example", c!"--bin"]) :
    cargoReads (a :: rest) = cargoReads.single a r := by
  cases rest with
  | nil =>
    rw [cargoReads.eq_2, if_neg h1]
    rw [cargoReads.eq_1] at h
    rw [← Option.some.inj h]
  | cons v rest => rw [cargoReads.eq_3, if_neg h1, if_neg h2, h]

theorem cargoReads_release {rest : List Str} {r : CargoRequest} (h : cargoReads rest = some r) :
    cargoReads (c!"--release" :: rest) = some { r with release := true } := by
  rw [cargoReads_single h (by decide) (by decide), cargoReads.single, if_neg (by decide), if_pos rfl]

theorem cargoReads_all {rest : List Str} {r : CargoRequest} (h : cargoReads rest = some r) :
    cargoReads (c!"--all-features" :: rest) = some { r with allFeatures := true } := by
  rw [cargoReads_single h (by decide) (by decide), cargoReads.single, if_pos rfl]

theorem cargoReads_target {v : Str} {rest : List Str} {r : CargoRequest} (h : cargoReads rest = some r)
    (hv : v.head? ≠ some '-') (hr : r.target = none) :
    cargoReads (c!"--target" :: v :: rest) = some { r with target := some v } := by
  rw [cargoReads.eq_3, if_neg (by decide), if_pos (by decide), if_neg hv, h]
  simp only
  rw [if_pos trivial, if_pos hr]

theorem cargoReads_features {v : Str} {rest : List Str} {r : CargoRequest} (h : cargoReads rest = some r)
    (hv : v.head? ≠ some '-') (hr : r.features = none) :
    cargoReads (c!"--features" :: v :: rest) = some { r with features := some v } := by
  rw [cargoReads.eq_3, if_neg (by decide), if_pos (by decide), if_neg hv, h]
  simp only
  rw [if_neg (by decide), if_pos trivial, if_pos hr]

theorem cargoReads_example {v : Str} {rest : List Str} {r : CargoRequest} (h : cargoReads rest = some r)
    (hv : v.head? ≠ some '-') (hr : r.example = none) :
    cargoReads (c!"--example" :: v :: rest) = some { r with «example» := some v } := by
  rw [cargoReads.eq_3, if_neg (by decide), if_pos (by decide), if_neg hv, h]
  simp only
  rw [if_neg (by decide), if_neg (by decide), if_pos trivial, if_pos hr]

theorem cargoReads_bin {v : Str} {rest : List Str} {r : CargoRequest} (h : cargoReads rest = some r)
    (hv : v.head? ≠ some '-') (hr : r.bin = none) :
    cargoReads (c!"--bin" :: v :: rest) = some { r with bin := some v } := by
  rw [cargoReads.eq_3, if_neg (by decide), if_pos (by decide), if_neg hv, h]
  simp only
  rw [if_neg (by decide), if_neg (by decide), if_neg (by decide), if_pos hr]

end CallStack
