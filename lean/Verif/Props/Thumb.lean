import Verif.Proof.Thumb
import Verif.Proof.ThumbCover
import Verif.Spec.Exec
import Verif.Props.Machine

/-!
Properties C42-C48: what the machine code analysis says about Thumb code. `Spec/Thumb.lean` has the
instructions, their encodings and their meaning, after the ARM manual.
-/

namespace CallStack

theorem codeBytes_cons_length (item : CodeItem) (items : List CodeItem) :
    (codeBytes (item :: items)).length = 2 * item.halfwords.length + (codeBytes items).length := by
  rw [codeBytes_length, codeBytes_length, List.flatMap_cons, List.length_append, Nat.mul_add]

theorem mem_instrsAt {items : List CodeItem} {p0 pos : Nat} {i : Instr} :
    (pos, i) ∈ instrsAt p0 items ↔
      ∃ pre post, items = pre ++ .instr i :: post ∧ pos = p0 + (codeBytes pre).length := by
  induction items generalizing p0 with
  | nil => simp [instrsAt]
  | cons item items ih =>
    cases item with
    | instr j =>
      rw [instrsAt, List.mem_cons, ih]
      constructor
      · rintro (h | ⟨pre, post, rfl, rfl⟩)
        · simp only [Prod.mk.injEq] at h
          obtain ⟨rfl, rfl⟩ := h
          exact ⟨[], items, rfl, rfl⟩
        · refine ⟨.instr j :: pre, post, rfl, ?_⟩
          rw [codeBytes_cons_length, Nat.add_assoc]
          rfl
      · rintro ⟨pre, post, h1, rfl⟩
        rcases pre with _ | ⟨x, pre⟩
        · simp only [List.nil_append, List.cons.injEq, CodeItem.instr.injEq] at h1
          left
          rw [h1.1]
          rfl
        · simp only [List.cons_append, List.cons.injEq] at h1
          obtain ⟨rfl, h2⟩ := h1
          right
          refine ⟨pre, post, h2, ?_⟩
          rw [codeBytes_cons_length, Nat.add_assoc]
          rfl
    | data hws =>
      rw [instrsAt, ih]
      constructor
      · rintro ⟨pre, post, rfl, rfl⟩
        refine ⟨.data hws :: pre, post, rfl, ?_⟩
        rw [codeBytes_cons_length, Nat.add_assoc]
        rfl
      · rintro ⟨pre, post, h1, rfl⟩
        rcases pre with _ | ⟨x, pre⟩
        · simp at h1
        · simp only [List.cons_append, List.cons.injEq] at h1
          obtain ⟨rfl, h2⟩ := h1
          refine ⟨pre, post, h2, ?_⟩
          rw [codeBytes_cons_length, Nat.add_assoc]
          rfl

theorem instrAt_iff {items : List CodeItem} {pos : Nat} {i : Instr} :
    InstrAt items pos i ↔ (pos, i) ∈ instrsAt 0 items := by
  rw [mem_instrsAt]
  unfold InstrAt
  simp

/-- The instructions of a function in order. -/
def codeInstrs (items : List CodeItem) : List Instr :=
  items.filterMap (fun item => match item with | .instr i => some i | .data _ => none)

theorem instrsAt_snd (items : List CodeItem) (pos : Nat) :
    (instrsAt pos items).map Prod.snd = codeInstrs items := by
  induction items generalizing pos with
  | nil => rfl
  | cons item items ih =>
    cases item with
    | instr j => rw [instrsAt, List.map_cons, ih]; rfl
    | data hws => rw [instrsAt, ih]; rfl

section

variable {search : TagSearch} {v7 : Bool} {tags : List (Nat × Tag)} {address : Nat}
  {items : List CodeItem} {r : ThumbState}

theorem CodeFits.result (h : CodeFits v7 tags address items)
    (hr : thumbAnalyze search (codeBytes items) address v7 tags = .ok r) : r = codeFacts items := by
  rw [thumbAnalyze_eq h.sorted h.valid h.tags] at hr
  exact (Except.ok.inj hr).symm

/-- **C44** The decoder follows the instruction boundaries of the architecture: its result is the one
of the sequence of instructions, each taken at its own offset, and it never aborts. Partial: BKPT is no
`Instr`, see `C44_bkpt`. -/
theorem C44_instruction_sequence_partial (h : CodeFits v7 tags address items) :
    thumbAnalyze search (codeBytes items) address v7 tags = .ok (codeFacts items) :=
  thumbAnalyze_eq h.sorted h.valid h.tags

/-- **C42** The reported calls are exactly the targets of the BL instructions of the function: the
address of the instruction, plus 4, plus the offset. -/
theorem C42_bl_targets (h : CodeFits v7 tags address items)
    (hr : thumbAnalyze search (codeBytes items) address v7 tags = .ok r) (t : Int) :
    t ∈ r.bls ↔ ∃ pos off, InstrAt items pos (.bl off) ∧ t = pos + 4 + off := by
  rw [h.result hr]
  unfold codeFacts
  simp only [List.mem_filterMap, Prod.exists]
  constructor
  · rintro ⟨pos, i, h1, h2⟩
    cases i with
    | bl off =>
      simp only [Instr.calls, Option.some.injEq] at h2
      exact ⟨pos, off, instrAt_iff.mpr h1, h2.symm⟩
    | _ => simp [Instr.calls] at h2
  · rintro ⟨pos, off, h1, rfl⟩
    exact ⟨pos, .bl off, instrAt_iff.mp h1, rfl⟩

/-- **C43** The reported branches are exactly the targets of the B instructions in the encodings T1 to
T4. Partial: `CodeFits` leaves out encodings T3 with offsets whose bits 18 and 19 differ, which
`C43_t3_swapped` shows to be misread. -/
theorem C43_b_targets_partial (h : CodeFits v7 tags address items)
    (hr : thumbAnalyze search (codeBytes items) address v7 tags = .ok r) (t : Int) :
    t ∈ r.bs ↔ ∃ pos i off, InstrAt items pos i ∧ i.IsBranch off ∧ t = pos + 4 + off := by
  rw [h.result hr]
  unfold codeFacts
  simp only [List.mem_filterMap, Prod.exists]
  constructor
  · rintro ⟨pos, i, h1, h2⟩
    have h1 := instrAt_iff.mpr h1
    cases i with
    | b1 c off =>
      simp only [Instr.branches, Option.some.injEq] at h2
      exact ⟨pos, _, off, h1, .inl ⟨c, rfl⟩, h2.symm⟩
    | b2 off =>
      simp only [Instr.branches, Option.some.injEq] at h2
      exact ⟨pos, _, off, h1, .inr (.inl rfl), h2.symm⟩
    | b3 c off =>
      simp only [Instr.branches, Option.some.injEq] at h2
      exact ⟨pos, _, off, h1, .inr (.inr (.inl ⟨c, rfl⟩)), h2.symm⟩
    | b4 off =>
      simp only [Instr.branches, Option.some.injEq] at h2
      exact ⟨pos, _, off, h1, .inr (.inr (.inr rfl)), h2.symm⟩
    | _ => simp [Instr.branches] at h2
  · rintro ⟨pos, i, off, h1, h2, rfl⟩
    refine ⟨pos, i, instrAt_iff.mp h1, ?_⟩
    rcases h2 with ⟨c, rfl⟩ | rfl | ⟨c, rfl⟩ | rfl <;> rfl

/-- **C43** fails for encoding T3: for every condition and every offset, bits 18 and 19 of the offset
are exchanged, so the reported target is wrong exactly when they differ. -/
theorem C43_t3_swapped {cond : Nat} {off : Int} (hc : cond < 14) (h2 : off % 2 = 0)
    (hl : -2 ^ 20 ≤ off) (hu : off < 2 ^ 20) :
    ∃ r, thumbAnalyze search (codeBytes [.instr (.b3 cond off)]) address true [] = .ok r ∧
      (r.bs = [4 + off] ↔ off / 2 ^ 18 % 2 = off / 2 ^ 19 % 2) := by
  have hstep := step_b3_swapped (codeBytes [.instr (.b3 cond off)]).length 0 ThumbState.init hc h2 hl hu
  have hch : chunks2 (codeBytes [.instr (.b3 cond off)]) = (encB3 cond off).map halfOf := by
    unfold codeBytes
    rw [chunks2_flatMap]
    rfl
  refine ⟨ThumbState.init.branch (codeBytes [.instr (.b3 cond off)]).length
    (2 * (0 : Nat) + 4 + swap1819 off), ?_, ?_⟩
  · unfold thumbAnalyze
    rw [hch]
    rcases hstep with ⟨hw, act, he, hd, hst⟩ | ⟨hw1, hw2, he, hd, hst⟩
    · simp [Instr.encode, encB3] at he
    · have he' : encB3 cond off = [hw1, hw2] := he
      rw [he']
      show thumbLoop search address true [] _ 0 0 [halfOf hw1, halfOf hw2] _ = _
      rw [thumbLoop_cons]
      simp only [tagAct_code (search := search) (tags := []) List.not_mem_nil, hd, hst]
      rfl
  · show [_] = [_] ↔ _
    simp only [List.cons.injEq, and_true]
    unfold swap1819
    omega

/-- **C44** Every halfword that is a 16-bit instruction is taken as one. -/
theorem C44_narrow {i : Instr} (h : i.Valid v7) {hw : Nat} (he : i.encode = [hw]) :
    (decode16 v7 (hw % 256, hw / 256)).isSome := by
  rcases step_valid h 0 0 ThumbState.init with ⟨hw', act, he', hd, _⟩ | ⟨hw1, hw2, he', _⟩
  · rw [he] at he'
    simp only [List.cons.injEq, and_true] at he'
    subst he'
    rw [show decode16 v7 (hw % 256, hw / 256) = some act from hd]
    rfl
  · rw [he] at he'
    simp at he'

/-- **C44** Every halfword that begins a 32-bit instruction is taken as one. -/
theorem C44_wide {hw : Nat} (h : Wide hw) : decode16 v7 (hw % 256, hw / 256) = none := by
  unfold Wide at h
  exact wide_none v7 (by omega) (by omega)

/-- **C44** The instructions of `C44_instruction_sequence_partial` leave nothing out: a 16-bit halfword
is one of them, or it is BKPT, or the manual gives it no meaning. -/
theorem C44_narrow_complete {hw : Nat} (hlt : hw < 65536) (hw' : ¬ Wide hw) :
    (∃ i : Instr, i.Valid v7 ∧ i.encode = [hw]) ∨ hw / 256 = 0xBE ∨
      Unallocated16 v7 (hw / 256) (hw % 256) :=
  narrow_cover v7 hlt hw'

/-- **C44** A pair of halfwords that is a 32-bit instruction is one of them, or one of the encodings
listed in `Exceptional`. -/
theorem C44_wide_complete {hw1 hw2 : Nat} (h1 : Wide hw1) (h2 : hw2 < 65536) :
    (∃ i : Instr, i.Valid v7 ∧ i.encode = [hw1, hw2]) ∨ Exceptional v7 hw1 hw2 :=
  wide_cover v7 h1 h2

/-- **C44** fails for BKPT: the pattern has a typo, and a BKPT is taken as the first half of a 32-bit
instruction. -/
theorem C44_bkpt {imm8 : Nat} (h : imm8 < 256) :
    ¬ Wide (0xBE00 + imm8) ∧ decode16 v7 ((0xBE00 + imm8) % 256, (0xBE00 + imm8) / 256) = none := by
  constructor
  · unfold Wide
    omega
  · rw [show (0xBE00 + imm8) / 256 = 0xBE by omega]
    exact decode16_none _ (decode16_bkpt v7)

/-- **C44** In consequence the instruction after a BKPT is overlooked: here `blx r0`. -/
theorem C44_bkpt_hides_call :
    ∃ r, thumbAnalyze search [0x00, 0xBE, 0x80, 0x47] address v7 [] = .ok r ∧ r.indirect = false := by
  have h1 : decode16 v7 (0x00, 0xBE) = none := decode16_none _ (decode16_bkpt v7)
  refine ⟨ThumbState.init, ?_, rfl⟩
  unfold thumbAnalyze
  show thumbLoop search address v7 [] _ 0 0 [(0x00, 0xBE), (0x80, 0x47)] _ = _
  rw [thumbLoop_cons]
  have h2 : decode32 v7 (0x00, 0xBE) (0x80, 0x47) = .other := by cases v7 <;> decide +kernel
  simp only [tagAct_code (search := search) (tags := []) List.not_mem_nil, h1, h2]
  rfl

/-! ### Literal pools -/

/-- The same code, with literal pools of the same sizes but any contents. -/
inductive SameCode : List CodeItem → List CodeItem → Prop
  | nil : SameCode [] []
  | instr (i : Instr) {l l' : List CodeItem} : SameCode l l' → SameCode (.instr i :: l) (.instr i :: l')
  | data {a a' : List Nat} {l l' : List CodeItem} : a.length = a'.length → SameCode l l' →
      SameCode (.data a :: l) (.data a' :: l')

theorem SameCode.instrsAt {l l' : List CodeItem} (h : SameCode l l') (pos : Nat) :
    instrsAt pos l = instrsAt pos l' := by
  induction h generalizing pos with
  | nil => rfl
  | instr i _ ih => rw [CallStack.instrsAt, CallStack.instrsAt, ih]
  | data ha _ ih => rw [CallStack.instrsAt, CallStack.instrsAt, ha, ih]

theorem SameCode.length {l l' : List CodeItem} (h : SameCode l l') :
    (codeBytes l).length = (codeBytes l').length := by
  induction h with
  | nil => rfl
  | instr i _ ih => rw [codeBytes_cons_length, codeBytes_cons_length, ih]
  | data ha _ ih =>
    rw [codeBytes_cons_length, codeBytes_cons_length, ih]
    simp only [CodeItem.halfwords]
    rw [ha]

theorem SameCode.empty {l l' : List CodeItem} (h : SameCode l l') : l = [] ↔ l' = [] := by
  cases h <;> simp

theorem SameCode.tagsFit {l l' : List CodeItem} (h : SameCode l l') {pos : Nat}
    (ht : TagsFit tags address pos l) : TagsFit tags address pos l' := by
  induction h generalizing pos with
  | nil => trivial
  | instr i _ ih => exact ⟨ht.1, ih ht.2⟩
  | @data a a' l l' ha hl ih =>
    obtain ⟨h1, h2, h3⟩ := ht
    unfold TagsFit
    rw [hl.empty, ha] at h2
    rw [ha] at h3
    refine ⟨?_, h2, ih h3⟩
    rintro rfl
    exact h1 (List.length_eq_zero_iff.mp (by simpa using ha))

theorem SameCode.instr_mem {l l' : List CodeItem} (h : SameCode l l') {i : Instr}
    (hi : CodeItem.instr i ∈ l') : CodeItem.instr i ∈ l := by
  induction h with
  | nil => exact hi
  | instr j _ ih =>
    simp only [List.mem_cons, CodeItem.instr.injEq] at hi ⊢
    exact hi.imp id ih
  | data _ _ ih =>
    simp only [List.mem_cons, reduceCtorEq, false_or] at hi ⊢
    exact ih hi

/-- **C45** The contents of literal pools do not influence the result. Partial: no BKPT directly
before a literal pool, see `C45_bkpt_reads_pool`. -/
theorem C45_literal_pools_partial {items' : List CodeItem} (h : CodeFits v7 tags address items)
    (hs : SameCode items items') :
    thumbAnalyze search (codeBytes items') address v7 tags =
      thumbAnalyze search (codeBytes items) address v7 tags := by
  rw [thumbAnalyze_eq h.sorted h.valid h.tags,
    thumbAnalyze_eq h.sorted (fun i hi => h.valid i (hs.instr_mem hi)) (hs.tagsFit h.tags)]
  unfold codeFacts
  rw [hs.instrsAt, hs.length]

/-- **C45** fails when a BKPT stands before the literal pool: the decoder takes the BKPT for the first
half of a 32-bit instruction, misses the tag, and decodes the rest of the pool. Here the four bytes after
the BKPT are data. -/
theorem C45_bkpt_reads_pool :
    ∃ r r', thumbAnalyze search [0x00, 0xBE, 0, 0, 0x80, 0x47] 0 v7 [(0, .thumb), (2, .data)] = .ok r ∧
      thumbAnalyze search [0x00, 0xBE, 0, 0, 0, 0] 0 v7 [(0, .thumb), (2, .data)] = .ok r' ∧
      r.indirect = true ∧ r'.indirect = false := by
  have h1 : decode16 v7 (0x00, 0xBE) = none := decode16_none _ (decode16_bkpt v7)
  have h2 : decode32 v7 (0x00, 0xBE) (0, 0) = .other := by cases v7 <;> decide +kernel
  have h3 : decode16 v7 (0x80, 0x47) = some .blx := by
    rw [decode16_eq]; exact hi_blx v7 0 (by decide)
  have h4 : decode16 v7 (0, 0) = some .skip := decode16_plain (by decide) rfl
  have t0 : ∀ a, a ≠ 2 → tagAct search [(0, .thumb), (2, .data)] a = .ok .code :=
    fun a ha => tagAct_code (by simp [ha])
  refine ⟨{ ThumbState.init with indirect := true }, ThumbState.init, ?_, ?_, rfl, rfl⟩
  · unfold thumbAnalyze
    show thumbLoop search 0 v7 _ _ 0 0 [(0x00, 0xBE), (0, 0), (0x80, 0x47)] _ = _
    rw [thumbLoop_cons]
    simp only [t0 (0 + 2 * 0) (by decide), h1, h2]
    rw [thumbLoop_cons]
    simp only [t0 (0 + 2 * (0 + 2)) (by decide), h3]
    rfl
  · unfold thumbAnalyze
    show thumbLoop search 0 v7 _ _ 0 0 [(0x00, 0xBE), (0, 0), (0, 0)] _ = _
    rw [thumbLoop_cons]
    simp only [t0 (0 + 2 * 0) (by decide), h1, h2]
    rw [thumbLoop_cons]
    simp only [t0 (0 + 2 * (0 + 2)) (by decide), h4]
    rfl

/-! ### Stack usage -/

/-- **C46** A stack usage is reported exactly when no B instruction targets the function itself; it is
the sum of the amounts by which the instructions lower the stack pointer; and SP is reported as modified
exactly when there is such an instruction. Partial: for well-formed code, which excludes the encodings
of `C46_missed` and `C46_stmdb_without_writeback`. -/
theorem C46_stack_sum_partial (h : CodeFits v7 tags address items)
    (hr : thumbAnalyze search (codeBytes items) address v7 tags = .ok r) :
    (∀ n, r.stack = some n ↔
      (∀ pos i off, InstrAt items pos i → i.IsBranch off →
        ¬ (0 ≤ pos + 4 + off ∧ pos + 4 + off < (codeBytes items).length)) ∧
      n = ((codeInstrs items).filterMap Instr.lowers).sum) ∧
    (r.modifiesSp = true ↔ ∃ i ∈ codeInstrs items, ∃ n, i.lowers = some n) := by
  have hb := C43_b_targets_partial h hr
  rw [h.result hr] at hb ⊢
  constructor
  · intro n
    have hs : (codeFacts items).stack =
        if (codeFacts items).bs.any
            (fun t => decide (0 ≤ t ∧ t < ((codeBytes items).length : Int))) then none
        else some ((instrsAt 0 items).filterMap (fun e => e.2.lowers)).sum := rfl
    have hsum : (instrsAt 0 items).filterMap (fun e => e.2.lowers) =
        (codeInstrs items).filterMap Instr.lowers := by
      rw [← instrsAt_snd items 0, List.filterMap_map]
      rfl
    rw [hs, hsum]
    split
    · rename_i hany
      obtain ⟨t, h1, h2⟩ := List.any_eq_true.mp hany
      obtain ⟨pos, i, off, k1, k2, rfl⟩ := (hb t).mp h1
      constructor
      · intro h; simp at h
      · rintro ⟨h3, _⟩
        exact absurd (of_decide_eq_true h2) (h3 pos i off k1 k2)
    · rename_i hany
      rw [Option.some.injEq]
      constructor
      · rintro rfl
        refine ⟨?_, rfl⟩
        intro pos i off k1 k2 k3
        exact hany (List.any_eq_true.mpr ⟨_, (hb _).mpr ⟨pos, i, off, k1, k2, rfl⟩,
          decide_eq_true k3⟩)
      · rintro ⟨_, rfl⟩
        rfl
  · show (instrsAt 0 items).any _ = true ↔ _
    rw [List.any_eq_true, ← instrsAt_snd items 0]
    simp only [List.mem_map, Option.isSome_iff_exists]
    constructor
    · rintro ⟨e, h1, h2⟩
      exact ⟨e.2, ⟨e, h1, rfl⟩, h2⟩
    · rintro ⟨i, ⟨e, h1, rfl⟩, h2⟩
      exact ⟨e, h1, h2⟩

theorem analyze_two {hw1 hw2 : Nat} (h1 : decode16 true (halfOf hw1) = none) :
    thumbAnalyze search [hw1 % 256, hw1 / 256, hw2 % 256, hw2 / 256] address true [] =
      .ok (step32 4 0 (halfOf hw1) (halfOf hw2) ThumbState.init
        (decode32 true (halfOf hw1) (halfOf hw2))) := by
  unfold thumbAnalyze
  show thumbLoop search address true [] _ 0 0 [halfOf hw1, halfOf hw2] _ = _
  rw [thumbLoop_cons]
  simp only [tagAct_code (search := search) (tags := []) List.not_mem_nil, h1]
  rfl

/-- **C46** fails for four kinds of instructions that lower the stack pointer (`lowersSp`):
`subw sp, sp, #imm`, and STRD, STRB, STRH with a decremented SP. For all of their encodings the analysis
reports that SP is not modified and that no stack is used. -/
theorem C46_missed {hw1 hw2 : Nat} (h : lowersSp hw1 hw2 = true) (h2 : hw2 < 65536) :
    ∃ r, thumbAnalyze search [hw1 % 256, hw1 / 256, hw2 % 256, hw2 / 256] address true [] = .ok r ∧
      r.modifiesSp = false ∧ r.stack = some 0 := by
  unfold lowersSp at h
  simp only [Bool.or_eq_true, Bool.and_eq_true, decide_eq_true_eq] at h
  have hlow : hw1 < 65536 ∧ 0xE800 ≤ hw1 := by omega
  refine ⟨_, analyze_two (wide_none true hlow.1 hlow.2), ?_⟩
  unfold halfOf
  rw [decode32_eq true (by omega) (by omega) (by omega)]
  rw [if_neg (by omega), if_neg (by omega), if_neg (by omega), if_neg (by omega)]
  split
  · omega
  · split
    · omega
    · split
      · omega
      · split
        · omega
        · exact ⟨rfl, rfl⟩

/-- **C46** fails for STMDB with base SP but without writeback, for example `stmdb sp, {r0, r1}`: it
does not change SP, but is counted. -/
theorem C46_stmdb_without_writeback {hw2 : Nat} (h : stmdbSp 0xE90D hw2 = true) :
    ∃ r, thumbAnalyze search [0x0D, 0xE9, hw2 % 256, hw2 / 256] address true [] = .ok r ∧
      r.modifiesSp = true := by
  unfold stmdbSp at h
  simp only [Bool.and_eq_true, decide_eq_true_eq] at h
  refine ⟨_, analyze_two (hw1 := 0xE90D) (wide_none true (by decide) (by decide)), ?_⟩
  unfold halfOf
  rw [decode32_eq true (by omega) (by omega) (by omega), if_pos ⟨rfl, by omega⟩]
  rfl

/-- **C47** The constant of `sub.w sp, sp, #imm` is the one of the manual, except for the constants of
the form `00XY00XY`. -/
theorem C47_expand_partial {imm12 : Nat} (h : imm12 < 2 ^ 12) (h1 : imm12 / 256 ≠ 1) :
    thumbExpandImm imm12 = armExpandImm imm12 := by
  rw [thumbExpandImm_eq h, if_neg h1]

/-- **C47** fails for all 255 constants of the form `00XY00XY`: they are read as `XY00`. -/
theorem C47_expand_wrong {imm8 : Nat} (h : imm8 < 256) :
    thumbExpandImm (256 + imm8) = imm8 * 2 ^ 8 ∧
    armExpandImm (256 + imm8) = imm8 * 2 ^ 16 + imm8 ∧
    (imm8 ≠ 0 → thumbExpandImm (256 + imm8) < armExpandImm (256 + imm8)) := by
  have h1 : thumbExpandImm (256 + imm8) = imm8 * 2 ^ 8 := by
    rw [thumbExpandImm_eq (by omega), if_pos (by omega), show (256 + imm8) % 256 = imm8 by omega]
  have h2 : armExpandImm (256 + imm8) = imm8 * 2 ^ 16 + imm8 := by
    unfold armExpandImm
    simp only
    rw [if_pos (by omega), if_neg (by omega), if_pos (by omega),
      show (256 + imm8) % 256 = imm8 by omega]
  refine ⟨h1, h2, fun h0 => ?_⟩
  rw [h1, h2]
  omega

/-- **C47** In consequence `sub.w sp, sp, #0x00010001` is taken to lower SP by 256 bytes. -/
theorem C47_wrong_in_function :
    ∃ r, thumbAnalyze search (codeBytes [.instr (.subSpW false 0x101)]) address true [] = .ok r ∧
      r.stack = some 256 ∧ (Instr.subSpW false 0x101).lowers = some 0x00010001 := by
  refine ⟨⟨[], [], false, true, some 256⟩, ?_, rfl, rfl⟩
  refine (analyze_two (hw1 := 0xF1AD) (hw2 := 0x1D01)
    (wide_none true (by decide) (by decide))).trans ?_
  decide +kernel

/-! ### Calls through registers -/

/-- **C48** An indirect call is reported exactly when the function contains BLX with a register, or BX
with a register other than LR. -/
theorem C48_indirect (h : CodeFits v7 tags address items)
    (hr : thumbAnalyze search (codeBytes items) address v7 tags = .ok r) :
    r.indirect = true ↔
      ∃ i ∈ codeInstrs items, (∃ rm, i = .blx rm) ∨ (∃ rm, i = .bx rm ∧ rm ≠ 14) := by
  rw [h.result hr]
  show (instrsAt 0 items).any _ = true ↔ _
  rw [List.any_eq_true, ← instrsAt_snd items 0]
  simp only [List.mem_map]
  constructor
  · rintro ⟨e, h1, h2⟩
    refine ⟨e.2, ⟨e, h1, rfl⟩, ?_⟩
    cases he : e.2 with
    | blx rm => exact .inl ⟨rm, rfl⟩
    | bx rm =>
      rw [he] at h2
      exact .inr ⟨rm, rfl, by simpa [Instr.throughRegister] using h2⟩
    | _ => rw [he] at h2; simp [Instr.throughRegister] at h2
  · rintro ⟨i, ⟨e, h1, rfl⟩, h2⟩
    refine ⟨e, h1, ?_⟩
    rcases h2 with ⟨rm, he⟩ | ⟨rm, he, hne⟩
    · rw [he]; rfl
    · rw [he]; simpa [Instr.throughRegister] using hne

end

/-! ### In the call graph -/

theorem Program.HasCode.decoded {p : Program} {search : TagSearch} {elf : Elf} {i address : Nat}
    {items : List CodeItem} (h : p.HasCode search elf i address items) :
    p.Decoded search elf i address (codeBytes items).length (codeFacts items) := by
  obtain ⟨a, s, stext, text, tags, h1, h2, h3, hm, h4, h5, h6, h7, h8⟩ := h
  refine ⟨a, s, stext, text, tags, h1, h2, h3, hm, h4, h5, h6, ?_⟩
  rw [h7]
  exact thumbAnalyze_eq h8.sorted h8.valid h8.tags

/-- **C42**, **C43** together with C49: each BL instruction, and each B instruction that leaves the
function, is an edge of the call graph to the function at its target. -/
theorem C42_edges {demangle : Str → Str} {ord : HashOrder} {search : TagSearch} {p : Program} {elf : Elf}
    {st : Build} {g : Graph} (once : p.NamesOnce) (ht : p.target.isThumb = true)
    (h : callGraph demangle ord search p elf = .ok (st, g)) {i address : Nat} {items : List CodeItem}
    (hc : p.HasCode search elf i address items) {pos t : Nat} {ins : Instr} {off : Int}
    (hi : InstrAt items pos ins) (hto : (t : Int) = address + pos + 4 + off)
    (hk : (ins = .bl off ∧ t < 2 ^ 64) ∨
      (ins.IsBranch off ∧ t < 2 ^ 32 ∧ (t < address ∨ address + (codeBytes items).length ≤ t))) :
    ∃ j, p.StartsAt j t ∧ g.Calls i j := by
  have hd := hc.decoded
  have hfit : CodeFits (p.target == .thumbv7m) (elfTags elf.symtab) address items := by
    obtain ⟨_, _, _, _, _, _, _, _, hm, _, _, _, _, hf⟩ := hc
    exact markers_iff.mp hm ▸ hf
  have hres := thumbAnalyze_eq (search := search) hfit.sorted hfit.valid hfit.tags
  obtain ⟨a, s, stext, text, _, he, hx, _⟩ := id hd
  obtain ⟨address', size', r', hd', hall⟩ :=
    C49_jumps_are_calls once ht hx h (List.getElem?_eq_some_iff.mp he).1
  obtain ⟨k1, e1, e2⟩ := analyzed_of he hx hd
  obtain ⟨k2, e1', e2'⟩ := analyzed_of he hx hd'
  have hr := k1.unique k2
  subst hr
  rw [e1', ← e1, e2', ← e2] at hall
  have hl : LeavesTo (codeFacts items) address (codeBytes items).length t := by
    rcases hk with ⟨rfl, h64⟩ | ⟨hb, h32, hout⟩
    · left
      refine ⟨_, (C42_bl_targets hfit hres _).mpr ⟨pos, off, hi, rfl⟩, ?_⟩
      rw [show (address : Int) + (pos + 4 + off) = t by omega]
      omega
    · right
      refine ⟨_, (C43_b_targets_partial hfit hres _).mpr ⟨pos, ins, off, hi, hb, rfl⟩, ?_, hout⟩
      rw [show (address : Int) + (pos + 4 + off) = t by omega]
      omega
  obtain ⟨j, h1, h2, _⟩ := hall t hl
  exact ⟨j, h1, h2⟩

/-! ### Examples -/

/-- `push {r4, lr}; sub sp, #16; ldr r0, [pc]; bl -0x20; bx lr`, then a literal pool. -/
def exCode : List CodeItem :=
  [.instr (.push 0x10 true), .instr (.subSp 4), .instr (.other 0x4800), .instr (.bl (-0x20)),
   .instr (.bx 14), .data [0x4780, 0xBEEF]]

def exCodeTags : List (Nat × Tag) := [(0x8000, .thumb), (0x800C, .data), (0x8010, .thumb)]

theorem exCode_fits (v7 : Bool) : CodeFits v7 exCodeTags 0x8000 exCode := by
  refine ⟨by decide, ?_, ?_⟩
  · intro i hi
    simp only [exCode, List.mem_cons, CodeItem.instr.injEq, List.not_mem_nil, or_false,
      reduceCtorEq] at hi
    rcases hi with rfl | rfl | rfl | rfl | rfl <;> cases v7 <;> decide
  · have hl : (encLong 0xD000 (-0x20)).length = 2 := rfl
    refine ⟨by decide, by decide, by decide, by decide, by decide, by decide, ?_, trivial⟩
    refine ⟨1, rfl, ?_, .inl ⟨0x8010, rfl, .inl rfl⟩⟩
    intro j t hj
    match j with
    | 0 => simp [exCodeTags, Instr.encode, hl] at hj
    | 1 => rfl
    | 2 => simp [exCodeTags, Instr.encode, hl] at hj
    | j + 3 => simp [exCodeTags] at hj

/-- The call goes to `0x8000 + 6 + 4 - 0x20`; 8 + 16 bytes of stack; no indirect call although the
literal pool contains the encoding of `blx r0`. -/
example (search : TagSearch) (v7 : Bool) :
    thumbAnalyze search (codeBytes exCode) 0x8000 v7 exCodeTags =
      .ok ⟨[-0x16], [], false, true, some 24⟩ :=
  (C44_instruction_sequence_partial (exCode_fits v7)).trans (by decide +kernel)

/-- Wide instructions: `stmdb sp!, {r4-r8, lr}; sub.w sp, sp, #0x400; vpush {d8-d9}; beq.w +0x100;
blx r3; b.w -0x1000`. -/
def exCodeWide : List CodeItem :=
  [.instr (.pushW 0x1F0 true), .instr (.subSpW false 0xE80), .instr (.vpushD false 8 2),
   .instr (.b3 0 0x100), .instr (.blx 3), .instr (.b4 (-0x1000)), .instr (.otherW 0xF3BF 0x8F4F)]

example (search : TagSearch) :
    CodeFits true [] 0x100 exCodeWide ∧
    thumbAnalyze search (codeBytes exCodeWide) 0x100 true [] =
      .ok ⟨[], [0x110, -0xFEA], true, true, some (24 + 0x400 + 16)⟩ := by
  have h : CodeFits true [] 0x100 exCodeWide := by
    refine ⟨by decide, ?_, ?_⟩
    · intro i hi
      simp only [exCodeWide, List.mem_cons, CodeItem.instr.injEq, List.not_mem_nil, or_false] at hi
      rcases hi with rfl | rfl | rfl | rfl | rfl | rfl | rfl <;> decide
    · simp [exCodeWide, TagsFit]
  exact ⟨h, (C44_instruction_sequence_partial h).trans (by decide +kernel)⟩

/-- C43: `beq.w` with offset 2^18 is reported with offset 2^19. -/
example (search : TagSearch) :
    thumbAnalyze search (codeBytes [.instr (.b3 0 (2 ^ 18))]) 0 true [] =
      .ok ⟨[], [4 + 2 ^ 19], false, false, some 0⟩ := by
  refine (analyze_two (hw1 := 0xF000) (hw2 := 0xA000) (wide_none true (by decide) (by decide))).trans ?_
  decide +kernel

/-- C46: `subw sp, sp, #8` and `strd r0, r1, [sp, #-8]!` are instructions of `C46_missed`. -/
example : lowersSp 0xF2AD 0x0D08 = true ∧ lowersSp 0xE96D 0x0102 = true := by decide

/-- C44: `movs r0, #1` and `dmb sy` are covered; so is BKPT, by the second case. -/
example : (∃ i : Instr, i.Valid false ∧ i.encode = [0x2001]) ∧
    (∃ i : Instr, i.Valid false ∧ i.encode = [0xF3BF, 0x8F5F]) :=
  ⟨⟨.other 0x2001, by decide, rfl⟩, ⟨.otherW 0xF3BF 0x8F5F, by decide, rfl⟩⟩

def exMainItems : List CodeItem := [.instr (.push 0x80 true), .instr (.bl 2), .instr (.other 0xBD80)]

/-- C42: the function `main` of the program of C49 has this code; its `bl` at offset 2 goes to 264. -/
example : exThumb.HasCode linearSearch exThumbElf 0 256 exMainItems ∧ InstrAt exMainItems 2 (.bl 2) ∧
    ((264 : Nat) : Int) = (256 : Nat) + (2 : Nat) + 4 + 2 ∧ exThumb.StartsAt 1 264 := by
  have e1 : codeBytes exMainItems = [0x80, 0xB5, 0x00, 0xF0, 0x01, 0xF8, 0x80, 0xBD] := by decide +kernel
  refine ⟨⟨_, _, _, _, _, rfl, rfl, rfl, markers_iff.mpr rfl, codeSize_iff.mpr ?_, ?_, ?_, ?_, ?_, ?_, ?_⟩,
    ⟨[.instr (.push 0x80 true)], [.instr (.other 0xBD80)], rfl, by decide +kernel⟩, by decide, ⟨_, rfl⟩⟩
  · rw [e1]; decide +kernel
  · decide
  · rw [e1]; decide
  · rw [e1]; decide +kernel
  · decide +kernel
  · intro i hi
    simp only [exMainItems, List.mem_cons, CodeItem.instr.injEq, List.not_mem_nil, or_false] at hi
    rcases hi with rfl | rfl | rfl <;> decide
  · have : elfTags exThumbElf.symtab = [(256, .thumb), (264, .thumb)] := by decide +kernel
    rw [this]
    simp [exMainItems, TagsFit, Instr.encode, encLong]

end CallStack
