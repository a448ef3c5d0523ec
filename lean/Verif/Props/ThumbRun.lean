import Verif.Proof.ThumbRun

/-!
Property C93: the figure found in the machine code bounds the stack that executing the function takes.
`Spec/ThumbRun.lean` says what executing code means.
-/

namespace CallStack

section

variable {search : TagSearch} {v7 : Bool} {tags : List (Nat × Tag)} {address : Nat}
  {items : List CodeItem} {r : ThumbState}

/-- **C93** If the analysis of the machine code finds that a function uses `n` bytes, then in no execution
of the function does it ever have more than `n` bytes on the stack. Partial: the code must change SP and PC
by instructions that say how, see `C93_big_frames` and `C93_computed_jumps`; and `CodeFits` leaves out the
encodings that are misread (C44, C46, C47). -/
theorem C93_figure_bounds_executions_partial (h : CodeFits v7 tags address items) (tame : TameCode items)
    (hr : thumbAnalyze search (codeBytes items) address v7 tags = .ok r) {n : Nat}
    (hn : r.stack = some n) {pos : Nat} {d : Int} (hrun : CodeRuns items pos d) : d ≤ n := by
  obtain ⟨h1, h2⟩ := ((C46_stack_sum_partial h hr).1 n).mp hn
  have h3 := hrun.le_taken tame h1
  have h4 := takenBefore_le (instrsAt 0 items) pos
  have hsum : (instrsAt 0 items).filterMap (fun e => e.2.lowers) =
      (codeInstrs items).filterMap Instr.lowers := by
    rw [← instrsAt_snd items 0, List.filterMap_map]
    rfl
  rw [hsum, ← h2] at h4
  omega

/-- **C93** If the analysis finds that a function does not modify SP, then no execution of it has anything
on the stack, even if it loops. This is the case in which the tool assumes 0 bytes without a figure. -/
theorem C93_untouched_partial (h : CodeFits v7 tags address items) (tame : TameCode items)
    (hr : thumbAnalyze search (codeBytes items) address v7 tags = .ok r) (hm : r.modifiesSp = false)
    {pos : Nat} {d : Int} (hrun : CodeRuns items pos d) : d ≤ 0 := by
  refine hrun.le_zero tame ?_
  intro i hi n hl
  have := (C46_stack_sum_partial h hr).2.mpr ⟨i, hi, n, hl⟩
  rw [hm] at this
  simp at this

/-- **C93** The exact condition, for functions in which no execution gets to a jump to an address in a register: the
figure bounds all executions exactly if no execution gets to an instruction that sets SP from elsewhere (and does
not return). -/
theorem C93_bounds_iff (h : CodeFits v7 tags address items)
    (jumps : ∀ pos d i, CodeRuns items pos d → InstrAt items pos i → i.flow pos ≠ .unknown)
    (hr : thumbAnalyze search (codeBytes items) address v7 tags = .ok r) {n : Nat} (hn : r.stack = some n) :
    (∀ pos d, CodeRuns items pos d → d ≤ n) ↔
      ∀ pos d i, CodeRuns items pos d → InstrAt items pos i → i.spEffect ≠ .unknown ∨ i.flow pos = .leave := by
  constructor
  · intro hb pos d i hrun hi
    by_contra hno
    simp only [not_or, not_not] at hno
    obtain ⟨pos', h1⟩ := hrun.any_depth hi hno.1 hno.2 (n + 1)
    have := hb _ _ h1
    omega
  · intro tame pos d hrun
    obtain ⟨h1, h2⟩ := ((C46_stack_sum_partial h hr).1 n).mp hn
    have h3 := hrun.le_taken_of (fun _ _ _ hrun hi => ⟨tame _ _ _ hrun hi, jumps _ _ _ hrun hi⟩) h1
    have h4 := takenBefore_le (instrsAt 0 items) pos
    have hsum : (instrsAt 0 items).filterMap (fun e => e.2.lowers) =
        (codeInstrs items).filterMap Instr.lowers := by
      rw [← instrsAt_snd items 0, List.filterMap_map]
      rfl
    rw [hsum, ← h2] at h4
    omega

/-- **C93** If the analysis finds that SP is not modified, the same condition is exact for all functions. -/
theorem C93_untouched_iff (h : CodeFits v7 tags address items)
    (hr : thumbAnalyze search (codeBytes items) address v7 tags = .ok r) (hm : r.modifiesSp = false) :
    (∀ pos d, CodeRuns items pos d → d ≤ 0) ↔
      ∀ pos d i, CodeRuns items pos d → InstrAt items pos i → i.spEffect ≠ .unknown ∨ i.flow pos = .leave := by
  constructor
  · intro hb pos d i hrun hi
    by_contra hno
    simp only [not_or, not_not] at hno
    obtain ⟨pos', h1⟩ := hrun.any_depth hi hno.1 hno.2 1
    have := hb _ _ h1
    omega
  · intro tame pos d hrun
    refine hrun.le_zero_of tame ?_
    intro i hi n hl
    have := (C46_stack_sum_partial h hr).2.mpr ⟨i, hi, n, hl⟩
    rw [hm] at this
    simp at this

/-- **C93** The bound is attained: if all instructions that take stack come first, with none among them that
gives up stack or has to jump, then after them exactly the `n` bytes are in use. -/
theorem C93_attained (h : CodeFits v7 tags address items)
    (hr : thumbAnalyze search (codeBytes items) address v7 tags = .ok r) {n : Nat}
    (hn : r.stack = some n) {pre : List Instr} {post : List CodeItem}
    (hs : items = pre.map .instr ++ post) (hpre : ∀ i ∈ pre, i.Straight)
    (hpost : ∀ i, CodeItem.instr i ∈ post → ∀ k, i.spEffect ≠ .lowers k) :
    CodeRuns items (codeBytes (pre.map .instr)).length n := by
  obtain ⟨_, h2⟩ := ((C46_stack_sum_partial h hr).1 n).mp hn
  have hrun := codeRuns_straight pre post hs hpre
  have hc : (codeInstrs items).filterMap Instr.lowers = pre.filterMap Instr.lowers := by
    rw [hs]
    have hcat : codeInstrs (pre.map CodeItem.instr ++ post) = pre ++ codeInstrs post := by
      unfold codeInstrs
      rw [List.filterMap_append, List.filterMap_map]
      congr 1
      exact List.filterMap_some
    rw [hcat, List.filterMap_append]
    have hnil : (codeInstrs post).filterMap Instr.lowers = [] := by
      rw [List.filterMap_eq_nil_iff]
      intro i hi
      unfold codeInstrs at hi
      rw [List.mem_filterMap] at hi
      obtain ⟨item, hi1, hi2⟩ := hi
      cases item with
      | data hws => simp at hi2
      | instr j =>
        simp only [Option.some.injEq] at hi2
        subst hi2
        cases hl : j.lowers with
        | none => rfl
        | some k => exact absurd (spEffect_lowers.mpr hl) (hpost j hi1 k)
    rw [hnil, List.append_nil]
  rw [hc] at h2
  rw [h2]
  exact hrun

end

/-- A prologue of ARMv6-M for a frame of more than 508 bytes: `push {r4-r7, lr}; ldr r6, [pc, #4];
add sp, r6; pop {r4-r7, pc}` and the constant -1024. (The epilogue is cut short.) -/
def exBigFrame : List CodeItem :=
  [.instr (.push 0xF0 true), .instr (.other 0x4E01), .instr (.other 0x44B5), .instr (.other 0xBDF0),
   .data [0xFC00, 0xFFFF]]

def exBigTags : List (Nat × Tag) := [(0x8000, .thumb), (0x8008, .data), (0x800C, .thumb)]

theorem exBigFrame_fits (v7 : Bool) : CodeFits v7 exBigTags 0x8000 exBigFrame := by
  refine ⟨by decide, ?_, ?_⟩
  · intro i hi
    simp only [exBigFrame, List.mem_cons, CodeItem.instr.injEq, List.not_mem_nil, or_false,
      reduceCtorEq] at hi
    rcases hi with rfl | rfl | rfl | rfl <;> cases v7 <;> decide
  · refine ⟨by decide, by decide, by decide, by decide, by decide, ?_, trivial⟩
    refine ⟨1, rfl, ?_, .inl ⟨0x800C, rfl, .inl rfl⟩⟩
    intro j t hj
    match j with
    | 0 => simp [exBigTags, Instr.encode] at hj
    | 1 => rfl
    | 2 => simp [exBigTags, Instr.encode] at hj
    | j + 3 => simp [exBigTags] at hj

/-- **C93** is false for the large frames of ARMv6-M: `add sp, r6` is not taken into account. The tool finds
20 bytes, but the function takes as many more as `r6` says, here 1024. -/
theorem C93_big_frames (search : TagSearch) (v7 : Bool) :
    ∃ r, thumbAnalyze search (codeBytes exBigFrame) 0x8000 v7 exBigTags = .ok r ∧ r.stack = some 20 ∧
      CodeRuns exBigFrame 6 (20 + 1024) := by
  refine ⟨_, C44_instruction_sequence_partial (exBigFrame_fits v7), by decide +kernel, ?_⟩
  have h1 : CodeRuns exBigFrame 2 20 :=
    .step .entry (.run ⟨[], _, rfl, rfl⟩ rfl rfl)
  have h2 : CodeRuns exBigFrame 4 20 :=
    .step h1 (.run ⟨[_], _, rfl, rfl⟩ rfl rfl)
  exact .step h2 (.run ⟨[_, _], _, rfl, rfl⟩ trivial rfl)

/-- **C93** Such a function that only loads a constant and adds it to SP even counts as not modifying SP, so
that the tool assumes 0 bytes. -/
theorem C93_big_frame_unnoticed (search : TagSearch) (v7 : Bool) (k : Nat) :
    ∃ r, thumbAnalyze search (codeBytes [.instr (.other 0x44B5)]) 0x8000 v7 [] = .ok r ∧
      r.modifiesSp = false ∧ r.stack = some 0 ∧ CodeRuns [.instr (.other 0x44B5)] 2 k := by
  have hf : CodeFits v7 [] 0x8000 [.instr (.other 0x44B5)] := by
    refine ⟨by decide, ?_, by decide, trivial⟩
    intro i hi
    simp only [List.mem_cons, CodeItem.instr.injEq, List.not_mem_nil, or_false] at hi
    subst hi
    cases v7 <;> decide
  refine ⟨_, C44_instruction_sequence_partial hf, by decide +kernel, by decide +kernel, ?_⟩
  exact .step .entry (.run ⟨[], _, rfl, rfl⟩ trivial rfl)

/-- `bx lr`, a constant, `mov sp, r7` -/
def exNeverSet : List CodeItem := [.instr (.bx 14), .data [0, 0], .instr (.other 0x46BD)]

/-- The instruction that sets SP is never executed, so 0 bytes is a bound although the code is not tame. -/
example (search : TagSearch) : ¬ TameCode exNeverSet ∧
    (∃ r, thumbAnalyze search (codeBytes exNeverSet) 0x8000 true [(0x8002, .data), (0x8006, .thumb)] = .ok r ∧
      r.modifiesSp = false) ∧
    ∀ pos d, CodeRuns exNeverSet pos d → d ≤ 0 := by
  have hf : CodeFits true [(0x8002, .data), (0x8006, .thumb)] 0x8000 exNeverSet := by
    refine ⟨by decide, ?_, ?_⟩
    · intro i hi
      simp only [exNeverSet, List.mem_cons, CodeItem.instr.injEq, List.not_mem_nil, or_false, reduceCtorEq,
        false_or] at hi
      rcases hi with rfl | rfl <;> decide
    · refine ⟨by decide, by decide, ?_, by decide, trivial⟩
      refine ⟨0, rfl, ?_, .inl ⟨0x8006, rfl, .inl rfl⟩⟩
      intro j t hj
      match j with
      | 0 => rfl
      | 1 => simp [Instr.encode] at hj
      | j + 2 => simp at hj
  have hr := C44_instruction_sequence_partial (search := search) hf
  have hat : ∀ pos i, InstrAt exNeverSet pos i → pos = 0 ∧ i = .bx 14 ∨ pos = 6 ∧ i = .other 0x46BD := by
    intro pos i hi
    have : (pos, i) ∈ [((0 : Nat), Instr.bx 14), (6, Instr.other 0x46BD)] := instrAt_iff.mp hi
    simpa using this
  refine ⟨fun ht => ?_, ⟨_, hr, by decide +kernel⟩, ?_⟩
  · exact (ht 6 (.other 0x46BD) ⟨[_, _], [], rfl, by decide⟩).1 (by decide)
  · refine (C93_untouched_iff hf hr (by decide +kernel)).mpr ?_
    suffices h : ∀ pos d, CodeRuns exNeverSet pos d → pos = 0 ∨ pos = 2 by
      intro pos d i hrun hi
      rcases hat pos i hi with ⟨rfl, rfl⟩ | ⟨rfl, rfl⟩
      · exact .inl (by decide)
      · rcases h _ _ hrun with h | h <;> omega
    intro pos d hrun
    induction hrun with
    | entry => exact .inl rfl
    | @step pos pos' d d' _ hs ih =>
      generalize ha : (pos, d) = a at hs
      generalize hb : (pos', d') = b at hs
      cases hs with
      | run hi _ hfl =>
        simp only [Prod.mk.injEq] at ha hb
        obtain ⟨rfl, rfl⟩ := ha
        obtain ⟨rfl, rfl⟩ := hb
        rcases hat _ _ hi with ⟨rfl, rfl⟩ | ⟨rfl, rfl⟩
        · exact hfl.elim
        · omega
      | pass hi =>
        simp only [Prod.mk.injEq] at ha hb
        obtain ⟨rfl, rfl⟩ := ha
        obtain ⟨rfl, rfl⟩ := hb
        rcases hat _ _ hi with ⟨rfl, rfl⟩ | ⟨rfl, rfl⟩
        · exact .inr rfl
        · omega

/-- `push {r4}; mov pc, r3` -/
def exComputed : List CodeItem := [.instr (.push 0x10 false), .instr (.other 0x469F)]

/-- **C93** is false when a register is moved to PC: such jumps are ignored, so that a loop goes unnoticed.
The tool finds 4 bytes, but the function can take any number of words. -/
theorem C93_computed_jumps (search : TagSearch) (v7 : Bool) (k : Nat) :
    ∃ r, thumbAnalyze search (codeBytes exComputed) 0x8000 v7 [] = .ok r ∧ r.stack = some 4 ∧
      CodeRuns exComputed 0 (4 * k) := by
  have hf : CodeFits v7 [] 0x8000 exComputed := by
    refine ⟨by decide, ?_, by decide, by decide, trivial⟩
    intro i hi
    simp only [exComputed, List.mem_cons, CodeItem.instr.injEq, List.not_mem_nil, or_false] at hi
    rcases hi with rfl | rfl <;> cases v7 <;> decide
  refine ⟨_, C44_instruction_sequence_partial hf, by decide +kernel, ?_⟩
  induction k with
  | zero => exact .entry
  | succ k ih =>
    have h1 : CodeRuns exComputed 2 (4 * (k + 1 : Nat)) := by
      refine .step ih (.run (i := .push 0x10 false) ⟨[], _, rfl, rfl⟩ ?_ rfl)
      have : (Instr.push 0x10 false).spEffect = .lowers 4 := by decide
      rw [this]
      show (_ : Int) = _
      omega
    refine .step h1 (.run (i := .other 0x469F) ⟨[_], _, rfl, rfl⟩ rfl ?_)
    show 0 < _
    decide

/-! ### Examples -/

/-- `push {r4, lr}; cbz r0, 1f; sub sp, #16; add sp, #16; 1: pop {r4, pc}` -/
def exSkips : List CodeItem :=
  [.instr (.push 0x10 true), .instr (.other 0xB108), .instr (.subSp 4), .instr (.other 0xB004),
   .instr (.other 0xBD10)]

theorem tameCode_of {items : List CodeItem}
    (h : ∀ e ∈ instrsAt 0 items, e.2.spEffect ≠ .unknown ∧ e.2.flow e.1 ≠ .unknown) : TameCode items :=
  fun _ _ hi => h _ (instrAt_iff.mp hi)

/-- The hypotheses of C93 are met; 24 bytes is the bound, and both ways are executions. -/
example (search : TagSearch) : CodeFits true [] 0x8000 exSkips ∧ TameCode exSkips ∧
    (∃ r, thumbAnalyze search (codeBytes exSkips) 0x8000 true [] = .ok r ∧ r.stack = some 24) ∧
    CodeRuns exSkips 6 24 ∧ CodeRuns exSkips 8 8 := by
  have hf : CodeFits true [] 0x8000 exSkips := by
    refine ⟨by decide, ?_, by decide, by decide, by decide, by decide, by decide, trivial⟩
    intro i hi
    simp only [exSkips, List.mem_cons, CodeItem.instr.injEq, List.not_mem_nil, or_false] at hi
    rcases hi with rfl | rfl | rfl | rfl | rfl <;> decide
  have hr := C44_instruction_sequence_partial (search := search) hf
  refine ⟨hf, tameCode_of (by decide), ⟨_, hr, by decide +kernel⟩, ?_, ?_⟩
  · refine C93_attained (pre := [.push 0x10 true, .other 0xB108, .subSp 4]) (post := _) hf hr
      (by decide +kernel) rfl ?_ ?_
    · intro i hi
      simp only [List.mem_cons, List.not_mem_nil, or_false] at hi
      rcases hi with rfl | rfl | rfl
      · exact ⟨.inr ⟨_, rfl⟩, fun _ => .inl rfl⟩
      · exact ⟨.inl rfl, fun _ => .inr ⟨_, rfl⟩⟩
      · exact ⟨.inr ⟨_, rfl⟩, fun _ => .inl rfl⟩
    · intro i hi k
      simp only [List.mem_cons, CodeItem.instr.injEq, List.not_mem_nil, or_false] at hi
      rcases hi with rfl | rfl
      · simp [Instr.spEffect, narrowSp]
      · simp [Instr.spEffect, narrowSp]
  · have h1 : CodeRuns exSkips 2 8 := .step .entry (.run ⟨[], _, rfl, rfl⟩ rfl rfl)
    exact .step h1 (.run (i := .other 0xB108) ⟨[_], _, rfl, rfl⟩ rfl (.inr ⟨rfl, by decide⟩))

/-- A loop that does not touch SP: `1: subs r0, #1; bne 1b; bx lr`. -/
def exSpin : List CodeItem := [.instr (.other 0x3801), .instr (.b1 1 (-6)), .instr (.bx 14)]

/-- The tool has no figure but knows that SP is not modified. -/
example (search : TagSearch) : CodeFits true [] 0x8000 exSpin ∧ TameCode exSpin ∧
    (∃ r, thumbAnalyze search (codeBytes exSpin) 0x8000 true [] = .ok r ∧ r.stack = none ∧
      r.modifiesSp = false) ∧ CodeRuns exSpin 0 0 := by
  have hf : CodeFits true [] 0x8000 exSpin := by
    refine ⟨by decide, ?_, by decide, by decide, by decide, trivial⟩
    intro i hi
    simp only [exSpin, List.mem_cons, CodeItem.instr.injEq, List.not_mem_nil, or_false] at hi
    rcases hi with rfl | rfl | rfl <;> decide
  exact ⟨hf, tameCode_of (by decide), ⟨_, C44_instruction_sequence_partial hf, by decide +kernel,
    by decide +kernel⟩, .entry⟩

/-- Which instructions are tame: `pop.w {r4-r8, pc}`, `vpop {d8}`, `add.w sp, sp, #0x400`, `tbb [pc, r0]`
and `ldr pc, [sp], #4` are; `sub.w sp, sp, r3`, `mov sp, r7`, `msr msp, r0` and `ldr pc, [r0]` are not. -/
example :
    wideSp 0xE8BD 0x81F0 = .raises ∧ wideFlow 0xE8BD 0x81F0 = .leave ∧
    wideSp 0xECBD 0x8B02 = .raises ∧ wideSp 0xF50D 0x6D80 = .raises ∧
    wideFlow 0xE8DF 0xF000 = .forward ∧ wideSp 0xE8DF 0xF000 = .keep ∧
    wideFlow 0xF85D 0xFB04 = .leave ∧ wideSp 0xF85D 0xFB04 = .raises ∧
    wideSp 0xEBAD 0x0D03 = .unknown ∧ narrowSp 0x46 0xBD = .unknown ∧
    wideSp 0xF380 0x8808 = .unknown ∧ wideFlow 0xF8D0 0xF000 = .unknown := by decide

end CallStack
