import Verif.Proof.ThumbAll
import Verif.Props.Thumb

/-!
Properties C42-C48 for code of ARMv7-M with all 32-bit instructions: exact conditions.
-/

namespace CallStack

/-- **C44** Every pair of halfwords that is a 32-bit instruction is one of those considered here. -/
theorem C44_wide_all {hw1 hw2 : Nat} (h1 : Wide hw1) (h2 : hw2 < 65536) :
    ∃ i : Instr, i.Defined ∧ i.encode = [hw1, hw2] := by
  rcases wide_cover true h1 h2 with ⟨i, hi, he⟩ | h
  · refine ⟨i, ?_, he⟩
    cases i with
    | b3 cond off => exact ⟨hi.2.1, hi.2.2.1, hi.2.2.2.1, hi.2.2.2.2.1⟩
    | subSpW s imm12 => exact hi.2.1
    | otherW a b => exact .inl hi
    | _ => exact hi
  · cases h with
    | lowersSp h => exact ⟨.otherW hw1 hw2, .inr ⟨h2, .inl h⟩, rfl⟩
    | stmdb _ e h =>
      refine ⟨.otherW hw1 hw2, .inr ⟨h2, .inr (.inl ?_)⟩, rfl⟩
      unfold stmdbKeep
      simp [e, e ▸ h]
    | b3 _ a1 a2 a3 a4 _ =>
      obtain ⟨off, b1, b2, b3, b4⟩ := encB3_all a1 a2 a3
      exact ⟨.b3 _ off, ⟨a4, b1, b2, b3⟩, b4⟩
    | subW _ a1 a2 a3 =>
      rcases a1 with rfl | rfl
      · refine ⟨.subSpW false (256 + hw2 % 256), (by omega : 256 + hw2 % 256 < 2 ^ 12), ?_⟩
        simp only [Instr.encode, flag, List.cons.injEq, and_true]
        constructor <;> simp <;> omega
      · refine ⟨.subSpW true (256 + hw2 % 256), (by omega : 256 + hw2 % 256 < 2 ^ 12), ?_⟩
        simp only [Instr.encode, flag, List.cons.injEq, and_true]
        constructor <;> simp <;> omega
    | fstmdbx _ a1 a2 a3 =>
      refine ⟨.otherW hw1 hw2, .inr ⟨h2, .inr (.inr ?_)⟩, rfl⟩
      unfold CallStack.fstmdbx
      simp [a1, a2, a3]

/-- **C44** A halfword that the manual gives a meaning is taken for the first half of a 32-bit instruction exactly if
it is one, or is a BKPT. -/
theorem C44_width_iff {v7 : Bool} {hw : Nat} (hlt : hw < 65536) (ha : ¬ Unallocated16 v7 (hw / 256) (hw % 256)) :
    decode16 v7 (hw % 256, hw / 256) = none ↔ Wide hw ∨ hw / 256 = 0xBE := by
  constructor
  · intro h
    by_cases hw' : Wide hw
    · exact .inl hw'
    rcases C44_narrow_complete (v7 := v7) hlt hw' with ⟨i, hi, he⟩ | h' | h'
    · have := C44_narrow hi he
      rw [h] at this
      cases this
    · exact .inr h'
    · exact absurd h' ha
  · rintro (h | h)
    · exact C44_wide h
    · have := (C44_bkpt (v7 := v7) (imm8 := hw % 256) (by omega)).2
      rwa [show 0xBE00 + hw % 256 = hw by omega] at this

section

variable {search : TagSearch} {tags : List (Nat × Tag)} {address : Nat} {items : List CodeItem} {r : ThumbState}

/-- **C44** The analysis does not abort, whatever 32-bit instructions there are. -/
theorem C44_never_aborts (h : AllCode tags address items) :
    ∃ r, thumbAnalyze search (codeBytes items) address true tags = .ok r :=
  ⟨_, thumbAnalyze_all h⟩

/-- **C42** The calls are found in all code. -/
theorem C42_bl_targets_all (h : AllCode tags address items)
    (hr : thumbAnalyze search (codeBytes items) address true tags = .ok r) (t : Int) :
    t ∈ r.bls ↔ ∃ pos off, InstrAt items pos (.bl off) ∧ t = pos + 4 + off := by
  rw [thumbAnalyze_all h] at hr
  obtain rfl := Except.ok.inj hr
  show t ∈ callTargets items ↔ _
  unfold callTargets
  rw [List.mem_filterMap]
  constructor
  · rintro ⟨⟨pos, i⟩, h1, h2⟩
    cases i with
    | bl off => exact ⟨pos, off, instrAt_iff.mpr h1, (Option.some.inj h2).symm⟩
    | _ => cases h2
  · rintro ⟨pos, off, h1, rfl⟩
    exact ⟨_, instrAt_iff.mp h1, rfl⟩

/-- **C43** The branches that are found are those of the code, in their order, exactly if no B instruction in
encoding T3 has an offset whose bits 18 and 19 differ. -/
theorem C43_targets_iff (h : AllCode tags address items)
    (hr : thumbAnalyze search (codeBytes items) address true tags = .ok r) :
    r.bs = branchTargets items ↔ ∀ i ∈ codeInstrs items, ¬ i.Swapped := by
  rw [thumbAnalyze_all h] at hr
  obtain rfl := Except.ok.inj hr
  show (instrsAt 0 items).filterMap _ = branchTargets items ↔ _
  unfold branchTargets
  rw [filterMap_eq_iff (fun x _ => foundBranch_isSome _ _), ← instrsAt_snd items 0]
  simp only [foundBranch_eq_iff, List.mem_map, forall_exists_index, and_imp]
  constructor
  · rintro h1 _ e h2 rfl
    exact h1 e h2
  · exact fun h1 e h2 => h1 e.2 e h2 rfl

/-- **C46** If the analysis reports `n` bytes, then `n` and the bytes that are overlooked (by SUBW, STRD, STRB, STRH,
and by SUB with constants `00XY00XY`) are the bytes by which the instructions of the function lower the stack pointer
and those that are counted by mistake (for STMDB without writeback). -/
theorem C46_account (h : AllCode tags address items)
    (hr : thumbAnalyze search (codeBytes items) address true tags = .ok r) {n : Nat} (hn : r.stack = some n) :
    n + ((codeInstrs items).map Instr.overlooked).sum =
      ((codeInstrs items).filterMap Instr.lowersAll).sum + ((codeInstrs items).map Instr.imagined).sum := by
  rw [thumbAnalyze_all h] at hr
  obtain rfl := Except.ok.inj hr
  simp only at hn
  split at hn
  · cases hn
  · obtain rfl := Option.some.inj hn
    have e : (instrsAt 0 items).filterMap (fun e => e.2.foundLowers) =
        (codeInstrs items).filterMap Instr.foundLowers := by
      rw [← instrsAt_snd items 0, List.filterMap_map]
      rfl
    rw [e]
    refine sum_account _ (fun i hi => h.defined i ?_)
    unfold codeInstrs at hi
    obtain ⟨x, hx, h1⟩ := List.mem_filterMap.mp hi
    cases x with
    | instr j =>
      obtain rfl := Option.some.inj h1
      exact hx
    | data _ => cases h1

/-- **C46** In code without STMDB with base SP and without writeback, the figure is never too large, and it is the sum
of what the instructions take exactly if nothing is overlooked: no SUBW, STRD, STRB, STRH takes stack, and no SUB has a
constant `00XY00XY` other than 0. -/
theorem C46_exact_iff (h : AllCode tags address items)
    (hr : thumbAnalyze search (codeBytes items) address true tags = .ok r) {n : Nat} (hn : r.stack = some n)
    (hk : ∀ hw1 hw2, .otherW hw1 hw2 ∈ codeInstrs items → stmdbKeep hw1 hw2 = false) :
    n ≤ ((codeInstrs items).filterMap Instr.lowersAll).sum ∧
    (n = ((codeInstrs items).filterMap Instr.lowersAll).sum ↔
      (∀ hw1 hw2, .otherW hw1 hw2 ∈ codeInstrs items → lowersSp hw1 hw2 = true → lowersBy hw1 hw2 = some 0) ∧
      (∀ s imm12, .subSpW s imm12 ∈ codeInstrs items → ¬ (256 < imm12 ∧ imm12 < 512))) := by
  have ha := C46_account h hr hn
  have hz : ((codeInstrs items).map Instr.imagined).sum = 0 := by
    rw [List.sum_eq_zero_iff_forall_eq_nat]
    intro x hx
    obtain ⟨i, hi, rfl⟩ := List.mem_map.mp hx
    cases i with
    | otherW hw1 hw2 => simp [Instr.imagined, hk _ _ hi]
    | _ => rfl
  rw [hz, Nat.add_zero] at ha
  refine ⟨by omega, ?_⟩
  rw [show (n = ((codeInstrs items).filterMap Instr.lowersAll).sum ↔
    ((codeInstrs items).map Instr.overlooked).sum = 0) by omega]
  rw [List.sum_eq_zero_iff_forall_eq_nat]
  simp only [List.mem_map, forall_exists_index, and_imp, forall_apply_eq_imp_iff₂]
  have hsome : ∀ hw1 hw2, lowersSp hw1 hw2 = true → (lowersBy hw1 hw2).isSome = true := by
    intro hw1 hw2 h1
    unfold lowersSp at h1
    simp only [Bool.or_eq_true, Bool.and_eq_true, decide_eq_true_eq] at h1
    unfold lowersBy
    split
    · rfl
    split
    · rfl
    split
    · rfl
    omega
  constructor
  · intro h0
    constructor
    · intro hw1 hw2 hi h1
      have := h0 _ hi
      simp only [Instr.overlooked, h1, if_true] at this
      obtain ⟨k, hk'⟩ := Option.isSome_iff_exists.mp (hsome _ _ h1)
      rw [hk'] at this ⊢
      rw [Option.getD_some] at this
      rw [this]
    · intro s imm12 hi h1
      have := h0 _ hi
      simp only [Instr.overlooked] at this
      rw [if_pos (by omega)] at this
      omega
  · rintro ⟨h1, h2⟩ i hi
    cases i with
    | otherW hw1 hw2 =>
      simp only [Instr.overlooked]
      split
      · rw [h1 _ _ hi (by assumption)]
        rfl
      · rfl
    | subSpW s imm12 =>
      have := h2 _ _ hi
      simp only [Instr.overlooked]
      split <;> omega
    | _ => rfl

/-- **C46** The analysis gives up exactly if a branch that it finds leads into the function; if none is misread, exactly
if one does. -/
theorem C46_gives_up_iff (h : AllCode tags address items)
    (hr : thumbAnalyze search (codeBytes items) address true tags = .ok r)
    (hs : ∀ i ∈ codeInstrs items, ¬ i.Swapped) :
    r.stack = none ↔ ∃ t ∈ branchTargets items, 0 ≤ t ∧ t < (codeBytes items).length := by
  have hb := (C43_targets_iff h hr).mpr hs
  rw [thumbAnalyze_all h] at hr
  obtain rfl := Except.ok.inj hr
  simp only at hb ⊢
  rw [hb]
  split
  · rename_i h1
    simpa using h1
  · rename_i h1
    simpa using h1

/-- **C46** SP is reported as modified exactly if an instruction lowers it that is none of SUBW, STRD, STRB, STRH, or
there is an STMDB with base SP and without writeback. -/
theorem C46_modified_iff (h : AllCode tags address items)
    (hr : thumbAnalyze search (codeBytes items) address true tags = .ok r) :
    r.modifiesSp = true ↔ ∃ i ∈ codeInstrs items, (∃ n, i.lowers = some n) ∨
      ∃ hw1 hw2, i = .otherW hw1 hw2 ∧ (fstmdbx hw1 hw2 = true ∨ stmdbKeep hw1 hw2 = true) := by
  rw [thumbAnalyze_all h] at hr
  obtain rfl := Except.ok.inj hr
  show (instrsAt 0 items).any _ = true ↔ _
  rw [List.any_eq_true, ← instrsAt_snd items 0]
  simp only [List.mem_map]
  have key : ∀ i : Instr, i.foundLowers.isSome = true ↔ (∃ n, i.lowers = some n) ∨
      ∃ hw1 hw2, i = .otherW hw1 hw2 ∧ (fstmdbx hw1 hw2 = true ∨ stmdbKeep hw1 hw2 = true) := by
    intro i
    cases i with
    | otherW hw1 hw2 =>
      simp only [Instr.foundLowers, Instr.lowers, reduceCtorEq, exists_false, false_or, Instr.otherW.injEq]
      by_cases h1 : fstmdbx hw1 hw2 = true
      · simp only [h1, if_true, Option.isSome_some, true_iff]
        exact ⟨_, _, ⟨rfl, rfl⟩, .inl h1⟩
      · by_cases h2 : stmdbKeep hw1 hw2 = true
        · simp only [h1, h2, if_true, Bool.false_eq_true, if_false, Option.isSome_some, true_iff]
          exact ⟨_, _, ⟨rfl, rfl⟩, .inr h2⟩
        · simp only [h1, h2, Bool.false_eq_true, if_false, Option.isSome_none, false_iff]
          rintro ⟨a, b, ⟨rfl, rfl⟩, h3 | h3⟩
          · exact h1 h3
          · exact h2 h3
    | _ => simp [Instr.foundLowers, Instr.lowers]
  constructor
  · rintro ⟨e, h1, h2⟩
    exact ⟨e.2, ⟨e, h1, rfl⟩, (key _).mp h2⟩
  · rintro ⟨i, ⟨e, h1, rfl⟩, h2⟩
    exact ⟨e, h1, (key _).mpr h2⟩

/-- **C48** Calls and jumps through registers are found in all code. -/
theorem C48_indirect_all (h : AllCode tags address items)
    (hr : thumbAnalyze search (codeBytes items) address true tags = .ok r) :
    r.indirect = true ↔
      ∃ i ∈ codeInstrs items, (∃ rm, i = .blx rm) ∨ (∃ rm, i = .bx rm ∧ rm ≠ 14) := by
  rw [thumbAnalyze_all h] at hr
  obtain rfl := Except.ok.inj hr
  show (instrsAt 0 items).any _ = true ↔ _
  rw [List.any_eq_true, ← instrsAt_snd items 0]
  simp only [List.mem_map]
  constructor
  · rintro ⟨e, h1, h2⟩
    refine ⟨e.2, ⟨e, h1, rfl⟩, ?_⟩
    cases hi : e.2 with
    | blx rm => exact .inl ⟨rm, rfl⟩
    | bx rm =>
      rw [hi] at h2
      exact .inr ⟨rm, rfl, by simpa [Instr.throughRegister] using h2⟩
    | _ => rw [hi] at h2; cases h2
  · rintro ⟨i, ⟨e, h1, rfl⟩, h2⟩
    refine ⟨e, h1, ?_⟩
    rcases h2 with ⟨rm, h2⟩ | ⟨rm, h2, h3⟩
    · rw [h2]; rfl
    · rw [h2]
      simpa [Instr.throughRegister] using h3

end

/-- A function that pushes two registers, takes 8 bytes by `subw` and `0x00010001` bytes by `sub.w`, stores below SP
without moving it, and branches far: the tool finds 8 + 256 + 8 bytes and a wrong target. -/
def exAllCode : List CodeItem :=
  [.instr (.push 0x80 true), .instr (.otherW 0xF2AD 0x0D08), .instr (.subSpW false 0x101),
    .instr (.otherW 0xE90D 0x0003), .instr (.b3 0 (2 ^ 18)), .instr (.bl 64)]

theorem exAllCode_all : AllCode [] 0x100 exAllCode := by
  refine ⟨by decide, ?_, ?_⟩
  · intro i hi
    simp only [exAllCode, List.mem_cons, CodeItem.instr.injEq, List.not_mem_nil, or_false] at hi
    rcases hi with rfl | rfl | rfl | rfl | rfl | rfl <;> decide
  · simp [exAllCode, TagsFit]

example (search : TagSearch) :
    thumbAnalyze search (codeBytes exAllCode) 0x100 true [] =
      .ok ⟨[0x56], [0x12 + 2 ^ 19], false, true, some (8 + 256 + 8)⟩ ∧
    branchTargets exAllCode = [0x12 + 2 ^ 18] ∧
    ((codeInstrs exAllCode).filterMap Instr.lowersAll).sum = 8 + 8 + 0x00010001 ∧
    ((codeInstrs exAllCode).map Instr.overlooked).sum = 8 + 65281 ∧
    ((codeInstrs exAllCode).map Instr.imagined).sum = 8 :=
  ⟨(thumbAnalyze_all exAllCode_all).trans (by decide +kernel), by decide +kernel, by decide +kernel, by decide +kernel,
    by decide +kernel⟩

end CallStack
