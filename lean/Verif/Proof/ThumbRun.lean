import Verif.Props.Thumb

/-!
Helper lemmas for C93: the depth of the stack at an offset is bounded by what the instructions before it take.
-/

namespace CallStack

theorem narrowSp_ne_lowers (hi lo n : Nat) : narrowSp hi lo ≠ .lowers n := by
  unfold narrowSp
  split <;> try split
  all_goals try split
  all_goals simp

theorem wideSp_ne_lowers (hw1 hw2 n : Nat) : wideSp hw1 hw2 ≠ .lowers n := by
  intro h
  unfold wideSp at h
  simp only at h
  repeat' split at h
  all_goals simp at h

theorem spEffect_lowers {i : Instr} {n : Nat} : i.spEffect = .lowers n ↔ i.lowers = some n := by
  cases i with
  | other hw => simp [Instr.spEffect, Instr.lowers, narrowSp_ne_lowers]
  | otherW hw1 hw2 => simp [Instr.spEffect, Instr.lowers, wideSp_ne_lowers]
  | _ => simp [Instr.spEffect, Instr.lowers]

/-- The bytes that an instruction takes. -/
def Instr.takes (i : Instr) : Nat := i.lowers.getD 0

/-- The depth after an instruction that says how it changes SP. -/
theorem SpEffect.Allows.le {i : Instr} {d d' : Int} (h : i.spEffect.Allows d d')
    (ht : i.spEffect ≠ .unknown) : d' ≤ d + i.takes := by
  cases he : i.spEffect with
  | keep =>
    rw [he] at h
    have : d' = d := h
    omega
  | raises =>
    rw [he] at h
    have : d' ≤ d := h
    omega
  | lowers n =>
    rw [he] at h
    have h1 : d' = d + n := h
    have h2 : i.takes = n := by
      unfold Instr.takes
      rw [spEffect_lowers.mp he]
      rfl
    omega
  | unknown => exact absurd he ht

theorem encode_pos (i : Instr) : 0 < i.encode.length := by
  cases i <;> simp [Instr.encode, encLong, encB3]

/-- The bytes that the instructions before `pos` take. -/
def takenBefore (l : List (Nat × Instr)) (pos : Nat) : Nat :=
  (l.map (fun e => if e.1 < pos then e.2.takes else 0)).sum

theorem takenBefore_mono (l : List (Nat × Instr)) {pos pos' : Nat} (h : pos ≤ pos') :
    takenBefore l pos ≤ takenBefore l pos' := by
  induction l with
  | nil => exact Nat.le_refl _
  | cons e l ih =>
    unfold takenBefore at ih ⊢
    simp only [List.map_cons, List.sum_cons]
    split <;> split <;> omega

theorem takenBefore_step {l : List (Nat × Instr)} {pos pos' : Nat} {i : Instr} (hm : (pos, i) ∈ l)
    (h : pos < pos') : takenBefore l pos + i.takes ≤ takenBefore l pos' := by
  induction l with
  | nil => simp at hm
  | cons e l ih =>
    have hmono := takenBefore_mono l (Nat.le_of_lt h)
    unfold takenBefore at ih hmono ⊢
    simp only [List.map_cons, List.sum_cons]
    rcases List.mem_cons.mp hm with rfl | hm
    · simp only [Nat.lt_irrefl, if_false, if_pos h]
      omega
    · have := ih hm
      split <;> split <;> omega

theorem takenBefore_le (l : List (Nat × Instr)) (pos : Nat) :
    takenBefore l pos ≤ (l.filterMap (fun e => e.2.lowers)).sum := by
  induction l with
  | nil => exact Nat.le_refl _
  | cons e l ih =>
    unfold takenBefore at ih ⊢
    simp only [List.map_cons, List.sum_cons, List.filterMap_cons]
    unfold Instr.takes at ih ⊢
    cases he : e.2.lowers with
    | none =>
      simp only [Option.getD_none, ite_self]
      omega
    | some n =>
      simp only [Option.getD_some, List.sum_cons]
      split <;> omega

/-- Jumps within a function without backward branches go forward. -/
theorem Flow.Allows.lt {items : List CodeItem} {pos pos' : Nat} {i : Instr}
    (hnb : ∀ off, i.IsBranch off →
      ¬ (0 ≤ (pos : Int) + 4 + off ∧ (pos : Int) + 4 + off < (codeBytes items).length))
    (ht : i.flow pos ≠ .unknown)
    (h : (i.flow pos).Allows (codeBytes items).length pos (2 * i.encode.length) pos') : pos < pos' := by
  have he := encode_pos i
  have hbr : ∀ off t, i.IsBranch off → (t : Int) = pos + 4 + off → (pos' : Int) = t →
      pos' < (codeBytes items).length → False := by
    intro off t hb ht1 ht2 hlt
    exact hnb off hb ⟨by omega, by omega⟩
  cases i with
  | b1 c off =>
    rcases h with h | ⟨h, hlt⟩
    · omega
    · exact (hbr off _ (.inl ⟨c, rfl⟩) rfl h hlt).elim
  | b2 off =>
    obtain ⟨h, hlt⟩ := h
    exact (hbr off _ (.inr (.inl rfl)) rfl h hlt).elim
  | b3 c off =>
    rcases h with h | ⟨h, hlt⟩
    · omega
    · exact (hbr off _ (.inr (.inr (.inl ⟨c, rfl⟩))) rfl h hlt).elim
  | b4 off =>
    obtain ⟨h, hlt⟩ := h
    exact (hbr off _ (.inr (.inr (.inr rfl))) rfl h hlt).elim
  | bx rm => exact h.elim
  | other hw =>
    replace h : (narrowFlow pos (hw / 256) (hw % 256)).Allows _ _ _ pos' := h
    replace ht : narrowFlow pos (hw / 256) (hw % 256) ≠ .unknown := ht
    unfold narrowFlow at h ht
    split at h
    · exact h.elim
    · split at h
      · rcases h with h | ⟨h, _⟩ <;> omega
      · split at h
        · rename_i h1 h2 h3
          rw [if_neg h1, if_neg h2, if_pos h3] at ht
          exact absurd rfl ht
        · have : pos' = _ := h
          omega
  | otherW hw1 hw2 =>
    cases hf : Instr.flow pos (.otherW hw1 hw2) with
    | next =>
      rw [hf] at h
      have : pos' = _ := h
      omega
    | goto t =>
      have hf' : wideFlow hw1 hw2 = .goto t := hf
      unfold wideFlow at hf'
      simp only at hf'
      repeat' split at hf'
      all_goals simp at hf'
    | either t =>
      have hf' : wideFlow hw1 hw2 = .either t := hf
      unfold wideFlow at hf'
      simp only at hf'
      repeat' split at hf'
      all_goals simp at hf'
    | forward =>
      rw [hf] at h
      obtain ⟨h, _⟩ := h
      omega
    | leave =>
      rw [hf] at h
      exact h.elim
    | unknown => exact absurd hf ht
  | _ =>
    have : pos' = _ := h
    omega

/-- The depth is at most what the instructions before take, if no instruction that an execution gets to sets SP or
PC from elsewhere. -/
theorem CodeRuns.le_taken_of {items : List CodeItem}
    (tame : ∀ pos d i, CodeRuns items pos d → InstrAt items pos i →
      (i.spEffect ≠ .unknown ∨ i.flow pos = .leave) ∧ i.flow pos ≠ .unknown)
    (hnb : ∀ pos i off, InstrAt items pos i → i.IsBranch off →
      ¬ (0 ≤ (pos : Int) + 4 + off ∧ (pos : Int) + 4 + off < (codeBytes items).length))
    {pos : Nat} {d : Int} (h : CodeRuns items pos d) : d ≤ takenBefore (instrsAt 0 items) pos := by
  induction h with
  | entry => omega
  | @step pos pos' d d' hprev hs ih =>
    generalize ha : (pos, d) = a at hs
    generalize hb : (pos', d') = b at hs
    cases hs with
    | @run p p' e e' i hi hsp hfl =>
      simp only [Prod.mk.injEq] at ha hb
      obtain ⟨rfl, rfl⟩ := ha
      obtain ⟨rfl, rfl⟩ := hb
      obtain ⟨t1, t2⟩ := tame _ _ _ hprev hi
      rcases t1 with t1 | t1
      · have h1 := hsp.le t1
        have h2 := takenBefore_step (instrAt_iff.mp hi) (hfl.lt (fun off hb => hnb _ _ off hi hb) t2)
        omega
      · rw [t1] at hfl
        exact hfl.elim
    | @pass p e i hi =>
      simp only [Prod.mk.injEq] at ha hb
      obtain ⟨rfl, rfl⟩ := ha
      obtain ⟨rfl, rfl⟩ := hb
      have h2 := takenBefore_mono (instrsAt 0 items) (Nat.le_add_right pos (2 * i.encode.length))
      omega

theorem CodeRuns.le_taken {items : List CodeItem} (tame : TameCode items)
    (hnb : ∀ pos i off, InstrAt items pos i → i.IsBranch off →
      ¬ (0 ≤ (pos : Int) + 4 + off ∧ (pos : Int) + 4 + off < (codeBytes items).length))
    {pos : Nat} {d : Int} (h : CodeRuns items pos d) : d ≤ takenBefore (instrsAt 0 items) pos :=
  h.le_taken_of (fun _ _ _ _ hi => ⟨.inl (tame _ _ hi).1, (tame _ _ hi).2⟩) hnb

/-- Without instructions that take stack, none is in use, loops or not. -/
theorem CodeRuns.le_zero_of {items : List CodeItem}
    (tame : ∀ pos d i, CodeRuns items pos d → InstrAt items pos i → i.spEffect ≠ .unknown ∨ i.flow pos = .leave)
    (hno : ∀ i ∈ codeInstrs items, ∀ n, i.lowers ≠ some n)
    {pos : Nat} {d : Int} (h : CodeRuns items pos d) : d ≤ 0 := by
  induction h with
  | entry => omega
  | @step pos pos' d d' hprev hs ih =>
    generalize ha : (pos, d) = a at hs
    generalize hb : (pos', d') = b at hs
    cases hs with
    | @run p p' e e' i hi hsp hfl =>
      simp only [Prod.mk.injEq] at ha hb
      obtain ⟨rfl, rfl⟩ := ha
      obtain ⟨rfl, rfl⟩ := hb
      rcases tame _ _ _ hprev hi with t1 | t1
      · have h1 := hsp.le t1
        have h2 : i.lowers = none := by
          cases hl : i.lowers with
          | none => rfl
          | some n =>
            refine absurd hl (hno i ?_ n)
            rw [← instrsAt_snd items 0]
            exact List.mem_map.mpr ⟨_, instrAt_iff.mp hi, rfl⟩
        unfold Instr.takes at h1
        rw [h2] at h1
        simp at h1
        omega
      · rw [t1] at hfl
        exact hfl.elim
    | @pass p e i hi =>
      simp only [Prod.mk.injEq] at ha hb
      obtain ⟨rfl, rfl⟩ := ha
      obtain ⟨rfl, rfl⟩ := hb
      exact ih

theorem CodeRuns.le_zero {items : List CodeItem} (tame : TameCode items)
    (hno : ∀ i ∈ codeInstrs items, ∀ n, i.lowers ≠ some n)
    {pos : Nat} {d : Int} (h : CodeRuns items pos d) : d ≤ 0 :=
  h.le_zero_of (fun _ _ _ _ hi => .inl (tame _ _ hi).1) hno

/-- After an instruction that sets SP from elsewhere, and does not leave the function, any depth is possible. -/
theorem CodeRuns.any_depth {items : List CodeItem} {pos : Nat} {d : Int} {i : Instr} (h : CodeRuns items pos d)
    (hi : InstrAt items pos i) (hu : i.spEffect = .unknown) (hl : i.flow pos ≠ .leave) (d' : Int) :
    ∃ pos', CodeRuns items pos' d' := by
  have hsp : i.spEffect.Allows d d' := by rw [hu]; trivial
  cases hf : i.flow pos with
  | next => exact ⟨_, .step h (.run hi hsp (by rw [hf]; exact rfl))⟩
  | either t => exact ⟨_, .step h (.run hi hsp (by rw [hf]; exact .inl rfl))⟩
  | leave => exact absurd hf hl
  | unknown =>
    refine ⟨pos, .step h (.run hi hsp ?_)⟩
    rw [hf]
    obtain ⟨pre, post, rfl, rfl⟩ := hi
    show (codeBytes pre).length < _
    have := encode_pos i
    rw [codeBytes_length, codeBytes_length, List.flatMap_append, List.flatMap_cons]
    have h2 : (CodeItem.instr i).halfwords.length = i.encode.length := rfl
    simp only [List.length_append, h2]
    omega
  | goto t =>
    exfalso
    cases i with
    | b2 off | b4 off => simp [Instr.spEffect] at hu
    | other hw =>
      simp only [Instr.flow, narrowFlow] at hf
      split_ifs at hf
    | otherW hw1 hw2 =>
      simp only [Instr.flow, wideFlow] at hf
      split_ifs at hf
    | _ => simp [Instr.flow] at hf
  | forward =>
    exfalso
    cases i with
    | other hw =>
      simp only [Instr.flow, narrowFlow] at hf
      split_ifs at hf
    | otherW hw1 hw2 =>
      simp only [Instr.flow, wideFlow] at hf
      split_ifs at hf with h1 h2 h3 h4 h5 h6
      simp only [Instr.spEffect, wideSp] at hu
      have e1 : hw1 / 2 ^ 9 = 0x74 := by omega
      have e2 : ¬ (hw1 % 16 = 13 ∧ hw1 / 32 % 2 = 1) := by omega
      have e3 : ¬ (hw1 / 64 % 2 = 0 ∧ hw1 / 16 % 2 = 1 ∧ hw2 / 2 ^ 13 % 2 = 1) := by omega
      rw [if_pos e1, if_neg e2, if_neg e3] at hu
      simp at hu
    | _ => simp [Instr.flow] at hf

theorem codeBytes_snoc (l : List CodeItem) (item : CodeItem) :
    (codeBytes (l ++ [item])).length = (codeBytes l).length + 2 * item.halfwords.length := by
  rw [codeBytes_length, codeBytes_length, List.flatMap_append, List.length_append]
  simp [Nat.mul_add]

/-- An instruction that does not give up stack and may be followed by the next one. -/
def Instr.Straight (i : Instr) : Prop :=
  (i.spEffect = .keep ∨ ∃ n, i.spEffect = .lowers n) ∧ ∀ pos, i.flow pos = .next ∨ ∃ t, i.flow pos = .either t

theorem codeRuns_straight {items : List CodeItem} (pre : List Instr) (post : List CodeItem)
    (hs : items = pre.map .instr ++ post) (hpre : ∀ i ∈ pre, i.Straight) :
    CodeRuns items (codeBytes (pre.map .instr)).length ((pre.filterMap Instr.lowers).sum : Nat) := by
  suffices h : ∀ pre1 pre2 : List Instr, pre = pre1 ++ pre2 →
      CodeRuns items (codeBytes (pre1.map .instr)).length ((pre1.filterMap Instr.lowers).sum : Nat) by
    exact h pre [] (by simp)
  intro pre1
  induction pre1 using List.reverseRecOn with
  | nil =>
    intro _ _
    exact .entry
  | append_singleton pre1 i ih =>
    intro pre2 hp
    have hi : i ∈ pre := by rw [hp]; simp
    obtain ⟨h1, h2⟩ := hpre i hi
    have hat : InstrAt items (codeBytes (pre1.map CodeItem.instr)).length i := by
      refine ⟨pre1.map .instr, pre2.map .instr ++ post, ?_, rfl⟩
      rw [hs, hp]
      simp
    refine .step (ih (i :: pre2) (by rw [hp]; simp)) (.run hat ?_ ?_)
    · rw [List.filterMap_append, List.sum_append]
      rcases h1 with h1 | ⟨n, h1⟩
      · have hl : i.lowers = none := by
          cases hl : i.lowers with
          | none => rfl
          | some n => rw [spEffect_lowers.mpr hl] at h1; simp at h1
        rw [h1]
        simp [SpEffect.Allows, hl]
      · rw [h1]
        simp [SpEffect.Allows, spEffect_lowers.mp h1]
    · rw [List.map_append, List.map_cons, List.map_nil, codeBytes_snoc]
      have hlen : (CodeItem.instr i).halfwords.length = i.encode.length := rfl
      rcases h2 (codeBytes (pre1.map CodeItem.instr)).length with h2 | ⟨t, h2⟩
      · rw [h2, hlen]
        exact rfl
      · rw [h2, hlen]
        exact Or.inl rfl

end CallStack
