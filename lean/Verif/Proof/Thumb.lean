import Verif.Proof.ThumbBits

/-!
The machine code analysis, instruction by instruction.
-/

namespace CallStack

/-! ### The patterns of 32-bit instructions -/

theorem pat_stmdb1 : ∀ lo hi, matchesPat (lo, hi) c!"0b11101_00_100_x_0_xxxx" =
    ((hi &&& 0xFF == 0xE9) && (lo &&& 0xD0 == 0)) := fun _ _ => rfl
theorem pat_stmdb2 : ∀ lo hi, matchesPat (lo, hi) c!"0b0_x_0_xxxxxxxxxxxxx" =
    ((hi &&& 0xA0 == 0) && (lo &&& 0 == 0)) := fun _ _ => rfl
theorem pat_subW1 : ∀ lo hi, matchesPat (lo, hi) c!"0b11110_x_0_1101_x_1101" =
    ((hi &&& 0xFB == 0xF1) && (lo &&& 0xEF == 0xAD)) := fun _ _ => rfl
theorem pat_subW2 : ∀ lo hi, matchesPat (lo, hi) c!"0b0_xxx_xxxx_xxxxxxxx" =
    ((hi &&& 0x80 == 0) && (lo &&& 0 == 0)) := fun _ _ => rfl
theorem pat_vpush1 : ∀ lo hi, matchesPat (lo, hi) c!"0b1110_110_1_0_x_1_0_1101" =
    ((hi &&& 0xFF == 0xED) && (lo &&& 0xBF == 0x2D)) := fun _ _ => rfl
theorem pat_vpushD : ∀ lo hi, matchesPat (lo, hi) c!"0bxxxx_1011_xxxxxxxx" =
    ((hi &&& 0xF == 0xB) && (lo &&& 0 == 0)) := fun _ _ => rfl
theorem pat_vpushS : ∀ lo hi, matchesPat (lo, hi) c!"0bxxxx_1010_xxxxxxxx" =
    ((hi &&& 0xF == 0xA) && (lo &&& 0 == 0)) := fun _ _ => rfl
theorem pat_b1 : ∀ lo hi, matchesPat (lo, hi) c!"0b11110_x_xxxxxxxxxx" =
    ((hi &&& 0xF8 == 0xF0) && (lo &&& 0 == 0)) := fun _ _ => rfl
theorem pat_b3 : ∀ lo hi, matchesPat (lo, hi) c!"0b10_x_0_x_xxxxxxxxxxx" =
    ((hi &&& 0xD0 == 0x80) && (lo &&& 0 == 0)) := fun _ _ => rfl
theorem pat_b4 : ∀ lo hi, matchesPat (lo, hi) c!"0b10_x_1_x_xxxxxxxxxxx" =
    ((hi &&& 0xD0 == 0x90) && (lo &&& 0 == 0)) := fun _ _ => rfl
theorem pat_bl : ∀ lo hi, matchesPat (lo, hi) c!"0b11_x_1_x_xxxxxxxxxxx" =
    ((hi &&& 0xD0 == 0xD0) && (lo &&& 0 == 0)) := fun _ _ => rfl
theorem pat_str1 : ∀ lo hi, matchesPat (lo, hi) c!"0b11111_0000100_xxxx" =
    ((hi &&& 0xFF == 0xF8) && (lo &&& 0xF0 == 0x40)) := fun _ _ => rfl
theorem pat_str2 : ∀ lo hi, matchesPat (lo, hi) c!"0bxxxx_1x01_xxxxxxxx" =
    ((hi &&& 0xB == 9) && (lo &&& 0 == 0)) := fun _ _ => rfl

theorem byte_FF (v : Nat) (x : Nat) (h : x < 256) : (x &&& 0xFF == v) = decide (x = v) := by
  rw [byte_and255 x h]
  rfl
theorem byte_D0 : ∀ x < 256, (x &&& 0xD0 == 0) = decide (x / 64 = 0 ∧ x / 16 % 2 = 0) := by
  decide +kernel
theorem byte_A0 : ∀ x < 256, (x &&& 0xA0 == 0) = decide (x / 128 = 0 ∧ x / 32 % 2 = 0) := by
  decide +kernel
theorem byte_FB : ∀ x < 256, (x &&& 0xFB == 0xF1) = decide (x = 0xF1 ∨ x = 0xF5) := by
  decide +kernel
theorem byte_EF : ∀ x < 256, (x &&& 0xEF == 0xAD) = decide (x = 0xAD ∨ x = 0xBD) := by
  decide +kernel
theorem byte_80 : ∀ x < 256, (x &&& 0x80 == 0) = decide (x < 128) := by decide +kernel
theorem byte_BF : ∀ x < 256, (x &&& 0xBF == 0x2D) = decide (x = 0x2D ∨ x = 0x6D) := by
  decide +kernel
theorem byte_FB' : ∀ x < 256, (x &&& 0xF == 0xB) = decide (x % 16 = 11) := by decide +kernel
theorem byte_FA : ∀ x < 256, (x &&& 0xF == 0xA) = decide (x % 16 = 10) := by decide +kernel
theorem byte_F8 : ∀ x < 256, (x &&& 0xF8 == 0xF0) = decide (x / 8 = 30) := by decide +kernel
theorem byte_D080 : ∀ x < 256, (x &&& 0xD0 == 0x80) = decide (x / 64 = 2 ∧ x / 16 % 2 = 0) := by
  decide +kernel
theorem byte_D090 : ∀ x < 256, (x &&& 0xD0 == 0x90) = decide (x / 64 = 2 ∧ x / 16 % 2 = 1) := by
  decide +kernel
theorem byte_D0D0 : ∀ x < 256, (x &&& 0xD0 == 0xD0) = decide (x / 64 = 3 ∧ x / 16 % 2 = 1) := by
  decide +kernel
theorem byte_F040 : ∀ x < 256, (x &&& 0xF0 == 0x40) = decide (x / 16 = 4) := by decide +kernel
theorem byte_B9 : ∀ x < 256, (x &&& 0xB == 9) = decide (x / 8 % 2 = 1 ∧ x % 4 = 1) := by
  decide +kernel
theorem byte_00 (x : Nat) : (x &&& 0 == 0) = true := by simp

theorem decode32_eq (v7 : Bool) {lo1 hi1 lo2 hi2 : Nat} (l1 : lo1 < 256) (h1 : hi1 < 256)
    (h2 : hi2 < 256) :
    decode32 v7 (lo1, hi1) (lo2, hi2) =
      if v7 = true ∧ (hi1 = 0xE9 ∧ lo1 / 64 = 0 ∧ lo1 / 16 % 2 = 0) ∧
          (hi2 / 128 = 0 ∧ hi2 / 32 % 2 = 0) then .stmdb
      else if v7 = true ∧ ((hi1 = 0xF1 ∨ hi1 = 0xF5) ∧ (lo1 = 0xAD ∨ lo1 = 0xBD)) ∧
          hi2 < 128 then .subW
      else if v7 = true ∧ (hi1 = 0xED ∧ (lo1 = 0x2D ∨ lo1 = 0x6D)) ∧ hi2 % 16 = 11 then .vpush
      else if v7 = true ∧ (hi1 = 0xED ∧ (lo1 = 0x2D ∨ lo1 = 0x6D)) ∧ hi2 % 16 = 10 then .vpush
      else if v7 = true ∧ hi1 / 8 = 30 ∧ hi2 / 64 = 2 ∧ hi2 / 16 % 2 = 0 then .bT3
      else if v7 = true ∧ hi1 / 8 = 30 ∧ hi2 / 64 = 2 ∧ hi2 / 16 % 2 = 1 then .bT4
      else if hi1 / 8 = 30 ∧ hi2 / 64 = 3 ∧ hi2 / 16 % 2 = 1 then .bl
      else if (hi1 = 0xF8 ∧ lo1 / 16 = 4) ∧ hi2 / 8 % 2 = 1 ∧ hi2 % 4 = 1 then .strT4
      else .other := by
  unfold decode32
  rw [pat_stmdb1, pat_stmdb2, pat_subW1, pat_subW2, pat_vpush1, pat_vpushD, pat_vpushS, pat_b1,
    pat_b3, pat_b4, pat_bl, pat_str1, pat_str2]
  simp only [byte_00, Bool.and_true]
  rw [byte_FF _ _ h1, byte_D0 _ l1, byte_A0 _ h2, byte_FB _ h1, byte_EF _ l1,
    byte_80 _ h2, byte_FF _ _ h1, byte_BF _ l1, byte_FB' _ h2, byte_FA _ h2,
    byte_F8 _ h1, byte_D080 _ h2, byte_D090 _ h2, byte_D0D0 _ h2, byte_FF _ _ h1,
    byte_F040 _ l1, byte_B9 _ h2]
  simp only [Bool.and_eq_true, decide_eq_true_eq, and_assoc]

/-! ### One instruction -/

def halfOf (hw : Nat) : Half := (hw % 256, hw / 256)

/-- The effect of an instruction at offset `pos` on the results. -/
def Instr.effect (len pos : Nat) (i : Instr) (st : ThumbState) : ThumbState :=
  { bls := st.bls ++ (i.calls pos).toList
    bs := st.bs ++ (i.branches pos).toList
    indirect := st.indirect || i.throughRegister
    modifiesSp := st.modifiesSp || i.lowers.isSome
    stack :=
      if (i.branches pos).any (fun t : Int => decide (0 ≤ t ∧ t < (len : Int))) then none
      else st.stack.map (· + i.lowers.getD 0) }

theorem branch_eq (st : ThumbState) (len : Nat) (t : Int) :
    st.branch len t =
      { bls := st.bls, bs := st.bs ++ [t], indirect := st.indirect, modifiesSp := st.modifiesSp
        stack := if 0 ≤ t ∧ t < len then none else st.stack } := rfl

theorem map_add_zero (o : Option Nat) : o.map (· + 0) = o := by cases o <;> rfl

/-- What the code does with the halfwords of an instruction. -/
def stepHalfs (v7 : Bool) (len k : Nat) (hws : List Nat) (st st' : ThumbState) : Prop :=
  (∃ hw act, hws = [hw] ∧ decode16 v7 (halfOf hw) = some act ∧
    step16 len k (halfOf hw) st act = st') ∨
  (∃ hw1 hw2, hws = [hw1, hw2] ∧ decode16 v7 (halfOf hw1) = none ∧
    step32 len k (halfOf hw1) (halfOf hw2) st (decode32 v7 (halfOf hw1) (halfOf hw2)) = st')

theorem effect_branch {i : Instr} {len pos : Nat} {t : Int} {st : ThumbState}
    (hc : i.calls pos = none) (hb : i.branches pos = some t) (hr : i.throughRegister = false)
    (hl : i.lowers = none) : st.branch len t = i.effect len pos st := by
  unfold Instr.effect
  rw [hc, hb, hr, hl, branch_eq]
  simp only [Option.toList_none, Option.toList_some, List.append_nil, Bool.or_false,
    Option.isSome_none, Option.any_some, decide_eq_true_eq, Option.getD_none, map_add_zero]

theorem effect_lowers {i : Instr} {len pos n : Nat} {st : ThumbState}
    (hc : i.calls pos = none) (hb : i.branches pos = none) (hr : i.throughRegister = false)
    (hl : i.lowers = some n) : st.subSp n = i.effect len pos st := by
  unfold Instr.effect
  rw [hc, hb, hr, hl]
  simp [ThumbState.subSp]

theorem effect_none {i : Instr} {len pos : Nat} {st : ThumbState}
    (hc : i.calls pos = none) (hb : i.branches pos = none) (hr : i.throughRegister = false)
    (hl : i.lowers = none) : st = i.effect len pos st := by
  unfold Instr.effect
  rw [hc, hb, hr, hl]
  simp

theorem wide_none (v7 : Bool) {hw : Nat} (h : hw < 65536) (h' : 0xE800 ≤ hw) :
    decode16 v7 (halfOf hw) = none :=
  decode16_none _ (hi_wide v7 _ (by omega) (by omega))

theorem encLong_shape {op : Nat} (off : Int) (hop : op = 0xD000 ∨ op = 0x9000) :
    ∃ hw1 hw2, encLong op off = [hw1, hw2] ∧ 0xF000 ≤ hw1 ∧ hw1 < 0xF800 ∧ hw2 < 65536 ∧
      hw2 / 2 ^ 14 = op / 2 ^ 14 ∧ hw2 / 2 ^ 12 % 2 = 1 := by
  generalize hu' : (off % 2 ^ 25).toNat = u
  have hs1 : u / 2 ^ 24 ≤ 1 := by omega
  have hs4 : u / 2 ^ 12 % 2 ^ 10 < 2 ^ 10 := by omega
  have hs5 : u / 2 % 2 ^ 11 < 2 ^ 11 := by omega
  have hj : ∀ a b : Nat, (if a = b then 1 else 0) ≤ 1 := fun a b => by split <;> omega
  have hj1 := hj (u / 2 ^ 23 % 2) (u / 2 ^ 24)
  have hj2 := hj (u / 2 ^ 22 % 2) (u / 2 ^ 24)
  refine ⟨_, _, rfl, ?_⟩
  simp only [hu']
  generalize (if u / 2 ^ 23 % 2 = u / 2 ^ 24 then 1 else 0) = j1 at *
  generalize (if u / 2 ^ 22 % 2 = u / 2 ^ 24 then 1 else 0) = j2 at *
  generalize u / 2 ^ 24 = s at *
  generalize u / 2 ^ 12 % 2 ^ 10 = imm10 at *
  generalize u / 2 % 2 ^ 11 = imm11 at *
  clear hu' hj
  rcases hop with h | h <;> subst h <;> omega

theorem encB3_shape {cond : Nat} (off : Int) (hc : cond < 16) :
    ∃ hw1 hw2, encB3 cond off = [hw1, hw2] ∧ 0xF000 ≤ hw1 ∧ hw1 < 0xF800 ∧
      hw1 / 2 ^ 6 % 16 = cond ∧ hw2 < 65536 ∧
      hw2 / 2 ^ 14 = 2 ∧ hw2 / 2 ^ 12 % 2 = 0 := by
  generalize hu' : (off % 2 ^ 21).toNat = u
  have hs1 : u / 2 ^ 20 ≤ 1 := by omega
  have hs2 : u / 2 ^ 19 % 2 ≤ 1 := by omega
  have hs3 : u / 2 ^ 18 % 2 ≤ 1 := by omega
  have hs4 : u / 2 ^ 12 % 2 ^ 6 < 2 ^ 6 := by omega
  have hs5 : u / 2 % 2 ^ 11 < 2 ^ 11 := by omega
  refine ⟨_, _, rfl, ?_⟩
  simp only [hu']
  generalize u / 2 ^ 20 = s at *
  generalize u / 2 ^ 19 % 2 = j2 at *
  generalize u / 2 ^ 18 % 2 = j1 at *
  generalize u / 2 ^ 12 % 2 ^ 6 = imm6 at *
  generalize u / 2 % 2 ^ 11 = imm11 at *
  clear hu'
  omega

theorem effect_bl {len pos : Nat} {st : ThumbState} {off : Int} :
    { st with bls := st.bls ++ [(pos : Int) + 4 + off] } = (Instr.bl off).effect len pos st := by
  simp [Instr.effect, Instr.calls, Instr.branches, Instr.throughRegister, Instr.lowers]

theorem effect_register {i : Instr} {len pos : Nat} {st : ThumbState}
    (hc : i.calls pos = none) (hb : i.branches pos = none) (hr : i.throughRegister = true)
    (hl : i.lowers = none) : { st with indirect := true } = i.effect len pos st := by
  unfold Instr.effect
  rw [hc, hb, hr, hl]
  simp

theorem step_bl (v7 : Bool) (len k : Nat) (st : ThumbState) {off : Int}
    (h2 : off % 2 = 0) (hl : -2 ^ 24 ≤ off) (hu : off < 2 ^ 24) :
    stepHalfs v7 len k (Instr.bl off).encode st ((Instr.bl off).effect len (2 * k) st) := by
  right
  obtain ⟨hw1, hw2, he, s1, s2, s3, s4, s5⟩ := encLong_shape off (Or.inl rfl)
  refine ⟨hw1, hw2, he, wide_none v7 (by omega) (by omega), ?_⟩
  have key := (offLong_eq k h2 hl hu (Or.inl rfl) he).1
  unfold halfOf
  rw [decode32_eq v7 (by omega) (by omega) (by omega)]
  rw [if_neg (by omega), if_neg (by omega), if_neg (by omega), if_neg (by omega),
    if_neg (by omega), if_neg (by omega), if_pos (by omega)]
  simp only [step32, key]
  exact effect_bl (pos := 2 * k)

theorem step_b4 (len k : Nat) (st : ThumbState) {off : Int}
    (h2 : off % 2 = 0) (hl : -2 ^ 24 ≤ off) (hu : off < 2 ^ 24) :
    stepHalfs true len k (Instr.b4 off).encode st ((Instr.b4 off).effect len (2 * k) st) := by
  right
  obtain ⟨hw1, hw2, he, s1, s2, s3, s4, s5⟩ := encLong_shape off (Or.inr rfl)
  refine ⟨hw1, hw2, he, wide_none true (by omega) (by omega), ?_⟩
  have key := (offLong_eq k h2 hl hu (Or.inr rfl) he).2
  unfold halfOf
  rw [decode32_eq true (by omega) (by omega) (by omega)]
  rw [if_neg (by omega), if_neg (by omega), if_neg (by omega), if_neg (by omega),
    if_neg (by omega), if_pos ⟨rfl, by omega⟩]
  simp only [step32, key]
  exact effect_branch (pos := 2 * k) rfl rfl rfl rfl

/-- B T3, with the offset as the code computes it. -/
theorem step_b3_swapped (len k : Nat) (st : ThumbState) {off : Int} {cond : Nat} (hc : cond < 14)
    (h2 : off % 2 = 0) (hl : -2 ^ 20 ≤ off) (hu : off < 2 ^ 20) :
    stepHalfs true len k (Instr.b3 cond off).encode st
      (st.branch len (2 * k + 4 + swap1819 off)) := by
  right
  obtain ⟨hw1, hw2, he, s1, s2, s3, s4, s5, s6⟩ := encB3_shape off (show cond < 16 by omega)
  refine ⟨hw1, hw2, he, wide_none true (by omega) (by omega), ?_⟩
  have key := offB3_eq k h2 (by omega) hl hu he
  unfold halfOf
  rw [decode32_eq true (by omega) (by omega) (by omega)]
  rw [if_neg (by omega), if_neg (by omega), if_neg (by omega), if_neg (by omega),
    if_pos ⟨rfl, by omega⟩]
  simp only [step32, key]
  rw [byte_and3 _ (by omega), byte_shr6 _ (by omega), shiftLeft_mul,
    or_eq_add 2 (by omega) (by omega), Nat.shiftRight_eq_div_pow, if_neg (by omega)]

theorem step_b3 (len k : Nat) (st : ThumbState) {off : Int} {cond : Nat} (hc : cond < 14)
    (h2 : off % 2 = 0) (hl : -2 ^ 20 ≤ off) (hu : off < 2 ^ 20)
    (hj : off / 2 ^ 18 % 2 = off / 2 ^ 19 % 2) :
    stepHalfs true len k (Instr.b3 cond off).encode st
      ((Instr.b3 cond off).effect len (2 * k) st) := by
  have hsw : swap1819 off = off := by unfold swap1819; rw [hj]; omega
  have := step_b3_swapped len k st hc h2 hl hu
  rw [hsw] at this
  have e : st.branch len (2 * k + 4 + off) = (Instr.b3 cond off).effect len (2 * k) st :=
    effect_branch (pos := 2 * k) rfl rfl rfl rfl
  rwa [e] at this

theorem step_b1 (v7 : Bool) (len k : Nat) (st : ThumbState) {off : Int} {cond : Nat}
    (hc : cond < 14) (h2 : off % 2 = 0) (hl : -2 ^ 8 ≤ off) (hu : off < 2 ^ 8) :
    stepHalfs v7 len k (Instr.b1 cond off).encode st
      ((Instr.b1 cond off).effect len (2 * k) st) := by
  left
  refine ⟨_, .bT1, rfl, decode16_of_firstHi _ (hi_b1 v7 _ (by omega) (by omega) (by omega)), ?_⟩
  simp only [step16, halfOf, offB1_eq cond k h2 hl hu]
  exact effect_branch (pos := 2 * k) rfl rfl rfl rfl

theorem step_b2 (v7 : Bool) (len k : Nat) (st : ThumbState) {off : Int}
    (h2 : off % 2 = 0) (hl : -2 ^ 11 ≤ off) (hu : off < 2 ^ 11) :
    stepHalfs v7 len k (Instr.b2 off).encode st ((Instr.b2 off).effect len (2 * k) st) := by
  left
  refine ⟨_, .bT2, rfl, decode16_of_firstHi _ (hi_b2 v7 _ (by omega) (by omega) (by omega)), ?_⟩
  simp only [step16, halfOf, offB2_eq k h2 hl hu]
  exact effect_branch (pos := 2 * k) rfl rfl rfl rfl

theorem step_blx (v7 : Bool) (len k : Nat) (st : ThumbState) {rm : Nat} (h : rm < 16) :
    stepHalfs v7 len k (Instr.blx rm).encode st ((Instr.blx rm).effect len (2 * k) st) := by
  left
  refine ⟨_, .blx, rfl, ?_, ?_⟩
  · unfold halfOf
    rw [show (0x4780 + rm * 8) / 256 = 0x47 by omega,
      show (0x4780 + rm * 8) % 256 = 0x80 + rm * 8 by omega, decode16_eq]
    exact hi_blx v7 rm h
  · exact effect_register rfl rfl rfl rfl

theorem step_bx (v7 : Bool) (len k : Nat) (st : ThumbState) {rm : Nat} (h : rm < 16) :
    stepHalfs v7 len k (Instr.bx rm).encode st ((Instr.bx rm).effect len (2 * k) st) := by
  left
  refine ⟨_, .bx, rfl, ?_, ?_⟩
  · unfold halfOf
    rw [show (0x4700 + rm * 8) / 256 = 0x47 by omega,
      show (0x4700 + rm * 8) % 256 = rm * 8 by omega, decode16_eq]
    exact hi_bx v7 rm h
  · unfold halfOf
    simp only [step16]
    rw [byte_shr3 _ (by omega), show (0x4700 + rm * 8) % 256 / 8 % 16 = rm by omega]
    by_cases hr : rm = 14
    · subst hr
      exact effect_none rfl rfl rfl rfl
    · have : (rm != 14) = true := by simpa using hr
      rw [if_pos this]
      exact effect_register rfl rfl this rfl

theorem flag_le (b : Bool) : flag b ≤ 1 := by cases b <;> decide

theorem step_push (v7 : Bool) (len k : Nat) (st : ThumbState) {regs : Nat} (lr : Bool)
    (h : regs < 2 ^ 8) :
    stepHalfs v7 len k (Instr.push regs lr).encode st
      ((Instr.push regs lr).effect len (2 * k) st) := by
  left
  have hf := flag_le lr
  refine ⟨_, .push, rfl, decode16_of_firstHi _ (hi_push v7 _ (by omega) (by omega)), ?_⟩
  unfold halfOf
  simp only [step16]
  rw [byte_and1 _ (by omega), show (0xB400 + flag lr * 256 + regs) / 256 % 2 = flag lr by omega,
    show (0xB400 + flag lr * 256 + regs) % 256 = regs by omega, popcount_push lr regs h]
  exact effect_lowers rfl rfl rfl rfl

theorem step_subSp (v7 : Bool) (len k : Nat) (st : ThumbState) {imm7 : Nat} (h : imm7 < 2 ^ 7) :
    stepHalfs v7 len k (Instr.subSp imm7).encode st
      ((Instr.subSp imm7).effect len (2 * k) st) := by
  left
  refine ⟨_, .subSp, rfl, ?_, ?_⟩
  · unfold halfOf
    rw [show (0xB080 + imm7) / 256 = 0xB0 by omega,
      show (0xB080 + imm7) % 256 = 128 + imm7 by omega, decode16_eq]
    exact hi_subSp v7 _ (by omega) (by omega)
  · unfold halfOf
    simp only [step16]
    rw [byte_and127 _ (by omega), show (0xB080 + imm7) % 256 % 128 = imm7 by omega, shiftLeft_mul,
      Nat.mul_comm]
    exact effect_lowers rfl rfl rfl rfl

theorem step_pushW (len k : Nat) (st : ThumbState) {regs : Nat} (lr : Bool) (h : regs < 2 ^ 13) :
    stepHalfs true len k (Instr.pushW regs lr).encode st
      ((Instr.pushW regs lr).effect len (2 * k) st) := by
  right
  have hf := flag_le lr
  refine ⟨_, _, rfl, wide_none true (by decide) (by decide), ?_⟩
  unfold halfOf
  rw [decode32_eq true (by omega) (by omega) (by omega), if_pos ⟨rfl, by omega⟩]
  simp only [step32]
  rw [byte_and15 _ (by omega), if_pos (by omega), byte_shr6' _ (by omega), byte_and31 _ (by omega),
    show (flag lr * 2 ^ 14 + regs) / 256 / 64 % 2 = flag lr by omega, shiftLeft_mul, shiftLeft_mul,
    or_eq_add (x := (flag lr * 2 ^ 14 + regs) / 256 % 32 * 2 ^ 8) 8 (by omega) (by omega),
    show (flag lr * 2 ^ 14 + regs) / 256 % 32 * 2 ^ 8 + (flag lr * 2 ^ 14 + regs) % 256 = regs by
      omega,
    or_eq_add 14 (by omega) (by omega), popcount_pushW lr h]
  exact effect_lowers rfl rfl rfl rfl

theorem step_subSpW (len k : Nat) (st : ThumbState) {imm12 : Nat} (s : Bool)
    (h : imm12 < 2 ^ 12) (h1 : imm12 / 256 ≠ 1) :
    stepHalfs true len k (Instr.subSpW s imm12).encode st
      ((Instr.subSpW s imm12).effect len (2 * k) st) := by
  right
  have hf := flag_le s
  refine ⟨_, _, rfl, wide_none true (by omega) (by omega), ?_⟩
  have hi1 : (0xF1AD + imm12 / 2 ^ 11 * 2 ^ 10 + flag s * 16) / 256 =
      0xF1 + imm12 / 2 ^ 11 * 4 := by omega
  have lo1 : (0xF1AD + imm12 / 2 ^ 11 * 2 ^ 10 + flag s * 16) % 256 = 0xAD + flag s * 16 := by omega
  have hi2 : (imm12 / 256 % 8 * 2 ^ 12 + 0xD00 + imm12 % 256) / 256 =
      imm12 / 256 % 8 * 16 + 13 := by omega
  have lo2 : (imm12 / 256 % 8 * 2 ^ 12 + 0xD00 + imm12 % 256) % 256 = imm12 % 256 := by omega
  unfold halfOf
  rw [hi1, lo1, hi2, lo2]
  clear hi1 lo1 hi2 lo2
  rw [decode32_eq true (by omega) (by omega) (by omega), if_neg (by omega),
    if_pos ⟨rfl, by omega⟩]
  simp only [step32]
  rw [byte_and15 _ (by omega), if_pos (by omega), byte_bit2' _ (by omega), byte_shr4 _ (by omega),
    show (0xF1 + imm12 / 2 ^ 11 * 4) / 4 % 2 = imm12 / 2 ^ 11 by omega,
    show (imm12 / 256 % 8 * 16 + 13) / 16 % 8 = imm12 / 256 % 8 by omega,
    shiftLeft_mul, shiftLeft_mul,
    or_eq_add (x := imm12 / 2 ^ 11 * 2 ^ 11) 11 (by omega) (by omega),
    or_eq_add 8 (by omega) (by omega),
    show imm12 / 2 ^ 11 * 2 ^ 11 + imm12 / 256 % 8 * 2 ^ 8 + imm12 % 256 = imm12 by omega,
    thumbExpandImm_eq h, if_neg h1]
  exact effect_lowers rfl rfl rfl rfl

theorem step_vpushD (len k : Nat) (st : ThumbState) {vd n : Nat} (d : Bool) (hv : vd < 16)
    (h : n < 2 ^ 7) :
    stepHalfs true len k (Instr.vpushD d vd n).encode st
      ((Instr.vpushD d vd n).effect len (2 * k) st) := by
  right
  have hf := flag_le d
  refine ⟨_, _, rfl, wide_none true (by omega) (by omega), ?_⟩
  unfold halfOf
  rw [decode32_eq true (by omega) (by omega) (by omega), if_neg (by omega), if_neg (by omega),
    if_pos ⟨rfl, by omega⟩]
  simp only [step32]
  rw [byte_and255 _ (by omega), shiftLeft_mul,
    show (vd * 2 ^ 12 + 0xB00 + 2 * n) % 256 * 2 ^ 2 = 8 * n by omega]
  exact effect_lowers rfl rfl rfl rfl

theorem step_vpushS (len k : Nat) (st : ThumbState) {vd n : Nat} (d : Bool) (hv : vd < 16)
    (h : n < 2 ^ 8) :
    stepHalfs true len k (Instr.vpushS d vd n).encode st
      ((Instr.vpushS d vd n).effect len (2 * k) st) := by
  right
  have hf := flag_le d
  refine ⟨_, _, rfl, wide_none true (by omega) (by omega), ?_⟩
  unfold halfOf
  rw [decode32_eq true (by omega) (by omega) (by omega), if_neg (by omega), if_neg (by omega),
    if_neg (by omega), if_pos ⟨rfl, by omega⟩]
  simp only [step32]
  rw [byte_and255 _ (by omega), shiftLeft_mul,
    show (vd * 2 ^ 12 + 0xA00 + n) % 256 * 2 ^ 2 = 4 * n by omega]
  exact effect_lowers rfl rfl rfl rfl

theorem step_strSp (v7 : Bool) (len k : Nat) (st : ThumbState) {rt imm8 : Nat} (pre : Bool)
    (hv : rt < 16) (h : imm8 < 2 ^ 8) :
    stepHalfs v7 len k (Instr.strSp rt pre imm8).encode st
      ((Instr.strSp rt pre imm8).effect len (2 * k) st) := by
  right
  have hf := flag_le pre
  refine ⟨_, _, rfl, wide_none v7 (by decide) (by decide), ?_⟩
  unfold halfOf
  rw [decode32_eq v7 (by omega) (by omega) (by omega), if_neg (by omega), if_neg (by omega),
    if_neg (by omega), if_neg (by omega), if_neg (by omega), if_neg (by omega), if_neg (by omega),
    if_pos (by omega)]
  simp only [step32]
  rw [byte_and15 _ (by omega), if_pos (by omega), byte_and255 _ (by omega),
    show (rt * 2 ^ 12 + 0x900 + flag pre * 0x400 + imm8) % 256 = imm8 by omega]
  exact effect_lowers rfl rfl rfl rfl

theorem step_other (v7 : Bool) (len k : Nat) (st : ThumbState) {hw : Nat}
    (h : plain16 v7 (hw / 256) (hw % 256) = true) :
    stepHalfs v7 len k (Instr.other hw).encode st ((Instr.other hw).effect len (2 * k) st) := by
  left
  exact ⟨hw, .skip, rfl, decode16_plain (by omega) h, effect_none rfl rfl rfl rfl⟩

theorem step_otherW (v7 : Bool) (len k : Nat) (st : ThumbState) {hw1 hw2 : Nat}
    (h : plain32 v7 hw1 hw2 = true) :
    stepHalfs v7 len k (Instr.otherW hw1 hw2).encode st
      ((Instr.otherW hw1 hw2).effect len (2 * k) st) := by
  unfold plain32 at h
  simp only [Bool.and_eq_true, decide_eq_true_eq, Bool.not_eq_true', Bool.and_eq_false_iff,
    Bool.or_eq_false_iff, decide_eq_false_iff_not, Bool.and_assoc] at h
  obtain ⟨hw, b1, b2, n1, n2, n3, n4, n5, n6, -⟩ := h
  have hw' : 0xE800 ≤ hw1 := by unfold Wide at hw; omega
  right
  refine ⟨hw1, hw2, rfl, wide_none v7 b1 hw', ?_⟩
  refine Eq.trans ?_ (effect_none (i := .otherW hw1 hw2) (len := len) (pos := 2 * k) (st := st)
    rfl rfl rfl rfl)
  unfold halfOf
  rw [decode32_eq v7 (by omega) (by omega) (by omega)]
  split
  · simp only [step32]
    rw [byte_and15 _ (by omega), if_neg]
    unfold stmdbSp at n4
    simp only [Bool.and_eq_false_iff, Bool.or_eq_false_iff, decide_eq_false_iff_not] at n4
    rename_i hc
    obtain ⟨rfl, c1, c2⟩ := hc
    simp only [Bool.true_eq_false, false_or] at n4
    omega
  · split
    · rename_i hc
      obtain ⟨rfl, c1, c2⟩ := hc
      simp only [step32]
      rw [byte_and15 _ (by omega), if_neg]
      simp only [Bool.true_eq_false, false_or] at n5
      omega
    · split
      · rename_i hc
        obtain ⟨rfl, c1, c2⟩ := hc
        simp only [Bool.true_eq_false, false_or] at n6
        omega
      · split
        · rename_i hc
          obtain ⟨rfl, c1, c2⟩ := hc
          simp only [Bool.true_eq_false, false_or] at n6
          omega
        · split
          · rename_i hc
            obtain ⟨rfl, c1, c2⟩ := hc
            simp only [Bool.true_eq_false, false_or] at n3
            simp only [step32]
            rw [byte_and3 _ (by omega), byte_shr6 _ (by omega), shiftLeft_mul,
              or_eq_add 2 (by omega) (by omega), Nat.shiftRight_eq_div_pow, if_pos (by omega)]
          · split
            · rename_i hc
              obtain ⟨rfl, c1, c2⟩ := hc
              simp only [Bool.true_eq_false, false_or] at n3
              omega
            · split
              · omega
              · split
                · simp only [step32]
                  rw [byte_and15 _ (by omega), if_neg (by omega)]
                · rfl

/-- Each instruction has the effect that the manual prescribes. -/
theorem step_valid {v7 : Bool} {i : Instr} (h : i.Valid v7) (len k : Nat) (st : ThumbState) :
    stepHalfs v7 len k i.encode st (i.effect len (2 * k) st) := by
  cases i with
  | bl off => exact step_bl v7 len k st h.1 h.2.1 h.2.2
  | b1 cond off => exact step_b1 v7 len k st h.1 h.2.1 h.2.2.1 h.2.2.2
  | b2 off => exact step_b2 v7 len k st h.1 h.2.1 h.2.2
  | b3 cond off =>
    obtain ⟨rfl, h1, h2, h3, h4, h5⟩ := h
    exact step_b3 len k st h1 h2 h3 h4 h5
  | b4 off =>
    obtain ⟨rfl, h1, h2, h3⟩ := h
    exact step_b4 len k st h1 h2 h3
  | blx rm => exact step_blx v7 len k st h
  | bx rm => exact step_bx v7 len k st h
  | push regs lr => exact step_push v7 len k st lr h
  | subSp imm7 => exact step_subSp v7 len k st h
  | pushW regs lr =>
    obtain ⟨rfl, h1⟩ := h
    exact step_pushW len k st lr h1
  | subSpW s imm12 =>
    obtain ⟨rfl, h1, h2⟩ := h
    exact step_subSpW len k st s h1 h2
  | vpushD d vd n =>
    obtain ⟨rfl, h1, h2⟩ := h
    exact step_vpushD len k st d h1 h2
  | vpushS d vd n =>
    obtain ⟨rfl, h1, h2⟩ := h
    exact step_vpushS len k st d h1 h2
  | strSp rt pre imm8 => exact step_strSp v7 len k st pre h.1 h.2
  | other hw => exact step_other v7 len k st h
  | otherW hw1 hw2 => exact step_otherW v7 len k st h

/-! ### The loop -/

theorem chunks2_flatMap (hws : List Nat) :
    chunks2 (hws.flatMap (fun hw => [hw % 256, hw / 256])) = hws.map halfOf := by
  induction hws with
  | nil => rfl
  | cons hw hws ih =>
    show (_, _) :: chunks2 (hws.flatMap (fun hw => [hw % 256, hw / 256])) = _
    rw [ih]
    rfl

theorem codeBytes_length (items : List CodeItem) :
    (codeBytes items).length = 2 * (items.flatMap CodeItem.halfwords).length := by
  unfold codeBytes
  generalize items.flatMap CodeItem.halfwords = hws
  induction hws with
  | nil => rfl
  | cons hw hws ih =>
    rw [List.flatMap_cons, List.length_append, ih]
    simp
    omega

theorem thumbLoop_skip (search : TagSearch) (address : Nat) (v7 : Bool) (tags : List (Nat × Tag))
    (len n i : Nat) (hs rest : List Half) (st : ThumbState) (h : hs.length = n) :
    thumbLoop search address v7 tags len n i (hs ++ rest) st =
      thumbLoop search address v7 tags len 0 (i + n) rest st := by
  induction n generalizing i hs with
  | zero =>
    have : hs = [] := List.length_eq_zero_iff.mp h
    subst this
    rfl
  | succ n ih =>
    match hs, h with
    | _ :: hs, h =>
      rw [List.cons_append, thumbLoop, ih _ _ (by simpa using h)]
      congr 1
      omega

theorem thumbLoop_skip_all (search : TagSearch) (address : Nat) (v7 : Bool)
    (tags : List (Nat × Tag)) (len n i : Nat) (hs : List Half) (st : ThumbState)
    (h : hs.length ≤ n) :
    thumbLoop search address v7 tags len n i hs st = .ok st := by
  induction hs generalizing i n with
  | nil => cases n <;> rfl
  | cons a hs ih =>
    match n, h with
    | n + 1, h => rw [thumbLoop]; exact ih _ _ (by simpa using h)

theorem tagAct_code {search : TagSearch} {tags : List (Nat × Tag)} {a : Nat}
    (h : (a, Tag.data) ∉ tags) : tagAct search tags a = .ok .code := by
  unfold tagAct
  cases hf : search.find tags a with
  | none => rfl
  | some k =>
    obtain ⟨t, ht⟩ := search.sound _ _ _ hf
    simp only [ht]
    cases t with
    | thumb => rfl
    | data => exact absurd (List.mem_of_getElem? ht) h

theorem tagAct_data {search : TagSearch} {tags : List (Nat × Tag)} {a k : Nat}
    (hs : tags.Pairwise (fun x y => x.1 ≤ y.1)) (hk : tags[k]? = some (a, Tag.data))
    (hu : ∀ j t, tags[j]? = some (a, t) → j = k) :
    search.find tags a = some k := by
  cases hf : search.find tags a with
  | none =>
    exact absurd rfl (search.complete _ _ hs hf _ (List.mem_of_getElem? hk))
  | some j =>
    obtain ⟨t, ht⟩ := search.sound _ _ _ hf
    rw [hu j t ht]

/-- The results after the items. -/
def itemsEffect (len : Nat) (pos : Nat) (items : List CodeItem) (st : ThumbState) : ThumbState :=
  (instrsAt pos items).foldl (fun st e => e.2.effect len e.1 st) st

theorem thumbLoop_cons (search : TagSearch) (address : Nat) (v7 : Bool) (tags : List (Nat × Tag))
    (len i : Nat) (first : Half) (rest : List Half) (st : ThumbState) :
    thumbLoop search address v7 tags len 0 i (first :: rest) st =
      match tagAct search tags (address + 2 * i) with
      | .error e => .error e
      | .ok .stop => .ok st
      | .ok (.skip n) => thumbLoop search address v7 tags len n (i + 1) rest st
      | .ok .code =>
        match decode16 v7 first with
        | some act => thumbLoop search address v7 tags len 0 (i + 1) rest (step16 len i first st act)
        | none =>
          match rest with
          | [] => .error .unknownInstruction
          | second :: rest' =>
            thumbLoop search address v7 tags len 0 (i + 2) rest'
              (step32 len i first second st (decode32 v7 first second)) := by
  exact thumbLoop.eq_def search address v7 tags len 0 i (first :: rest) st

theorem loop_items {search : TagSearch} {address : Nat} {v7 : Bool} {tags : List (Nat × Tag)}
    (hs : tags.Pairwise (fun x y => x.1 ≤ y.1)) (len : Nat) (items : List CodeItem) (k : Nat)
    (st : ThumbState) (hv : ∀ i, CodeItem.instr i ∈ items → i.Valid v7)
    (ht : TagsFit tags address (2 * k) items) :
    thumbLoop search address v7 tags len 0 k ((items.flatMap CodeItem.halfwords).map halfOf) st =
      .ok (itemsEffect len (2 * k) items st) := by
  induction items generalizing k st with
  | nil => rfl
  | cons item items ih =>
    rw [List.flatMap_cons, List.map_append]
    cases item with
    | instr i =>
      obtain ⟨ht1, ht2⟩ := ht
      have hstep := step_valid (hv i (List.mem_cons_self ..)) len k st
      have ih' := fun k' hk st => ih k' st (fun j hj => hv j (List.mem_cons_of_mem _ hj)) hk
      show thumbLoop search address v7 tags len 0 k (i.encode.map halfOf ++ _) st = _
      have hres : itemsEffect len (2 * k) (.instr i :: items) st =
          itemsEffect len (2 * (k + i.encode.length)) items (i.effect len (2 * k) st) := by
        unfold itemsEffect
        rw [instrsAt, List.foldl_cons, Nat.mul_add]
      rw [hres]
      rw [← Nat.mul_add] at ht2
      rcases hstep with ⟨hw, act, he, hd, hst⟩ | ⟨hw1, hw2, he, hd, hst⟩
      · rw [he] at ht2 ⊢
        show thumbLoop search address v7 tags len 0 k (halfOf hw :: _) st = _
        rw [thumbLoop_cons]
        simp only [tagAct_code ht1, hd, hst]
        exact ih' _ ht2 _
      · rw [he] at ht2 ⊢
        show thumbLoop search address v7 tags len 0 k (halfOf hw1 :: halfOf hw2 :: _) st = _
        rw [thumbLoop_cons]
        simp only [tagAct_code ht1, hd, hst]
        exact ih' _ ht2 _
    | data hws =>
      obtain ⟨hne, ⟨n, hn, hu, hnext⟩, ht2⟩ := ht
      obtain ⟨hw, hws, rfl⟩ : ∃ a l, hws = a :: l := List.exists_cons_of_ne_nil hne
      have hf := tagAct_data (search := search) hs hn hu
      have hres : itemsEffect len (2 * k) (.data (hw :: hws) :: items) st =
          itemsEffect len (2 * (k + 1 + hws.length)) items st := by
        unfold itemsEffect
        rw [instrsAt, List.length_cons]
        congr 2
        omega
      rw [hres]
      show thumbLoop search address v7 tags len 0 k (halfOf hw :: (hws.map halfOf ++ _)) st = _
      rw [thumbLoop_cons]
      rcases hnext with ⟨stop, hstop, hpos⟩ | ⟨hnone, rfl⟩
      · simp only [tagAct, hf, hn, hstop]
        rcases hpos with hpos | ⟨rfl, hpos⟩
        · have hlen : (stop - (address + 2 * k)) / 2 - 1 = hws.length := by
            rw [hpos, List.length_cons]; omega
          rw [hlen, thumbLoop_skip _ _ _ _ _ _ _ _ _ _ (by simp)]
          refine ih _ st (fun j hj => hv j (List.mem_cons_of_mem _ hj)) ?_
          rw [List.length_cons] at ht2
          have : 2 * (k + 1 + hws.length) = 2 * k + 2 * (hws.length + 1) := by omega
          rw [this]
          exact ht2
        · rw [List.length_cons] at hpos
          rw [thumbLoop_skip_all]
          · rfl
          · simp
            omega
      · simp only [tagAct, hf, hn, hnone]
        rfl

/-! ### The results -/

theorem effect_fold (len : Nat) (is : List (Nat × Instr)) (st : ThumbState) :
    is.foldl (fun st e => e.2.effect len e.1 st) st =
      { bls := st.bls ++ is.filterMap (fun e => e.2.calls e.1)
        bs := st.bs ++ is.filterMap (fun e => e.2.branches e.1)
        indirect := st.indirect || is.any (fun e => e.2.throughRegister)
        modifiesSp := st.modifiesSp || is.any (fun e => e.2.lowers.isSome)
        stack :=
          if (is.filterMap (fun e => e.2.branches e.1)).any
              (fun t => decide (0 ≤ t ∧ t < (len : Int))) then none
          else st.stack.map (· + (is.filterMap (fun e => e.2.lowers)).sum) } := by
  induction is generalizing st with
  | nil => simp
  | cons e is ih =>
    obtain ⟨pos, i⟩ := e
    rw [List.foldl_cons, ih]
    unfold Instr.effect
    simp only [ThumbState.mk.injEq, List.append_assoc, List.any_cons, Bool.or_assoc, List.filterMap_cons,
      true_and]
    refine ⟨?_, ?_, ?_⟩
    · cases i.calls pos <;> rfl
    · cases i.branches pos <;> rfl
    · rcases Option.eq_none_or_eq_some (i.branches pos) with hb | ⟨t, hb⟩
      · simp only [hb, Option.any_none, Bool.false_eq_true, if_false]
        rcases Option.eq_none_or_eq_some i.lowers with hl | ⟨n, hl⟩
        · simp only [hl, Option.getD_none, map_add_zero]
        · cases st.stack <;> simp [hl, Nat.add_assoc]
      · have hl : i.lowers = none := by
          cases i <;> first | rfl | cases hb
        simp only [hb, hl, Option.any_some, List.any_cons]
        by_cases ht : 0 ≤ t ∧ t < (len : Int)
        · simp [ht]
        · rw [decide_eq_false ht]
          simp only [Bool.false_eq_true, if_false, Option.getD_none, map_add_zero]
          rfl

/-- The analysis of well-formed code is what the manual says about it. -/
theorem thumbAnalyze_eq {search : TagSearch} {address : Nat} {v7 : Bool} {tags : List (Nat × Tag)}
    {items : List CodeItem} (hs : tags.Pairwise (fun x y => x.1 ≤ y.1))
    (hv : ∀ i, CodeItem.instr i ∈ items → i.Valid v7) (ht : TagsFit tags address 0 items) :
    thumbAnalyze search (codeBytes items) address v7 tags = .ok (codeFacts items) := by
  unfold thumbAnalyze
  have : chunks2 (codeBytes items) = (items.flatMap CodeItem.halfwords).map halfOf :=
    chunks2_flatMap _
  rw [this, loop_items hs _ items 0 _ hv ht]
  unfold itemsEffect codeFacts
  rw [effect_fold]
  simp [ThumbState.init]

end CallStack
