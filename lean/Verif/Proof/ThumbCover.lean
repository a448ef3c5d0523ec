import Mathlib.Tactic.ClearExcept
import Verif.Proof.Thumb

/-!
Every 32-bit encoding is covered: it is one of the instructions of `Spec/Thumb.lean` or one of the
exceptions known to be misread.
-/

namespace CallStack

theorem digit {u T m d k r : Nat} (h : u = (T * m + d) * k + r) (hr : r < k) (hd : d < m) :
    u / k % m = d := by
  subst h
  rw [Nat.mul_comm, Nat.mul_add_div (by omega), Nat.div_eq_of_lt hr, Nat.add_zero, Nat.mul_comm,
    Nat.mul_add_mod, Nat.mod_eq_of_lt hd]

theorem encLong_digits {op s i1 i2 imm10 imm11 : Nat} (hs : s ≤ 1) (h1 : i1 ≤ 1) (h2 : i2 ≤ 1)
    (h3 : imm10 < 2 ^ 10) (h4 : imm11 < 2 ^ 11) :
    ∃ off : Int, off % 2 = 0 ∧ -2 ^ 24 ≤ off ∧ off < 2 ^ 24 ∧
      encLong op off = [0xF000 + s * 2 ^ 10 + imm10,
        op + (if i1 = s then 1 else 0) * 2 ^ 13 + (if i2 = s then 1 else 0) * 2 ^ 11 + imm11] := by
  generalize hu : s * 2 ^ 24 + i1 * 2 ^ 23 + i2 * 2 ^ 22 + imm10 * 2 ^ 12 + imm11 * 2 = u
  have d7 : u < 2 ^ 25 := by omega
  have d1 : u / 2 ^ 24 = s := by
    have := digit (u := u) (T := 0) (m := 2) (d := s) (k := 2 ^ 24)
      (r := i1 * 2 ^ 23 + i2 * 2 ^ 22 + imm10 * 2 ^ 12 + imm11 * 2) (by omega) (by omega) (by omega)
    omega
  have d2 : u / 2 ^ 23 % 2 = i1 := digit (T := s) (r := i2 * 2 ^ 22 + imm10 * 2 ^ 12 + imm11 * 2)
    (by omega) (by omega) (by omega)
  have d3 : u / 2 ^ 22 % 2 = i2 := digit (T := s * 2 + i1) (r := imm10 * 2 ^ 12 + imm11 * 2)
    (by omega) (by omega) (by omega)
  have d4 : u / 2 ^ 12 % 2 ^ 10 = imm10 := digit (T := s * 4 + i1 * 2 + i2) (r := imm11 * 2)
    (by omega) (by omega) (by omega)
  have d5 : u / 2 % 2 ^ 11 = imm11 :=
    digit (T := s * 2 ^ 12 + i1 * 2 ^ 11 + i2 * 2 ^ 10 + imm10) (r := 0)
      (by omega) (by omega) (by omega)
  have d6 : u % 2 = 0 := by omega
  have d8 : (u : Int) < 2 ^ 24 + s * 2 ^ 24 ∧ (s : Int) * 2 ^ 24 ≤ u := by
    clear * - d1
    omega
  clear hu
  refine ⟨(u : Int) - s * 2 ^ 25, by clear * - d6; omega, by clear * - d8 hs; omega,
    by clear * - d8 hs; omega, ?_⟩
  have hm : (((u : Int) - s * 2 ^ 25) % 2 ^ 25).toNat = u := by clear * - d7; omega
  unfold encLong
  simp only [hm, d1, d2, d3, d4, d5]

theorem encLong_surj {op hw1 hw2 : Nat} (h1 : hw1 / 2 ^ 11 = 30)
    (hop : op = 0xD000 ∨ op = 0x9000) (h3 : hw2 / 2 ^ 14 = op / 2 ^ 14) (h4 : hw2 / 2 ^ 12 % 2 = 1) :
    ∃ off : Int, off % 2 = 0 ∧ -2 ^ 24 ≤ off ∧ off < 2 ^ 24 ∧ encLong op off = [hw1, hw2] := by
  have key := fun i1 i2 (k1 : i1 ≤ 1) (k2 : i2 ≤ 1) =>
    encLong_digits (op := op) (s := hw1 / 2 ^ 10 % 2) (i1 := i1) (i2 := i2) (imm10 := hw1 % 2 ^ 10)
      (imm11 := hw2 % 2 ^ 11) (by omega) k1 k2 (by omega) (by omega)
  have e1 : 0xF000 + hw1 / 2 ^ 10 % 2 * 2 ^ 10 + hw1 % 2 ^ 10 = hw1 := by omega
  have e2 : op + hw2 / 2 ^ 13 % 2 * 2 ^ 13 + hw2 / 2 ^ 11 % 2 * 2 ^ 11 + hw2 % 2 ^ 11 = hw2 := by
    rcases hop with rfl | rfl <;> omega
  rw [e1] at key
  -- the bit J decides whether I equals S
  have hj : ∀ j ≤ 1, ∃ i ≤ 1, (if i = hw1 / 2 ^ 10 % 2 then 1 else 0) = j := by
    intro j hj
    have : j = 0 ∨ j = 1 := by omega
    rcases this with rfl | rfl
    · exact ⟨1 - hw1 / 2 ^ 10 % 2, by omega, if_neg (by omega)⟩
    · exact ⟨hw1 / 2 ^ 10 % 2, by omega, if_pos rfl⟩
  obtain ⟨i1, k1, l1⟩ := hj (hw2 / 2 ^ 13 % 2) (by omega)
  obtain ⟨i2, k2, l2⟩ := hj (hw2 / 2 ^ 11 % 2) (by omega)
  have := key i1 i2 k1 k2
  rw [l1, l2, e2] at this
  exact this

theorem encB3_surj {hw1 hw2 : Nat} (h1 : hw1 / 2 ^ 11 = 30)
    (h3 : hw2 / 2 ^ 14 = 2) (h4 : hw2 / 2 ^ 12 % 2 = 0) (hj : hw2 / 2 ^ 13 % 2 = hw2 / 2 ^ 11 % 2) :
    ∃ off : Int, off % 2 = 0 ∧ -2 ^ 20 ≤ off ∧ off < 2 ^ 20 ∧
      off / 2 ^ 18 % 2 = off / 2 ^ 19 % 2 ∧ encB3 (hw1 / 2 ^ 6 % 16) off = [hw1, hw2] := by
  generalize hs : hw1 / 2 ^ 10 % 2 = s
  generalize hj' : hw2 / 2 ^ 13 % 2 = j at hj
  generalize hi6 : hw1 % 2 ^ 6 = imm6
  generalize hi11 : hw2 % 2 ^ 11 = imm11
  have a1 : 0xF000 + s * 2 ^ 10 + hw1 / 2 ^ 6 % 16 * 2 ^ 6 + imm6 = hw1 := by omega
  have a2 : 0x8000 + j * 2 ^ 13 + j * 2 ^ 11 + imm11 = hw2 := by
    have q2 : hw2 / 2 ^ 12 = hw2 / 2 ^ 11 / 2 := by clear * -; omega
    have q3 : hw2 / 2 ^ 13 = hw2 / 2 ^ 11 / 4 := by clear * -; omega
    have q4 : hw2 / 2 ^ 14 = hw2 / 2 ^ 11 / 8 := by clear * -; omega
    have q5 : hw2 = hw2 / 2 ^ 11 * 2 ^ 11 + imm11 := by clear * - hi11; omega
    rw [q2] at h4
    rw [q3] at hj'
    rw [q4] at h3
    generalize hw2 / 2 ^ 11 = q at *
    clear * - h3 h4 hj hj' q5
    have hq : q = 16 ∨ q = 17 ∨ q = 18 ∨ q = 19 ∨ q = 20 ∨ q = 21 ∨ q = 22 ∨ q = 23 := by
      clear * - h3
      omega
    rcases hq with rfl | rfl | rfl | rfl | rfl | rfl | rfl | rfl <;> omega
  have b1 : s ≤ 1 := by omega
  have b2 : j ≤ 1 := by omega
  have b3 : imm6 < 2 ^ 6 := by omega
  have b4 : imm11 < 2 ^ 11 := by omega
  generalize hw1 / 2 ^ 6 % 16 = cond at *
  clear hs hj' hi6 hi11 h1 h3 h4 hj
  generalize hu : s * 2 ^ 20 + j * 2 ^ 19 + j * 2 ^ 18 + imm6 * 2 ^ 12 + imm11 * 2 = u
  have d7 : u < 2 ^ 21 := by omega
  have d1 : u / 2 ^ 20 = s := by
    have := digit (u := u) (T := 0) (m := 2) (d := s) (k := 2 ^ 20)
      (r := j * 2 ^ 19 + j * 2 ^ 18 + imm6 * 2 ^ 12 + imm11 * 2) (by omega) (by omega) (by omega)
    omega
  have d2 : u / 2 ^ 19 % 2 = j := digit (T := s) (r := j * 2 ^ 18 + imm6 * 2 ^ 12 + imm11 * 2)
    (by omega) (by omega) (by omega)
  have d3 : u / 2 ^ 18 % 2 = j := digit (T := s * 2 + j) (r := imm6 * 2 ^ 12 + imm11 * 2)
    (by omega) (by omega) (by omega)
  have d4 : u / 2 ^ 12 % 2 ^ 6 = imm6 := digit (T := s * 4 + j * 2 + j) (r := imm11 * 2)
    (by omega) (by omega) (by omega)
  have d5 : u / 2 % 2 ^ 11 = imm11 :=
    digit (T := s * 2 ^ 8 + j * 2 ^ 7 + j * 2 ^ 6 + imm6) (r := 0)
      (by omega) (by omega) (by omega)
  have d6 : u % 2 = 0 := by omega
  have d8 : (u : Int) < 2 ^ 20 + s * 2 ^ 20 ∧ (s : Int) * 2 ^ 20 ≤ u := by
    clear * - d1
    omega
  clear hu
  refine ⟨(u : Int) - s * 2 ^ 21, by clear * - d6; omega, by clear * - d8 b1; omega,
    by clear * - d8 b1; omega, ?_, ?_⟩
  · have e1 : ((u : Int) - s * 2 ^ 21) / 2 ^ 18 % 2 = (u / 2 ^ 18 % 2 : Nat) := by
      clear * -
      omega
    have e2 : ((u : Int) - s * 2 ^ 21) / 2 ^ 19 % 2 = (u / 2 ^ 19 % 2 : Nat) := by
      clear * -
      omega
    rw [e1, e2, d2, d3]
  · have hm : (((u : Int) - s * 2 ^ 21) % 2 ^ 21).toNat = u := by clear * - d7; omega
    unfold encB3
    simp only [hm, d1, d2, d3, d4, d5]
    rw [a1, a2]

theorem wide_cover (v7 : Bool) {hw1 hw2 : Nat} (hw : Wide hw1) (h2 : hw2 < 65536) :
    (∃ i : Instr, i.Valid v7 ∧ i.encode = [hw1, hw2]) ∨ Exceptional v7 hw1 hw2 := by
  by_cases c0 : lowersSp hw1 hw2 = true
  · exact .inr (.lowersSp c0)
  by_cases c1 : hw1 / 2 ^ 11 = 30 ∧ hw2 / 2 ^ 14 = 3 ∧ hw2 / 2 ^ 12 % 2 = 1
  · obtain ⟨off, k1, k2, k3, k4⟩ := encLong_surj (op := 0xD000) c1.1 (.inl rfl) c1.2.1 c1.2.2
    exact .inl ⟨.bl off, ⟨k1, k2, k3⟩, k4⟩
  by_cases c2 : hw1 = 0xF84D ∧ hw2 / 2 ^ 11 % 2 = 1 ∧ hw2 / 256 % 4 = 1
  · obtain ⟨rfl, e1, e2⟩ := c2
    refine .inl ⟨.strSp (hw2 / 2 ^ 12) (decide (hw2 / 2 ^ 10 % 2 = 1)) (hw2 % 256),
      ⟨by omega, by omega⟩, ?_⟩
    have hf : flag (decide (hw2 / 2 ^ 10 % 2 = 1)) = hw2 / 2 ^ 10 % 2 := by
      have : hw2 / 2 ^ 10 % 2 = 0 ∨ hw2 / 2 ^ 10 % 2 = 1 := by omega
      rcases this with h | h <;> rw [h] <;> rfl
    simp only [Instr.encode, hf, List.cons.injEq, and_true, true_and]
    omega
  cases v7 with
  | false =>
    refine .inl ⟨.otherW hw1 hw2, ?_, rfl⟩
    show plain32 false hw1 hw2 = true
    unfold plain32
    simp only [Bool.false_and, Bool.not_false, Bool.and_true, Bool.and_eq_true, decide_eq_true_eq,
      Bool.not_eq_true', Bool.and_eq_false_iff, decide_eq_false_iff_not]
    refine ⟨⟨⟨⟨⟨hw, ?_⟩, h2⟩, ?_⟩, ?_⟩, Bool.eq_false_iff.mpr c0⟩
    · clear * - hw; unfold Wide at hw; omega
    · clear * - c1; omega
    · clear * - c2; omega
  | true =>
    by_cases c3 : hw1 / 2 ^ 11 = 30 ∧ hw2 / 2 ^ 14 = 2 ∧ hw2 / 2 ^ 12 % 2 = 1
    · obtain ⟨off, k1, k2, k3, k4⟩ := encLong_surj (op := 0x9000) c3.1 (.inr rfl) c3.2.1 c3.2.2
      exact .inl ⟨.b4 off, ⟨rfl, k1, k2, k3⟩, k4⟩
    by_cases c4 : hw1 / 2 ^ 11 = 30 ∧ hw2 / 2 ^ 14 = 2 ∧ hw2 / 2 ^ 12 % 2 = 0 ∧ hw1 / 2 ^ 6 % 16 < 14
    · obtain ⟨d1, d2, d3, d4⟩ := c4
      by_cases hj : hw2 / 2 ^ 13 % 2 = hw2 / 2 ^ 11 % 2
      · obtain ⟨off, k1, k2, k3, k4, k5⟩ := encB3_surj d1 d2 d3 hj
        exact .inl ⟨.b3 _ off, ⟨rfl, d4, k1, k2, k3, k4⟩, k5⟩
      · exact .inr (.b3 rfl d1 d2 d3 d4 hj)
    by_cases c5 : stmdbSp hw1 hw2 = true
    · have c5' := c5
      unfold stmdbSp at c5'
      simp only [Bool.and_eq_true, Bool.or_eq_true, decide_eq_true_eq] at c5'
      obtain ⟨⟨rfl | rfl, e1⟩, e2⟩ := c5'
      · exact .inr (.stmdb rfl rfl c5)
      · refine .inl ⟨.pushW (hw2 % 2 ^ 13) (decide (hw2 / 2 ^ 14 % 2 = 1)), ⟨rfl, by omega⟩, ?_⟩
        have hf : flag (decide (hw2 / 2 ^ 14 % 2 = 1)) = hw2 / 2 ^ 14 % 2 := by
          have : hw2 / 2 ^ 14 % 2 = 0 ∨ hw2 / 2 ^ 14 % 2 = 1 := by omega
          rcases this with h | h <;> rw [h] <;> rfl
        simp only [Instr.encode, hf, List.cons.injEq, and_true, true_and]
        omega
    by_cases c6 : (hw1 = 0xF1AD ∨ hw1 = 0xF1BD ∨ hw1 = 0xF5AD ∨ hw1 = 0xF5BD) ∧ hw2 / 2 ^ 15 = 0 ∧
        hw2 / 256 % 16 = 13
    · obtain ⟨d1, d2, d3⟩ := c6
      by_cases hx : (hw1 = 0xF1AD ∨ hw1 = 0xF1BD) ∧ hw2 / 2 ^ 12 = 1
      · exact .inr (.subW rfl hx.1 hx.2 d3)
      · have main : ∀ (hb : Nat) (sb : Bool), hb ≤ 1 → hw1 = 0xF1AD + hb * 2 ^ 10 + flag sb * 16 →
            ¬ (hb = 0 ∧ hw2 / 2 ^ 12 = 1) →
            ∃ i : Instr, i.Valid true ∧ i.encode = [hw1, hw2] := by
          intro hb sb hb1 e1 e2
          refine ⟨.subSpW sb (hb * 2 ^ 11 + hw2 / 2 ^ 12 * 2 ^ 8 + hw2 % 256), ⟨rfl, ?_, ?_⟩, ?_⟩
          · clear * - hb1 d2; omega
          · clear * - hb1 d2 e2; omega
          · simp only [Instr.encode, List.cons.injEq, and_true]
            constructor
            · rw [e1]; clear * - hb1 d2; omega
            · clear * - hb1 d2 d3; omega
        rcases d1 with d1 | d1 | d1 | d1
        · exact .inl (main 0 false (by decide) d1 (fun h => hx ⟨.inl d1, h.2⟩))
        · exact .inl (main 0 true (by decide) d1 (fun h => hx ⟨.inr d1, h.2⟩))
        · exact .inl (main 1 false (by decide) d1 (fun h => absurd h.1 (by decide)))
        · exact .inl (main 1 true (by decide) d1 (fun h => absurd h.1 (by decide)))
    by_cases c7 : (hw1 = 0xED2D ∨ hw1 = 0xED6D) ∧ hw2 / 256 % 16 = 10
    · obtain ⟨d1, d2⟩ := c7
      have hs : hw2 / 2 ^ 12 * 2 ^ 12 + 0xA00 + hw2 % 256 = hw2 := by clear * - d2; omega
      have hv : ∀ d, (Instr.vpushS d (hw2 / 2 ^ 12) (hw2 % 256)).Valid true :=
        fun d => ⟨rfl, by clear * - h2; omega, by clear * -; omega⟩
      rcases d1 with rfl | rfl
      · exact .inl ⟨.vpushS false _ _, hv false, by rw [Instr.encode, hs]; rfl⟩
      · exact .inl ⟨.vpushS true _ _, hv true, by rw [Instr.encode, hs]; rfl⟩
    by_cases c8 : (hw1 = 0xED2D ∨ hw1 = 0xED6D) ∧ hw2 / 256 % 16 = 11
    · obtain ⟨d1, d2⟩ := c8
      by_cases hodd : hw2 % 2 = 1
      · exact .inr (.fstmdbx rfl d1 d2 hodd)
      · have hs : hw2 / 2 ^ 12 * 2 ^ 12 + 0xB00 + 2 * (hw2 % 256 / 2) = hw2 := by
          clear * - d2 hodd; omega
        have hv : ∀ d, (Instr.vpushD d (hw2 / 2 ^ 12) (hw2 % 256 / 2)).Valid true :=
          fun d => ⟨rfl, by clear * - h2; omega, by clear * -; omega⟩
        rcases d1 with rfl | rfl
        · exact .inl ⟨.vpushD false _ _, hv false, by rw [Instr.encode, hs]; rfl⟩
        · exact .inl ⟨.vpushD true _ _, hv true, by rw [Instr.encode, hs]; rfl⟩
    refine .inl ⟨.otherW hw1 hw2, ?_, rfl⟩
    show plain32 true hw1 hw2 = true
    unfold plain32
    simp only [Bool.true_and, Bool.and_eq_true, decide_eq_true_eq, Bool.not_eq_true',
      Bool.and_eq_false_iff, Bool.or_eq_false_iff, decide_eq_false_iff_not]
    refine ⟨⟨⟨⟨⟨⟨⟨⟨⟨hw, ?_⟩, h2⟩, ?_⟩, ?_⟩, ?_⟩, Bool.eq_false_iff.mpr c5⟩, ?_⟩, ?_⟩,
      Bool.eq_false_iff.mpr c0⟩
    · clear * - hw; unfold Wide at hw; omega
    · clear * - c1; omega
    · clear * - c2; omega
    · clear * - c3 c4; omega
    · clear * - c6; omega
    · clear * - c7 c8; omega

theorem narrow_cover (v7 : Bool) {hw : Nat} (hlt : hw < 65536) (hw' : ¬ Wide hw) :
    (∃ i : Instr, i.Valid v7 ∧ i.encode = [hw]) ∨ hw / 256 = 0xBE ∨
      Unallocated16 v7 (hw / 256) (hw % 256) := by
  have he : hw = hw / 256 * 256 + hw % 256 := by omega
  have hlo : hw % 256 < 256 := by omega
  have hh : hw / 256 < 0xE8 := by unfold Wide at hw'; omega
  generalize hhi : hw / 256 = hi at *
  generalize hlo' : hw % 256 = lo at *
  have hother : plain16 v7 hi lo = true → ∃ i : Instr, i.Valid v7 ∧ i.encode = [hw] := fun h =>
    ⟨.other hw, by
      show plain16 v7 (hw / 256) (hw % 256) = true
      rw [hhi, hlo']
      exact h, rfl⟩
  clear hhi hlo' hw' hlt
  have one : ∀ {a : Nat}, a = hw → [a] = [hw] := fun h => h ▸ rfl
  by_cases c1 : hi = 0x47
  · subst c1
    by_cases c : lo % 8 = 0
    · by_cases c' : lo < 128
      · exact .inl ⟨.bx (lo / 8), (by omega : lo / 8 < 16), one (by omega)⟩
      · exact .inl ⟨.blx (lo / 8 - 16), (by omega : lo / 8 - 16 < 16), one (by omega)⟩
    · exact .inr (.inr (.bx rfl c))
  by_cases c2 : hi = 0xB0
  · subst c2
    by_cases c : lo < 128
    · exact .inl (hother (by unfold plain16; simpa using c))
    · exact .inl ⟨.subSp (lo - 128), (by omega : lo - 128 < 2 ^ 7), one (by omega)⟩
  by_cases c3 : hi = 0xB4
  · subst c3
    exact .inl ⟨.push lo false, hlo, one (a := 0xB400 + 0 * 256 + lo) (by omega)⟩
  by_cases c4 : hi = 0xB5
  · subst c4
    exact .inl ⟨.push lo true, hlo, one (a := 0xB400 + 1 * 256 + lo) (by omega)⟩
  by_cases c5 : hi = 0xBE
  · exact .inr (.inl c5)
  by_cases c6 : 0xE0 ≤ hi
  · -- the offset `x:0` of 12 bits, with sign
    have hx : ∃ off : Int, off % 2 = 0 ∧ -2 ^ 11 ≤ off ∧ off < 2 ^ 11 ∧
        (off % 2 ^ 12).toNat = 2 * (hw - 0xE000) := by
      by_cases c : hw < 0xE400
      · exact ⟨2 * (hw - 0xE000 : Nat), by omega, by omega, by omega, by omega⟩
      · exact ⟨2 * (hw - 0xE000 : Nat) - 2 ^ 12, by omega, by omega, by omega, by omega⟩
    obtain ⟨off, h1, h2, h3, h4⟩ := hx
    refine .inl ⟨.b2 off, ⟨h1, h2, h3⟩, one ?_⟩
    rw [h4]
    omega
  by_cases c7 : 0xD0 ≤ hi ∧ hi < 0xDE
  · have hx : ∃ off : Int, off % 2 = 0 ∧ -2 ^ 8 ≤ off ∧ off < 2 ^ 8 ∧
        (off % 2 ^ 9).toNat = 2 * lo := by
      by_cases c : lo < 128
      · exact ⟨2 * lo, by omega, by omega, by omega, by omega⟩
      · exact ⟨2 * lo - 2 ^ 9, by omega, by omega, by omega, by omega⟩
    obtain ⟨off, h1, h2, h3, h4⟩ := hx
    refine .inl ⟨.b1 (hi - 0xD0) off, ⟨by omega, h1, h2, h3⟩, one ?_⟩
    rw [h4]
    omega
  by_cases c8 : hi = 0x45
  · subst c8
    by_cases c : lo < 64
    · exact .inr (.inr (.cmp rfl c))
    · refine .inl (hother ?_)
      unfold plain16
      simp
      omega
  by_cases c9 : hi = 0xB1 ∨ hi = 0xB3 ∨ hi = 0xB9 ∨ hi = 0xBB
  · cases v7 with
    | false => exact .inr (.inr (.cbz rfl c9))
    | true => exact .inl (hother (by rcases c9 with rfl | rfl | rfl | rfl <;> rfl))
  by_cases c10 : hi = 0xB6
  · subst c10
    by_cases c : lo / 32 = 3 ∧ lo / 4 % 4 = 0
    · exact .inl (hother (by unfold plain16; simpa using c))
    · exact .inr (.inr (.cps rfl c))
  by_cases c11 : hi = 0xBA
  · subst c11
    by_cases c : lo / 64 = 2
    · exact .inr (.inr (.rev rfl c))
    · exact .inl (hother (by unfold plain16; simpa using c))
  by_cases c12 : hi = 0xB7 ∨ hi = 0xB8
  · exact .inr (.inr (.misc c12))
  by_cases c13 : hi = 0xBF
  · subst c13
    by_cases c : lo % 16 = 0 ∧ lo / 16 ≤ 4
    · exact .inl (hother (by unfold plain16; cases v7 <;> simp [c.1, c.2]))
    · cases v7 with
      | false => exact .inr (.inr (.hint rfl rfl c))
      | true => exact .inl (hother rfl)
  · refine .inl (hother ?_)
    by_cases h1 : hi < 0x48
    · have : hi < 0x44 ∨ hi = 0x44 ∨ hi = 0x46 := by clear * - h1 c1 c8; omega
      rcases this with h | rfl | rfl
      · unfold plain16
        rw [if_pos h]
      · rfl
      · rfl
    by_cases h2 : hi < 0xB0
    · unfold plain16
      rw [if_neg (by omega), if_neg (by omega), if_neg (by omega), if_pos h2]
    by_cases h3 : hi < 0xC0
    · have : hi = 0xB0 ∨ hi = 0xB1 ∨ hi = 0xB2 ∨ hi = 0xB3 ∨ hi = 0xB4 ∨ hi = 0xB5 ∨ hi = 0xB6 ∨
          hi = 0xB7 ∨ hi = 0xB8 ∨ hi = 0xB9 ∨ hi = 0xBA ∨ hi = 0xBB ∨ hi = 0xBC ∨ hi = 0xBD ∨
          hi = 0xBE ∨ hi = 0xBF := by
        clear * - h2 h3
        omega
      rcases this with rfl | rfl | rfl | rfl | rfl | rfl | rfl | rfl | rfl | rfl | rfl | rfl | rfl |
        rfl | rfl | rfl <;> first | rfl | omega
    have : hi = 0xC0 ∨ hi = 0xC1 ∨ hi = 0xC2 ∨ hi = 0xC3 ∨ hi = 0xC4 ∨ hi = 0xC5 ∨ hi = 0xC6 ∨
        hi = 0xC7 ∨ hi = 0xC8 ∨ hi = 0xC9 ∨ hi = 0xCA ∨ hi = 0xCB ∨ hi = 0xCC ∨ hi = 0xCD ∨
        hi = 0xCE ∨ hi = 0xCF ∨ hi = 0xDE ∨ hi = 0xDF := by
      clear * - h3 c6 c7
      omega
    rcases this with rfl | rfl | rfl | rfl | rfl | rfl | rfl | rfl | rfl | rfl | rfl | rfl | rfl |
      rfl | rfl | rfl | rfl | rfl <;> rfl

end CallStack
