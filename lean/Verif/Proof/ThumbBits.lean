import Verif.Proof.Thumb16

/-!
Arithmetic of the bit operations in the machine code analysis.
-/

namespace CallStack

/-- `sign_extend` is the sign extension of an `n`-bit number. -/
theorem signExtend_eq {x n : Nat} (h0 : 0 < n) (h1 : n ≤ 32) (hx : x < 2 ^ n) :
    signExtend x n = if x < 2 ^ (n - 1) then (x : Int) else (x : Int) - 2 ^ n := by
  have h32 : (2 : Nat) ^ 32 = 2 ^ n * 2 ^ (32 - n) := by rw [← Nat.pow_add]; congr 1; omega
  have hn : (2 : Nat) ^ n = 2 * 2 ^ (n - 1) := by
    rw [← Nat.pow_succ']; congr 1; omega
  have hpos : 0 < 2 ^ (32 - n) := Nat.pow_pos (by omega)
  have hx32 : x < 2 ^ 32 := Nat.lt_of_lt_of_le hx (Nat.pow_le_pow_right (by omega) h1)
  have hmul : x * 2 ^ (32 - n) < 2 ^ 32 := by rw [h32]; exact Nat.mul_lt_mul_of_pos_right hx hpos
  unfold signExtend
  rw [BitVec.toInt_sshiftRight, BitVec.toInt_eq_toNat_cond, BitVec.toNat_shiftLeft,
    BitVec.toNat_ofNat, Nat.mod_eq_of_lt hx32, Nat.shiftLeft_eq, Nat.mod_eq_of_lt hmul,
    Int.shiftRight_eq_div_pow]
  have hp : ((2 ^ (32 - n) : Nat) : Int) ≠ 0 := by exact_mod_cast Nat.pos_iff_ne_zero.mp hpos
  by_cases hlt : x < 2 ^ (n - 1)
  · have h2 : 2 * (x * 2 ^ (32 - n)) < 2 ^ 32 := by
      rw [h32, ← Nat.mul_assoc]
      exact Nat.mul_lt_mul_of_pos_right (by omega) hpos
    rw [if_pos h2, if_pos hlt, Int.natCast_mul, Int.mul_ediv_cancel _ hp]
  · have h2 : ¬ 2 * (x * 2 ^ (32 - n)) < 2 ^ 32 := by
      rw [h32, ← Nat.mul_assoc, Nat.not_lt]
      exact Nat.mul_le_mul_right _ (by omega)
    rw [if_neg h2, if_neg hlt, h32]
    rw [Int.natCast_mul, Int.natCast_mul, ← Int.sub_mul, Int.mul_ediv_cancel _ hp]
    simp

theorem or_eq_add {x y : Nat} (k : Nat) (hx : x % 2 ^ k = 0) (hy : y < 2 ^ k) :
    x ||| y = x + y := by
  have : x = (x / 2 ^ k) <<< k := by
    rw [Nat.shiftLeft_eq]; exact (Nat.div_mul_cancel (Nat.dvd_of_mod_eq_zero hx)).symm
  rw [this, Nat.shiftLeft_add_eq_or_of_lt hy]

theorem bit_le (b : Bool) : bit b ≤ 1 := by cases b <;> decide

theorem byte_bit2 : ∀ x < 256, (((x >>> 2) &&& 1) == 1) = decide (x / 4 % 2 = 1) := by decide +kernel
theorem byte_bit2' : ∀ x < 256, (x >>> 2) &&& 1 = x / 4 % 2 := by decide +kernel
theorem byte_bit5 : ∀ x < 256, (x &&& (1 <<< 5) != 0) = decide (x / 32 % 2 = 1) := by decide +kernel
theorem byte_bit3 : ∀ x < 256, (x &&& (1 <<< 3) != 0) = decide (x / 8 % 2 = 1) := by decide +kernel
theorem byte_bit5' : ∀ x < 256, (x &&& (1 <<< 5) == 1 <<< 5) = decide (x / 32 % 2 = 1) := by
  decide +kernel
theorem byte_bit3' : ∀ x < 256, (x &&& (1 <<< 3) == 1 <<< 3) = decide (x / 8 % 2 = 1) := by
  decide +kernel
theorem byte_and7 : ∀ x < 256, x &&& 7 = x % 8 := by decide +kernel
theorem byte_and3 : ∀ x < 256, x &&& 3 = x % 4 := by decide +kernel
theorem byte_and1 : ∀ x < 256, x &&& 1 = x % 2 := by decide +kernel
theorem byte_and15 : ∀ x < 256, x &&& 0xF = x % 16 := by decide +kernel
theorem byte_and31 : ∀ x < 256, x &&& 0x1F = x % 32 := by decide +kernel
theorem byte_and63 : ∀ x < 256, x &&& 0x3F = x % 64 := by decide +kernel
theorem byte_and127 : ∀ x < 256, x &&& 0x7F = x % 128 := by decide +kernel
theorem byte_and255 : ∀ x < 256, x &&& 0xFF = x := by decide +kernel
theorem byte_shr3 : ∀ x < 256, (x >>> 3) &&& 0xF = x / 8 % 16 := by decide +kernel
theorem byte_shr4 : ∀ x < 256, (x >>> 4) &&& 7 = x / 16 % 8 := by decide +kernel
theorem byte_shr6 : ∀ x < 256, x >>> 6 = x / 64 := by decide +kernel
theorem byte_shr6' : ∀ x < 256, (x >>> 6) &&& 1 = x / 64 % 2 := by decide +kernel

/-- The offset of B T1. -/
theorem offB1_eq {off : Int} (cond i : Nat) (h2 : off % 2 = 0) (hl : -2 ^ 8 ≤ off)
    (hu : off < 2 ^ 8) :
    offB1 i (((0xD000 + cond * 256 + (off % 2 ^ 9).toNat / 2) % 256),
      (0xD000 + cond * 256 + (off % 2 ^ 9).toNat / 2) / 256) = 2 * i + 4 + off := by
  unfold offB1
  rw [Nat.shiftLeft_eq]
  generalize hu : (off % 2 ^ 9).toNat = u
  have : (0xD000 + cond * 256 + u / 2) % 256 * 2 ^ 1 = u := by omega
  simp only
  rw [this, signExtend_eq (by omega) (by omega) (by omega)]
  split <;> omega

/-- The offset of B T2. -/
theorem offB2_eq {off : Int} (i : Nat) (h2 : off % 2 = 0) (hl : -2 ^ 11 ≤ off)
    (hu : off < 2 ^ 11) :
    offB2 i ((0xE000 + (off % 2 ^ 12).toNat / 2) % 256,
      (0xE000 + (off % 2 ^ 12).toNat / 2) / 256) = 2 * i + 4 + off := by
  unfold offB2
  generalize hu : (off % 2 ^ 12).toNat = u
  simp only
  rw [byte_and7 _ (by omega), Nat.shiftLeft_eq, Nat.shiftLeft_eq,
    or_eq_add (x := (0xE000 + u / 2) / 256 % 8 * 2 ^ 8) (y := (0xE000 + u / 2) % 256) 8
      (by omega) (by omega)]
  have : ((0xE000 + u / 2) / 256 % 8 * 2 ^ 8 + (0xE000 + u / 2) % 256) * 2 ^ 1 = u := by omega
  rw [this, signExtend_eq (by omega) (by omega) (by omega)]
  split <;> omega

theorem shiftLeft_mul (x k : Nat) : x <<< k = x * 2 ^ k := Nat.shiftLeft_eq x k

/-- The five fields of a 25-bit offset put together. -/
theorem fields25 {a b c d e : Nat} (hb : b ≤ 1) (hc : c ≤ 1) (hd : d < 2 ^ 10) (he : e < 2 ^ 11) :
    (a <<< 24) ||| (b <<< 23) ||| (c <<< 22) ||| (d <<< 12) ||| (e <<< 1) =
      a * 2 ^ 24 + b * 2 ^ 23 + c * 2 ^ 22 + d * 2 ^ 12 + e * 2 := by
  simp only [shiftLeft_mul]
  rw [or_eq_add (x := a * 2 ^ 24) 24 (by omega) (by omega),
    or_eq_add (x := a * 2 ^ 24 + b * 2 ^ 23) 23 (by omega) (by omega),
    or_eq_add (x := a * 2 ^ 24 + b * 2 ^ 23 + c * 2 ^ 22) 22 (by omega) (by omega),
    or_eq_add (x := a * 2 ^ 24 + b * 2 ^ 23 + c * 2 ^ 22 + d * 2 ^ 12) 12 (by omega) (by omega)]

/-- The five fields of a 21-bit offset put together. -/
theorem fields21 {a b c d e : Nat} (hb : b ≤ 1) (hc : c ≤ 1) (hd : d < 2 ^ 6) (he : e < 2 ^ 11) :
    (a <<< 20) ||| (b <<< 19) ||| (c <<< 18) ||| (d <<< 12) ||| (e <<< 1) =
      a * 2 ^ 20 + b * 2 ^ 19 + c * 2 ^ 18 + d * 2 ^ 12 + e * 2 := by
  simp only [shiftLeft_mul]
  rw [or_eq_add (x := a * 2 ^ 20) 20 (by omega) (by omega),
    or_eq_add (x := a * 2 ^ 20 + b * 2 ^ 19) 19 (by omega) (by omega),
    or_eq_add (x := a * 2 ^ 20 + b * 2 ^ 19 + c * 2 ^ 18) 18 (by omega) (by omega),
    or_eq_add (x := a * 2 ^ 20 + b * 2 ^ 19 + c * 2 ^ 18 + d * 2 ^ 12) 12 (by omega) (by omega)]

/-- What the code computes from the fields of BL and B T4. -/
theorem offLong_fields {s i1 i2 imm10 imm11 : Nat} (hs : s ≤ 1) (h1 : i1 ≤ 1) (h2 : i2 ≤ 1)
    (hd : imm10 < 2 ^ 10) (he : imm11 < 2 ^ 11) {hi1 lo1 hi2 lo2 : Nat}
    (a1 : hi1 < 256) (a2 : hi2 < 256)
    (e1 : hi1 / 4 % 2 = s) (e2 : hi1 % 4 * 256 + lo1 = imm10) (l1 : lo1 < 256) (l2 : lo2 < 256)
    (e3 : hi2 / 32 % 2 = if i1 = s then 1 else 0) (e4 : hi2 / 8 % 2 = if i2 = s then 1 else 0)
    (e5 : hi2 % 8 * 256 + lo2 = imm11) (i : Nat) :
    offBl i (lo1, hi1) (lo2, hi2) =
      signExtend (s * 2 ^ 24 + i1 * 2 ^ 23 + i2 * 2 ^ 22 + imm10 * 2 ^ 12 + imm11 * 2) 25 +
        (2 * i + 4) ∧
    offB4 i (lo1, hi1) (lo2, hi2) =
      signExtend (s * 2 ^ 24 + i1 * 2 ^ 23 + i2 * 2 ^ 22 + imm10 * 2 ^ 12 + imm11 * 2) 25 +
        (2 * i + 4) := by
  unfold offBl offB4
  simp only
  rw [byte_bit2 _ a1, byte_bit5 _ a2, byte_bit3 _ a2, byte_bit5' _ a2, byte_bit3' _ a2,
    byte_and7 _ a2, byte_and3 _ a1, shiftLeft_mul (hi1 % 4), shiftLeft_mul (hi2 % 8),
    or_eq_add (x := hi1 % 4 * 2 ^ 8) (y := lo1) 8 (by omega) (by omega),
    or_eq_add (x := hi2 % 8 * 2 ^ 8) (y := lo2) 8 (by omega) (by omega),
    fields25 (bit_le _) (bit_le _) (by omega) (by omega), e1, e3, e4]
  have b0 : bit (decide (s = 1)) = s := by
    have : s = 0 ∨ s = 1 := by omega
    rcases this with h | h <;> subst h <;> rfl
  have b1 : ∀ t ≤ 1, bit (!(decide ((if t = s then 1 else 0) = 1) ^^ decide (s = 1))) = t := by
    intro t ht
    have h' : t = 0 ∨ t = 1 := by omega
    have h : s = 0 ∨ s = 1 := by omega
    rcases h with h | h <;> rcases h' with h' | h' <;> subst h <;> subst h' <;> rfl
  rw [b0, b1 _ h1, b1 _ h2]
  have d1 : hi1 % 4 * 2 ^ 8 + lo1 = imm10 := e2
  have d2 : hi2 % 8 * 2 ^ 8 + lo2 = imm11 := e5
  rw [d1, d2]
  exact ⟨rfl, rfl⟩

theorem signExtend25 {off : Int} (h2 : off % 2 = 0) (hl : -2 ^ 24 ≤ off) (hu : off < 2 ^ 24) :
    signExtend (off % 2 ^ 25).toNat 25 = off := by
  generalize hu' : (off % 2 ^ 25).toNat = u
  rw [signExtend_eq (by omega) (by omega) (by omega)]
  split <;> omega

theorem digits25 {u : Nat} (_h : u < 2 ^ 25) (h2 : u % 2 = 0) :
    u / 2 ^ 24 * 2 ^ 24 + u / 2 ^ 23 % 2 * 2 ^ 23 + u / 2 ^ 22 % 2 * 2 ^ 22 +
      u / 2 ^ 12 % 2 ^ 10 * 2 ^ 12 + u / 2 % 2 ^ 11 * 2 = u := by omega

theorem hw1_bytes {s m hw : Nat} (hs : s ≤ 1) (hm : m < 2 ^ 10)
    (h : 0xF000 + s * 2 ^ 10 + m = hw) :
    hw / 256 < 256 ∧ hw / 256 / 4 % 2 = s ∧ hw / 256 % 4 * 256 + hw % 256 = m := by
  omega

theorem hw2_bytes {op j1 j2 m hw : Nat} (hop : op = 0xD000 ∨ op = 0x9000 ∨ op = 0x8000)
    (h1 : j1 ≤ 1) (h2 : j2 ≤ 1) (hm : m < 2 ^ 11)
    (h : op + j1 * 2 ^ 13 + j2 * 2 ^ 11 + m = hw) :
    hw / 256 < 256 ∧ hw / 256 / 32 % 2 = j1 ∧ hw / 256 / 8 % 2 = j2 ∧
      hw / 256 % 8 * 256 + hw % 256 = m := by
  rcases hop with rfl | rfl | rfl <;> omega

/-- The offset of BL and B T4. -/
theorem offLong_eq {off : Int} {op hw1 hw2 : Nat} (i : Nat) (h2 : off % 2 = 0)
    (hl : -2 ^ 24 ≤ off) (hu : off < 2 ^ 24) (hop : op = 0xD000 ∨ op = 0x9000)
    (he : encLong op off = [hw1, hw2]) :
    offBl i (hw1 % 256, hw1 / 256) (hw2 % 256, hw2 / 256) = 2 * i + 4 + off ∧
    offB4 i (hw1 % 256, hw1 / 256) (hw2 % 256, hw2 / 256) = 2 * i + 4 + off := by
  have hse := signExtend25 h2 hl hu
  generalize hu' : (off % 2 ^ 25).toNat = u at hse
  have hd := digits25 (u := u) (by omega) (by omega)
  unfold encLong at he
  simp only [hu', List.cons.injEq, and_true] at he
  obtain ⟨he1, he2⟩ := he
  have hs1 : u / 2 ^ 24 ≤ 1 := by omega
  have hs2 : u / 2 ^ 23 % 2 ≤ 1 := by omega
  have hs3 : u / 2 ^ 22 % 2 ≤ 1 := by omega
  have hs4 : u / 2 ^ 12 % 2 ^ 10 < 2 ^ 10 := by omega
  have hs5 : u / 2 % 2 ^ 11 < 2 ^ 11 := by omega
  generalize u / 2 ^ 24 = s at *
  generalize u / 2 ^ 23 % 2 = i1 at *
  generalize u / 2 ^ 22 % 2 = i2 at *
  generalize u / 2 ^ 12 % 2 ^ 10 = imm10 at *
  generalize u / 2 % 2 ^ 11 = imm11 at *
  have hj1 : (if i1 = s then 1 else 0) ≤ 1 := by split <;> omega
  have hj2 : (if i2 = s then 1 else 0) ≤ 1 := by split <;> omega
  generalize hx1 : (if i1 = s then 1 else 0) = j1 at *
  generalize hx2 : (if i2 = s then 1 else 0) = j2 at *
  obtain ⟨a1, a2, a3⟩ := hw1_bytes hs1 hs4 he1
  obtain ⟨b1, b2, b3, b4⟩ := hw2_bytes (by rcases hop with h | h <;> simp [h]) hj1 hj2 hs5 he2
  have key := offLong_fields (s := s) (i1 := i1) (i2 := i2) (imm10 := imm10) (imm11 := imm11)
    hs1 hs2 hs3 hs4 hs5 (hi1 := hw1 / 256) (lo1 := hw1 % 256) (hi2 := hw2 / 256) (lo2 := hw2 % 256)
    a1 b1 a2 a3 (Nat.mod_lt _ (by decide)) (Nat.mod_lt _ (by decide)) (by rw [hx1]; exact b2)
    (by rw [hx2]; exact b3) b4 i
  rw [hd, hse] at key
  exact ⟨key.1.trans (Int.add_comm _ _), key.2.trans (Int.add_comm _ _)⟩

/-- What the code computes from the fields of B T3. -/
theorem offB3_fields {s j1 j2 imm6 imm11 : Nat} (hs : s ≤ 1) (h1 : j1 ≤ 1) (h2 : j2 ≤ 1)
    (he : imm11 < 2 ^ 11) {hi1 lo1 hi2 lo2 : Nat}
    (a1 : hi1 < 256) (a2 : hi2 < 256) (l1 : lo1 < 256) (l2 : lo2 < 256)
    (e1 : hi1 / 4 % 2 = s) (e2 : lo1 % 64 = imm6)
    (e3 : hi2 / 32 % 2 = j1) (e4 : hi2 / 8 % 2 = j2)
    (e5 : hi2 % 8 * 256 + lo2 = imm11) (i : Nat) :
    offB3 i (lo1, hi1) (lo2, hi2) =
      signExtend (s * 2 ^ 20 + j1 * 2 ^ 19 + j2 * 2 ^ 18 + imm6 * 2 ^ 12 + imm11 * 2) 21 +
        (2 * i + 4) := by
  unfold offB3
  simp only
  rw [byte_bit2 _ a1, byte_bit5 _ a2, byte_bit3 _ a2, byte_and7 _ a2, byte_and63 _ l1,
    shiftLeft_mul (hi2 % 8), or_eq_add (x := hi2 % 8 * 2 ^ 8) (y := lo2) 8 (by omega) (by omega),
    fields21 (bit_le _) (bit_le _) (by omega) (by omega), e1, e2, e3, e4]
  have b0 : ∀ t ≤ 1, bit (decide (t = 1)) = t := by
    intro t ht
    have : t = 0 ∨ t = 1 := by omega
    rcases this with h | h <;> subst h <;> rfl
  rw [b0 _ hs, b0 _ h1, b0 _ h2]
  have d2 : hi2 % 8 * 2 ^ 8 + lo2 = imm11 := e5
  rw [d2]

/-- The offset that the code computes for B T3: bits 18 and 19 are exchanged. -/
def swap1819 (off : Int) : Int :=
  off + (off / 2 ^ 18 % 2 - off / 2 ^ 19 % 2) * 2 ^ 18

theorem swap_digits {off : Int} {u : Nat} (h2 : off % 2 = 0) (hl : -2 ^ 20 ≤ off)
    (hu : off < 2 ^ 20) (hu' : (off % 2 ^ 21).toNat = u) :
    signExtend (u / 2 ^ 20 * 2 ^ 20 + u / 2 ^ 18 % 2 * 2 ^ 19 + u / 2 ^ 19 % 2 * 2 ^ 18 +
      u / 2 ^ 12 % 2 ^ 6 * 2 ^ 12 + u / 2 % 2 ^ 11 * 2) 21 = swap1819 off := by
  have hd : u / 2 ^ 20 * 2 ^ 20 + u / 2 ^ 19 % 2 * 2 ^ 19 + u / 2 ^ 18 % 2 * 2 ^ 18 +
      u / 2 ^ 12 % 2 ^ 6 * 2 ^ 12 + u / 2 % 2 ^ 11 * 2 = u := by omega
  have hsw : swap1819 off =
      off + ((u / 2 ^ 18 % 2 : Nat) - (u / 2 ^ 19 % 2 : Nat) : Int) * 2 ^ 18 := by
    have e1 : off / 2 ^ 18 % 2 = ((u / 2 ^ 18 % 2 : Nat) : Int) := by omega
    have e2 : off / 2 ^ 19 % 2 = ((u / 2 ^ 19 % 2 : Nat) : Int) := by omega
    unfold swap1819
    rw [e1, e2]
  have hs1 : u / 2 ^ 20 ≤ 1 := by omega
  have hs2 : u / 2 ^ 19 % 2 ≤ 1 := by omega
  have hs3 : u / 2 ^ 18 % 2 ≤ 1 := by omega
  have hs4 : u / 2 ^ 12 % 2 ^ 6 < 2 ^ 6 := by omega
  have hs5 : u / 2 % 2 ^ 11 < 2 ^ 11 := by omega
  rw [hsw]
  generalize u / 2 ^ 20 = s at *
  generalize u / 2 ^ 19 % 2 = j2 at *
  generalize u / 2 ^ 18 % 2 = j1 at *
  generalize u / 2 ^ 12 % 2 ^ 6 = imm6 at *
  generalize u / 2 % 2 ^ 11 = imm11 at *
  rw [signExtend_eq (by omega) (by omega) (by omega)]
  clear hsw
  split <;> omega

theorem hw1_bytes3 {s c m hw : Nat} (hs : s ≤ 1) (hc : c < 16) (hm : m < 2 ^ 6)
    (h : 0xF000 + s * 2 ^ 10 + c * 2 ^ 6 + m = hw) :
    hw / 256 < 256 ∧ hw / 256 / 4 % 2 = s ∧ hw % 256 % 64 = m := by
  omega

theorem offB3_eq {off : Int} {hw1 hw2 cond : Nat} (i : Nat) (h2 : off % 2 = 0)
    (hc : cond < 16) (hl : -2 ^ 20 ≤ off) (hu : off < 2 ^ 20)
    (he : encB3 cond off = [hw1, hw2]) :
    offB3 i (hw1 % 256, hw1 / 256) (hw2 % 256, hw2 / 256) = 2 * i + 4 + swap1819 off := by
  generalize hu' : (off % 2 ^ 21).toNat = u
  have hse := swap_digits h2 hl hu hu'
  unfold encB3 at he
  simp only [hu', List.cons.injEq, and_true] at he
  obtain ⟨he1, he2⟩ := he
  have hs1 : u / 2 ^ 20 ≤ 1 := by omega
  have hs5 : u / 2 % 2 ^ 11 < 2 ^ 11 := Nat.mod_lt _ (by decide)
  have hs2 : ∀ x : Nat, x % 2 ≤ 1 := fun x => by omega
  obtain ⟨a1, a2, a3⟩ := hw1_bytes3 hs1 hc (Nat.mod_lt _ (by decide)) he1
  obtain ⟨b1, b2, b3, b4⟩ := hw2_bytes (by decide) (hs2 _) (hs2 _) hs5 he2
  have key := offB3_fields hs1 (hs2 _) (hs2 _) hs5
    a1 b1 (Nat.mod_lt hw1 (by decide)) (Nat.mod_lt _ (by decide)) a2 a3 b2 b3 b4 i
  rw [key, hse, Int.add_comm]

/-- `thumb_expand_imm` agrees with the manual except for one form of constants. -/
theorem thumbExpandImm_table : ∀ a < 16, ∀ b < 256,
    thumbExpandImm (a * 256 + b) =
      if (a * 256 + b) / 256 = 1 then (a * 256 + b) % 256 * 2 ^ 8
      else armExpandImm (a * 256 + b) := by
  decide +kernel

theorem thumbExpandImm_eq {imm12 : Nat} (h : imm12 < 4096) :
    thumbExpandImm imm12 =
      if imm12 / 256 = 1 then imm12 % 256 * 2 ^ 8 else armExpandImm imm12 := by
  have := thumbExpandImm_table (imm12 / 256) (by omega) (imm12 % 256) (by omega)
  have e : imm12 / 256 * 256 + imm12 % 256 = imm12 := by omega
  rwa [e] at this

theorem popcount_push : ∀ lr : Bool, ∀ regs < 256,
    popcount16 ((flag lr <<< 14) ||| regs) = bitCount 8 regs + flag lr := by
  decide +kernel

theorem filter_shift (p : Nat → Bool) (w : Nat) :
    ((List.range (w + 1)).filter p).length =
      (if p 0 then 1 else 0) + ((List.range w).filter (fun k => p (k + 1))).length := by
  rw [List.range_succ_eq_map, List.filter_cons, List.filter_map, ]
  split
  · simp [Function.comp_def]; omega
  · simp [Function.comp_def]

theorem bitCount_eq (w x : Nat) :
    ((List.range w).filter (fun k => x.testBit k)).length = bitCount w x := by
  induction w generalizing x with
  | zero => rfl
  | succ w ih =>
    rw [filter_shift, bitCount, ← ih (x / 2)]
    congr 1
    · rw [Nat.testBit_zero]
      have : x % 2 = 0 ∨ x % 2 = 1 := by omega
      rcases this with h | h <;> simp [h]
    · simp only [Nat.testBit_succ]

theorem popcount16_eq (x : Nat) : popcount16 x = bitCount 16 x := bitCount_eq 16 x

theorem bitCount_add (w v x y : Nat) (hx : x < 2 ^ w) :
    bitCount (w + v) (y * 2 ^ w + x) = bitCount w x + bitCount v y := by
  induction w generalizing x with
  | zero =>
    have : x = 0 := by omega
    subst this
    simp [bitCount]
  | succ w ih =>
    have h1 : w + 1 + v = (w + v) + 1 := by omega
    rw [h1, bitCount, bitCount]
    have h2 : (y * 2 ^ (w + 1) + x) / 2 = y * 2 ^ w + x / 2 := by
      rw [Nat.pow_succ, ← Nat.mul_assoc]; omega
    have h3 : (y * 2 ^ (w + 1) + x) % 2 = x % 2 := by
      rw [Nat.pow_succ, ← Nat.mul_assoc]; omega
    rw [h2, h3, ih (x / 2) (by rw [Nat.pow_succ] at hx; omega)]
    omega

theorem popcount_pushW (lr : Bool) {regs : Nat} (h : regs < 2 ^ 13) :
    popcount16 (flag lr * 2 ^ 14 + regs) = bitCount 13 regs + flag lr := by
  rw [popcount16_eq]
  have : flag lr * 2 ^ 14 + regs = (2 * flag lr) * 2 ^ 13 + regs := by omega
  rw [this, bitCount_add 13 3 _ _ h]
  cases lr <;> rfl

end CallStack
