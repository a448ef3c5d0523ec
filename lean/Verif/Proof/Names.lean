import Verif.Model.Names
import Verif.Spec.Names
import Verif.Proof.Str

/-! Lemmas about names. -/

namespace CallStack

theorem byteLen_append (a b : Str) : byteLen (a ++ b) = byteLen a + byteLen b := by
  simp [byteLen]

theorem utf8Len_eq (s : Str) : utf8Len s = byteLen s := by
  induction s with
  | nil => rfl
  | cons c s ih => simp [utf8Len, byteLen, ih]

theorem utf8Size_pos (c : Char) : 0 < c.utf8Size := c.utf8Size_pos

theorem byteLen_eq_zero {s : Str} (h : byteLen s = 0) : s = [] := by
  cases s with
  | nil => rfl
  | cons c s =>
    have := utf8Size_pos c
    simp [byteLen] at h
    omega

theorem splitAtByte_iff (s : Str) (k : Nat) (a b : Str) :
    splitAtByte s k = some (a, b) ↔ s = a ++ b ∧ byteLen a = k := by
  induction s generalizing k a b with
  | nil =>
    cases k with
    | zero =>
      simp only [splitAtByte, Option.some.injEq, Prod.mk.injEq]
      constructor
      · rintro ⟨rfl, rfl⟩; simp [byteLen]
      · rintro ⟨h, _⟩
        have := List.append_eq_nil_iff.mp h.symm
        exact ⟨this.1.symm, this.2.symm⟩
    | succ k =>
      simp only [splitAtByte, reduceCtorEq, false_iff]
      rintro ⟨h, h2⟩
      have := List.append_eq_nil_iff.mp h.symm
      simp [this.1, byteLen] at h2
  | cons c s ih =>
    cases k with
    | zero =>
      simp only [splitAtByte, Option.some.injEq, Prod.mk.injEq]
      constructor
      · rintro ⟨rfl, rfl⟩; simp [byteLen]
      · rintro ⟨h, h2⟩
        have := byteLen_eq_zero h2
        subst this
        exact ⟨rfl, by simpa using h⟩
    | succ k =>
      simp only [splitAtByte]
      have hc := utf8Size_pos c
      by_cases hle : c.utf8Size ≤ k + 1
      · rw [if_pos hle]
        cases a with
        | nil =>
          cases hsp : splitAtByte s (k + 1 - c.utf8Size) with
          | none => simp [byteLen]
          | some ab => simp [byteLen]
        | cons x a =>
          have := ih (k + 1 - c.utf8Size) a b
          cases hsp : splitAtByte s (k + 1 - c.utf8Size) with
          | none =>
            rw [hsp] at this
            simp only [reduceCtorEq, false_iff, not_and] at this ⊢
            rintro h h2
            simp only [List.cons_append, List.cons.injEq] at h
            obtain ⟨rfl, h⟩ := h
            refine this h ?_
            simp [byteLen] at h2 ⊢
            omega
          | some ab =>
            rw [hsp] at this
            obtain ⟨a', b'⟩ := ab
            simp only [Option.some.injEq, Prod.mk.injEq, List.cons.injEq, List.cons_append] at this ⊢
            constructor
            · rintro ⟨⟨rfl, rfl⟩, rfl⟩
              have := this.mp ⟨rfl, rfl⟩
              refine ⟨⟨rfl, this.1⟩, ?_⟩
              have h2 := this.2
              simp [byteLen] at h2 ⊢
              omega
            · rintro ⟨⟨rfl, h⟩, h2⟩
              have := this.mpr ⟨h, by simp [byteLen] at h2 ⊢; omega⟩
              exact ⟨⟨rfl, this.1⟩, this.2⟩
      · rw [if_neg hle]
        simp only [reduceCtorEq, false_iff]
        rintro ⟨h, h2⟩
        cases a with
        | nil => simp [byteLen] at h2
        | cons x a =>
          simp only [List.cons_append, List.cons.injEq] at h
          obtain ⟨rfl, h⟩ := h
          simp [byteLen] at h2
          omega

theorem dehash_iff (s p : Str) : dehash s = some p ↔ HashOf p s := by
  unfold dehash HashOf
  simp only [utf8Len_eq]
  by_cases hl : byteLen s > 19
  · rw [if_pos hl]
    constructor
    · intro h
      cases hsp : splitAtByte s (byteLen s - 19) with
      | none => simp [hsp] at h
      | some ab =>
        obtain ⟨a, b⟩ := ab
        obtain ⟨h1, h2⟩ := (splitAtByte_iff _ _ _ _).mp hsp
        simp only [hsp] at h
        by_cases hp : startsWith b c!"::h" = true
        · rw [if_pos hp] at h
          simp only [Option.some.injEq] at h
          subst h
          have h3 := byteLen_append a b
          rw [← h1] at h3
          refine ⟨?_, b, h1, by omega, (startsWith_iff _ _).mp hp⟩
          rintro rfl
          have h0 : byteLen [] = 0 := rfl
          omega
        · simp [hp] at h
    · rintro ⟨_, suf, rfl, h2, h3⟩
      have h4 := byteLen_append p suf
      have : splitAtByte (p ++ suf) (byteLen (p ++ suf) - 19) = some (p, suf) :=
        (splitAtByte_iff _ _ _ _).mpr ⟨rfl, by omega⟩
      simp [this, (startsWith_iff _ _).mpr h3]
  · rw [if_neg hl]
    simp only [reduceCtorEq, false_iff]
    rintro ⟨hne, suf, rfl, h2, _⟩
    rw [byteLen_append] at hl
    have : byteLen p ≠ 0 := fun h => hne (byteLen_eq_zero h)
    omega

/-! ### counting -/

theorem lookupStr_bump (k k' : Str) (l : List (Str × Nat)) :
    lookupStr k (bump k' l) =
      if k = k' then some ((lookupStr k l).getD 0 + 1) else lookupStr k l := by
  induction l with
  | nil =>
    simp only [bump, lookupStr]
    by_cases h : k = k'
    · simp [h]
    · have : k' ≠ k := fun e => h e.symm
      simp [h, this]
  | cons e l ih =>
    obtain ⟨x, n⟩ := e
    simp only [bump]
    by_cases hx : x = k'
    · subst hx
      simp only [if_true, lookupStr]
      by_cases h : k = x
      · simp [h]
      · have : x ≠ k := fun e => h e.symm
        simp [h, this]
    · rw [if_neg hx]
      simp only [lookupStr]
      by_cases h : x = k
      · subst h
        simp [hx]
      · simp only [if_neg h, ih]

theorem ambiguous_fold (demangle : Str → Str) (live : List Str) (acc : List (Str × Nat)) (d : Str) :
    (lookupStr d (live.foldl (countName demangle) acc)).getD 0 =
      (lookupStr d acc).getD 0 + live.countP (fun n => dehash (demangle n) = some d) := by
  induction live generalizing acc with
  | nil => simp
  | cons n live ih =>
    rw [List.foldl_cons, ih, List.countP_cons]
    cases hd : dehash (demangle n) with
    | none => simp [countName, hd]
    | some d' =>
      simp only [countName, hd, lookupStr_bump]
      by_cases h : d = d'
      · subst h; simp; omega
      · have : d' ≠ d := fun e => h e.symm
        simp [h, this]

theorem ambiguous_pos (demangle : Str → Str) (live : List Str) (acc : List (Str × Nat)) (d : Str) :
    (lookupStr d (live.foldl (countName demangle) acc)).isSome =
      ((lookupStr d acc).isSome || live.any (fun n => dehash (demangle n) = some d)) := by
  induction live generalizing acc with
  | nil => simp
  | cons n live ih =>
    rw [List.foldl_cons, ih, List.any_cons]
    cases hd : dehash (demangle n) with
    | none => simp [countName, hd]
    | some d' =>
      simp only [countName, hd, lookupStr_bump]
      by_cases h : d = d'
      · subst h; simp
      · have : d' ≠ d := fun e => h e.symm
        simp [h, this]

/-- The number stored for a hashless name is the number of live symbols with that hashless name; the
name is missing if there are none. -/
theorem lookup_ambiguous (demangle : Str → Str) (live : List Str) (d : Str) :
    lookupStr d (ambiguousOf demangle live) =
      if live.countP (fun n => dehash (demangle n) = some d) = 0 then none
      else some (live.countP (fun n => dehash (demangle n) = some d)) := by
  have h1 := ambiguous_fold demangle live [] d
  have h2 := ambiguous_pos demangle live [] d
  simp only [lookupStr, Option.getD_none, Nat.zero_add, Option.isSome_none, Bool.false_or] at h1 h2
  unfold ambiguousOf
  cases hl : lookupStr d (live.foldl (countName demangle) []) with
  | none =>
    rw [hl] at h1
    simp only [Option.getD_none] at h1
    rw [← h1]; simp
  | some n =>
    rw [hl] at h1 h2
    simp only [Option.getD_some, Option.isSome_some] at h1 h2
    have : 0 < live.countP (fun n => dehash (demangle n) = some d) := by
      rw [List.countP_pos_iff]
      have := h2.symm
      rw [List.any_eq_true] at this
      exact this
    rw [if_neg (by omega), h1]

theorem countP_one {α : Type} {p : α → Bool} {l : List α} {i : Nat} {a : α} (hi : l[i]? = some a)
    (hp : p a = true) :
    l.countP p = 1 ↔ ∀ j b, l[j]? = some b → p b = true → j = i := by
  induction l generalizing i with
  | nil => simp at hi
  | cons x l ih =>
    rw [List.countP_cons]
    cases i with
    | zero =>
      simp only [List.getElem?_cons_zero, Option.some.injEq] at hi
      subst hi
      simp only [hp, if_true]
      constructor
      · intro h j b hj hb
        cases j with
        | zero => rfl
        | succ j =>
          simp only [List.getElem?_cons_succ] at hj
          have : 0 < l.countP p := List.countP_pos_iff.mpr ⟨b, List.mem_of_getElem? hj, hb⟩
          omega
      · intro h
        have : l.countP p = 0 := by
          rw [List.countP_eq_zero]
          intro b hb hpb
          obtain ⟨j, hj⟩ := List.mem_iff_getElem?.mp hb
          have := h (j + 1) b (by simpa using hj) hpb
          omega
        omega
    | succ i =>
      simp only [List.getElem?_cons_succ] at hi
      have hpos : 0 < l.countP p := List.countP_pos_iff.mpr ⟨a, List.mem_of_getElem? hi, hp⟩
      constructor
      · intro h
        have hx : ¬ p x = true := by
          intro hx; rw [if_pos hx] at h; omega
        simp only [hx, Bool.false_eq_true, if_false, Nat.add_zero] at h
        intro j b hj hb
        cases j with
        | zero =>
          simp only [List.getElem?_cons_zero, Option.some.injEq] at hj
          exact absurd (hj ▸ hb) hx
        | succ j =>
          simp only [List.getElem?_cons_succ] at hj
          rw [(ih hi).mp h j b hj hb]
      · intro h
        have hx : ¬ p x = true := fun hx => by
          have := h 0 x (by simp) hx
          omega
        simp only [hx, Bool.false_eq_true, if_false, Nat.add_zero]
        rw [ih hi]
        intro j b hj hb
        have := h (j + 1) b (by simpa using hj) hb
        omega

/-! ### numbers -/

theorem mem_digits (c : Char) : c ∈ c!"0123456789" ↔ 48 ≤ c.toNat ∧ c.toNat ≤ 57 := by
  constructor
  · intro h
    simp only [List.mem_cons, List.not_mem_nil, or_false] at h
    rcases h with rfl | rfl | rfl | rfl | rfl | rfl | rfl | rfl | rfl | rfl <;> decide
  · rintro ⟨h1, h2⟩
    have hc : Char.ofNat c.toNat = c := Char.ofNat_toNat c
    rw [← hc]
    generalize c.toNat = n at h1 h2
    have : n = 48 ∨ n = 49 ∨ n = 50 ∨ n = 51 ∨ n = 52 ∨ n = 53 ∨ n = 54 ∨ n = 55 ∨ n = 56 ∨ n = 57 := by
      omega
    rcases this with h | h | h | h | h | h | h | h | h | h <;> subst h <;> decide

theorem foldl_dec_mono (s : Str) (acc : Nat) :
    acc ≤ s.foldl (fun n c => 10 * n + (c.toNat - '0'.toNat)) acc := by
  induction s generalizing acc with
  | nil => simp
  | cons c s ih =>
    rw [List.foldl_cons]
    have := ih (10 * acc + (c.toNat - '0'.toNat))
    omega

theorem parseDigits_iff (s : Str) (acc n : Nat) :
    parseDigits acc s = some n ↔
      (∀ c ∈ s, c ∈ c!"0123456789") ∧
      s.foldl (fun n c => 10 * n + (c.toNat - '0'.toNat)) acc = n ∧ (s = [] ∨ n < 2 ^ 64) := by
  induction s generalizing acc with
  | nil => simp [parseDigits]
  | cons c s ih =>
    simp only [parseDigits]
    by_cases hc : 48 ≤ c.toNat ∧ c.toNat ≤ 57
    · simp only [digitVal, hc, and_self, if_true, List.foldl_cons]
      have h0 : '0'.toNat = 48 := rfl
      have hacc : acc * 10 + (c.toNat - 48) = 10 * acc + (c.toNat - '0'.toNat) := by omega
      by_cases hov : acc * 10 < 2 ^ 64 ∧ acc * 10 + (c.toNat - 48) < 2 ^ 64
      · rw [if_pos hov, ih, hacc]
        have hcm : c ∈ c!"0123456789" := (mem_digits c).mpr hc
        have : ∀ P : Prop, P ∧ (∀ x ∈ c :: s, x ∈ c!"0123456789") ↔ P ∧ ∀ x ∈ s, x ∈ c!"0123456789" := by
          intro P
          constructor
          · rintro ⟨p, h⟩; exact ⟨p, fun x hx => h x (.tail _ hx)⟩
          · rintro ⟨p, h⟩
            refine ⟨p, fun x hx => ?_⟩
            rcases List.mem_cons.mp hx with rfl | hx
            · exact hcm
            · exact h x hx
        constructor
        · rintro ⟨h1, h2, h3⟩
          refine ⟨((this True).mpr ⟨trivial, h1⟩).2, h2, .inr ?_⟩
          rcases h3 with rfl | h3
          · simp at h2; omega
          · exact h3
        · rintro ⟨h1, h2, h3⟩
          refine ⟨fun x hx => h1 x (.tail _ hx), h2, ?_⟩
          rcases h3 with h3 | h3
          · simp at h3
          · exact .inr h3
      · rw [if_neg hov]
        simp only [reduceCtorEq, false_iff]
        rintro ⟨h1, h2, h3⟩
        have := foldl_dec_mono s (10 * acc + (c.toNat - '0'.toNat))
        rcases h3 with h3 | h3
        · simp at h3
        · omega
    · simp only [digitVal, hc, if_false, reduceCtorEq, false_iff]
      rintro ⟨h1, _⟩
      exact hc ((mem_digits c).mp (h1 c (by simp)))

theorem parseDigits_isDecimal {s : Str} (hs : s ≠ []) (n : Nat) :
    parseDigits 0 s = some n ↔ IsDecimal s n ∧ n < 2 ^ 64 := by
  rw [parseDigits_iff]
  unfold IsDecimal decValue
  simp [hs, and_assoc]

theorem parseU64_iff (s : Str) (n : Nat) :
    parseU64 s = some n ↔ n < 2 ^ 64 ∧ (IsDecimal s n ∨ ∃ t, s = '+' :: t ∧ IsDecimal t n) := by
  have hplus : '+' ∉ c!"0123456789" := by decide
  unfold parseU64
  split
  · simp [IsDecimal]
  · simp only [reduceCtorEq, false_iff]
    rintro ⟨_, h | ⟨t, h1, h2⟩⟩
    · exact hplus (h.2.1 '+' (by simp))
    · simp only [List.cons.injEq, true_and] at h1
      subst h1
      exact h2.1 rfl
  · rename_i rest hne
    have hr : rest ≠ [] := by
      rintro rfl; exact hne rfl
    rw [parseDigits_isDecimal hr]
    constructor
    · rintro ⟨h1, h2⟩; exact ⟨h2, .inr ⟨rest, rfl, h1⟩⟩
    · rintro ⟨h2, h | ⟨t, h1, h3⟩⟩
      · exact absurd (h.2.1 '+' (by simp)) hplus
      · simp only [List.cons.injEq, true_and] at h1
        subst h1
        exact ⟨h3, h2⟩
  · rename_i h1 h2 h3
    have hne : s ≠ [] := h1
    rw [parseDigits_isDecimal hne]
    constructor
    · rintro ⟨h1, h2⟩; exact ⟨h2, .inl h1⟩
    · rintro ⟨h, h' | ⟨t, ht, _⟩⟩
      · exact ⟨h', h⟩
      · exact absurd ht (h3 t)

theorem stripPrefix_iff (s p t : Str) : stripPrefix s p = some t ↔ s = p ++ t := by
  induction p generalizing s with
  | nil => simp [stripPrefix]
  | cons x p ih =>
    cases s with
    | nil => simp [stripPrefix]
    | cons c s =>
      simp only [stripPrefix]
      by_cases h : c = x
      · simp [h, ih]
      · simp [h]

theorem isOutlined_iff (name : Str) : isOutlined name = true ↔ OutlinedName name := by
  unfold isOutlined
  constructor
  · intro h
    cases hs : stripPrefix name c!"OUTLINED_FUNCTION_" with
    | none => simp [hs] at h
    | some number =>
      simp only [hs, Option.isSome_iff_exists] at h
      obtain ⟨n, hn⟩ := h
      exact ⟨number, n, (stripPrefix_iff _ _ _).mp hs, (parseU64_iff _ _).mp hn⟩
  · rintro ⟨number, n, h1, h2⟩
    simp only [(stripPrefix_iff _ _ _).mpr h1, (parseU64_iff _ _).mpr h2, Option.isSome_some]

end CallStack
