import Verif.Proof.IrGood
import Verif.Proof.Names

/-!
The line number of a parse error.
-/

namespace CallStack

theorem splitInclusive_ne (c : Char) (s : Str) : splitInclusive (c :: s) ≠ [] := by
  unfold splitInclusive
  split
  · simp
  · split <;> simp

theorem findLine_eq (done : Str) (c : Char) (rest : Str) : ∀ n : Nat,
    findLine (utf8Len done) n (splitInclusive (done ++ c :: rest)) = some (n + done.count '\n' + 1) := by
  induction done with
  | nil =>
    intro n
    obtain ⟨l, ls, hl⟩ := List.exists_cons_of_ne_nil (splitInclusive_ne c rest)
    have hpos : 0 < utf8Len l := by
      have h := hl
      unfold splitInclusive at h
      have := utf8Size_pos c
      split at h
      · injection h with h _; subst h; simpa [utf8Len] using this
      · split at h
        · injection h with h _; subst h; simpa [utf8Len] using this
        · injection h with h _; subst h; simp only [utf8Len]; omega
    rw [List.nil_append, hl]
    have h0 : utf8Len [] = 0 := rfl
    rw [findLine, if_neg (by omega)]
    rfl
  | cons d done ih =>
    intro n
    obtain ⟨l, ls, hl⟩ : ∃ l ls, splitInclusive (done ++ c :: rest) = l :: ls := by
      cases done with
      | nil => exact List.exists_cons_of_ne_nil (splitInclusive_ne c rest)
      | cons e done => exact List.exists_cons_of_ne_nil (splitInclusive_ne e _)
    by_cases hd : d = '\n'
    · subst hd
      rw [List.cons_append, splitInclusive, if_pos rfl, findLine]
      have h1 : utf8Len ['\n'] = 1 := rfl
      have h2 : utf8Len ('\n' :: done) = 1 + utf8Len done := rfl
      rw [if_pos (by omega), h1, h2, Nat.add_sub_cancel_left, ih (n + 1), List.count_cons_self]
      congr 1
      omega
    · have := ih n
      rw [hl, findLine] at this
      rw [List.cons_append, splitInclusive, if_neg hd, hl]
      have h1 : utf8Len (d :: l) = d.utf8Size + utf8Len l := rfl
      have h2 : utf8Len (d :: done) = d.utf8Size + utf8Len done := rfl
      rw [findLine, List.count_cons_of_ne hd]
      by_cases h : utf8Len l ≤ utf8Len done
      · rw [if_pos h] at this
        rw [if_pos (by omega)]
        rw [h1, h2, Nat.add_sub_add_left]
        exact this
      · rw [if_neg h] at this
        rw [if_neg (by omega)]
        exact this

theorem utf8Len_append (a b : Str) : utf8Len (a ++ b) = utf8Len a + utf8Len b := by
  rw [utf8Len_eq, utf8Len_eq, utf8Len_eq, byteLen_append]

theorem itemsP_cases (u : CharClass) (ll : Str) :
    (∃ items, itemsP u ll = .ok items) ∨
    ∃ done c rest, ll = done ++ c :: rest ∧ itemsP u ll = .failure (c :: rest) := by
  obtain h1 := good_sepList0 (eats_many1 eats_lineEnding) (eats_itemP u).good ll (Nat.lt_succ_self _)
  unfold itemsP
  cases hs : sepList0 (many1 lineEnding) (itemP u) ll with
  | stuck => exact absurd hs h1.1
  | error =>
    unfold sepList0 at hs
    split at hs
    · exact absurd hs (by simp)
    · rename_i h; exact absurd hs h
  | ok r items =>
    have h2 := h1.2 r items hs
    obtain ⟨r', as, h3, h4⟩ := many0_ok eats_lineEnding r (Nat.lt_succ_self _)
    simp only [h3]
    cases r' with
    | nil => exact .inl ⟨items, rfl⟩
    | cons c rest =>
      obtain ⟨done, hd⟩ := h4.trans h2
      exact .inr ⟨done, c, rest, hd.symm, rfl⟩

end CallStack
