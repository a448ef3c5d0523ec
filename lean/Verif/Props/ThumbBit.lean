import Verif.Proof.Loaded
import Verif.Props.Symbols

/-!
Property C26: exactly which functions remain when the thumb bit is cleared (main.rs:398-405).
-/

namespace CallStack

theorem clearThumb_snoc (l : List (Nat × Sym)) (x : Nat × Sym) :
    clearThumb true (l ++ [x]) = mset (x.1 / 2 * 2) x.2 (clearThumb true l) := by
  simp [clearThumb]

/-- **C26** Exactly which functions remain: the one at the odd address, and the one at the even address if none is
at the odd address next to it. -/
theorem C26_remaining {defined : List (Nat × Sym)} (addressed : defined.Pairwise (fun x y => x.1 < y.1)) (a : Nat)
    (s : Sym) :
    (a, s) ∈ clearThumb true defined ↔
      a % 2 = 0 ∧ ((a + 1, s) ∈ defined ∨ ((a, s) ∈ defined ∧ ∀ s', (a + 1, s') ∉ defined)) := by
  generalize hr : defined.reverse = r
  obtain rfl : defined = r.reverse := by rw [← hr, List.reverse_reverse]
  clear hr
  induction r generalizing a s with
  | nil => simp [clearThumb]
  | cons x r ih =>
    rw [List.reverse_cons] at addressed ⊢
    obtain ⟨h1, -, h2⟩ := List.pairwise_append.1 addressed
    have hlt : ∀ e ∈ r.reverse, e.1 < x.1 := fun e he => h2 e he x (by simp)
    have hn : ((clearThumb true r.reverse).map (·.1)).Nodup := by
      rw [List.nodup_iff_pairwise_ne, List.pairwise_map]
      exact (clearThumb_sorted (t := true) h1).imp (fun h => Nat.ne_of_lt h)
    rw [clearThumb_snoc, mset_mem_iff _ _ _ hn, ih a s h1]
    obtain ⟨b, t⟩ := x
    simp only [List.mem_append, List.mem_singleton, Prod.mk.injEq, not_or]
    have no : ∀ c s', b ≤ c → (c, s') ∉ r.reverse := fun c s' hc h => absurd (hlt _ h) (by simpa using hc)
    by_cases hk : a = b / 2 * 2
    · rcases Nat.mod_two_eq_zero_or_one b with hb | hb
      · have hab : a = b := by omega
        subst hab
        have e1 := no a s (Nat.le_refl _)
        have e2 := fun s' => no (a + 1) s' (Nat.le_succ _)
        constructor
        · rintro (⟨_, rfl⟩ | ⟨_, h⟩)
          · exact ⟨hb, .inr ⟨.inr ⟨rfl, rfl⟩, fun s' => ⟨e2 s', fun h => by omega⟩⟩⟩
          · exact absurd hk h
        · rintro ⟨_, (h | ⟨h, _⟩) | ⟨h | ⟨_, rfl⟩, _⟩⟩
          · exact absurd h (e2 s)
          · omega
          · exact absurd h e1
          · exact .inl ⟨hk, rfl⟩
      · have hab : a + 1 = b := by omega
        have e1 := fun s' => no (a + 1) s' (by omega)
        have e2 : a % 2 = 0 := by omega
        constructor
        · rintro (⟨_, rfl⟩ | ⟨_, h⟩)
          · exact ⟨e2, .inl (.inr ⟨hab, rfl⟩)⟩
          · exact absurd hk h
        · rintro ⟨_, (h | ⟨_, rfl⟩) | ⟨_, h⟩⟩
          · exact absurd h (e1 s)
          · exact .inl ⟨hk, rfl⟩
          · exact absurd ⟨hab, rfl⟩ (h t).2
    · constructor
      · rintro (⟨h, _⟩ | ⟨⟨h0, h⟩, _⟩)
        · exact absurd h hk
        · refine ⟨h0, h.imp .inl (fun ⟨h3, h4⟩ => ⟨.inl h3, fun s' => ⟨h4 s', fun h5 => hk (by omega)⟩⟩)⟩
      · rintro ⟨h0, (h | ⟨h, _⟩) | ⟨h | ⟨h, _⟩, h4⟩⟩
        · exact .inr ⟨⟨h0, .inl h⟩, hk⟩
        · exact absurd (by omega) hk
        · exact .inr ⟨⟨h0, .inr ⟨h, fun s' => (h4 s').1⟩⟩, hk⟩
        · exact absurd (by omega) hk

/-- **C26** Clearing the thumb bit keeps every function exactly if no two addresses differ only in this bit. -/
theorem C26_kept_iff {defined : List (Nat × Sym)} (addressed : defined.Pairwise (fun x y => x.1 < y.1)) :
    clearThumb true defined = defined.map (fun e => (e.1 - e.1 % 2, e.2)) ↔
      ∀ x ∈ defined, ∀ y ∈ defined, x.1 < y.1 → ¬ (x.1 % 2 = 0 ∧ y.1 = x.1 + 1) := by
  constructor
  · intro h x hx y hy hlt ⟨h0, h1⟩
    have hs := clearThumb_sorted (t := true) addressed
    rw [h] at hs
    have hn : (defined.map (fun e => e.1 - e.1 % 2)).Nodup := by
      rw [List.nodup_iff_pairwise_ne, List.pairwise_map]
      exact (List.pairwise_map.1 hs).imp (fun h => Nat.ne_of_lt h)
    have := inj_of_nodup hn hx hy (by omega)
    rw [this] at hlt
    exact Nat.lt_irrefl _ hlt
  · exact fun h => (C26_thumb_bit addressed h).1
where
  /-- A map without repetitions is injective on the list. -/
  inj_of_nodup {α β : Type} {f : α → β} {l : List α} (hn : (l.map f).Nodup) {x y : α} (hx : x ∈ l) (hy : y ∈ l)
      (h : f x = f y) : x = y := by
    induction l with
    | nil => simp at hx
    | cons a l ih =>
      rw [List.map_cons, List.nodup_cons] at hn
      rcases List.mem_cons.1 hx with hx' | hx' <;> rcases List.mem_cons.1 hy with hy' | hy'
      · rw [hx', hy']
      · exact absurd (List.mem_map.2 ⟨y, hy', by rw [← h, hx']⟩) hn.1
      · exact absurd (List.mem_map.2 ⟨x, hx', by rw [h, hy']⟩) hn.1
      · exact ih hn.2 hx' hy'

/-- In this table one pair collides: the function at the odd address remains. -/
example : clearThumb true [(4, ⟨[c!"z"], 2⟩), (8, ⟨[c!"a"], 2⟩), (9, ⟨[c!"b"], 4⟩), (13, ⟨[c!"c"], 4⟩)] =
    [(4, ⟨[c!"z"], 2⟩), (8, ⟨[c!"b"], 4⟩), (12, ⟨[c!"c"], 4⟩)] := by decide

end CallStack
