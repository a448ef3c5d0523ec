import Verif.Proof.Driver

/-!
Clearing the thumb bit keeps the symbols sorted by address.
-/

namespace CallStack

/-- Setting a key that is not below the others keeps a sorted list sorted. -/
theorem mset_sorted {k : Nat} {v : Sym} {m : List (Nat × Sym)} (hm : m.Pairwise (fun x y => x.1 < y.1))
    (hk : ∀ e ∈ m, e.1 ≤ k) :
    (mset k v m).Pairwise (fun x y => x.1 < y.1) ∧ ∀ e ∈ mset k v m, e.1 ≤ k := by
  induction m with
  | nil => simp [mset]
  | cons e m ih =>
    obtain ⟨a, b⟩ := e
    obtain ⟨h1, h2⟩ := List.pairwise_cons.mp hm
    unfold mset
    split
    · rename_i hka
      subst hka
      exact ⟨List.pairwise_cons.mpr ⟨h1, h2⟩, by
        intro e he
        rcases List.mem_cons.mp he with rfl | he
        · exact Nat.le_refl _
        · exact hk e (List.mem_cons_of_mem _ he)⟩
    · rename_i hka
      obtain ⟨h3, h4⟩ := ih h2 (fun e he => hk e (List.mem_cons_of_mem _ he))
      have hak : a < k := by
        have := hk (a, b) List.mem_cons_self
        simp only at this
        omega
      refine ⟨List.pairwise_cons.mpr ⟨?_, h3⟩, ?_⟩
      · intro e he
        have : e.1 ∈ (mset k v m).map (·.1) := List.mem_map_of_mem he
        rcases (mset_keys k v m e.1).mp this with h | h
        · rw [h]; exact hak
        · obtain ⟨e', he', h⟩ := List.mem_map.mp h
          rw [← h]
          exact h1 e' he'
      · intro e he
        rcases List.mem_cons.mp he with rfl | he
        · omega
        · exact h4 e he

theorem clearThumb_sorted {t : Bool} {defined : List (Nat × Sym)}
    (h : defined.Pairwise (fun x y => x.1 < y.1)) : (clearThumb t defined).Pairwise (fun x y => x.1 < y.1) := by
  unfold clearThumb
  split
  swap
  · exact h
  suffices ∀ (l m : List (Nat × Sym)), l.Pairwise (fun x y => x.1 < y.1) → m.Pairwise (fun x y => x.1 < y.1) →
      (∀ x ∈ m, ∀ y ∈ l, x.1 ≤ y.1 / 2 * 2) →
      (l.foldl (fun m e => mset (e.1 / 2 * 2) e.2 m) m).Pairwise (fun x y => x.1 < y.1) from
    this defined [] h List.Pairwise.nil (by simp)
  intro l
  induction l with
  | nil => intro m _ hm _; exact hm
  | cons e l ih =>
    intro m hl hm hb
    obtain ⟨h1, h2⟩ := List.pairwise_cons.mp hl
    obtain ⟨h3, h4⟩ := mset_sorted (v := e.2) hm (fun x hx => hb x hx e List.mem_cons_self)
    rw [List.foldl_cons]
    refine ih _ h2 h3 ?_
    intro x hx y hy
    have := h4 x hx
    have := h1 y hy
    omega

end CallStack
