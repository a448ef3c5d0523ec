import Verif.Proof.Maps

/-! Lemmas about the preparation of the symbols (main.rs:397-418). -/

namespace CallStack

theorem mset_fresh {κ β : Type} [DecidableEq κ] (k : κ) (v : β) (m : List (κ × β))
    (h : ∀ e ∈ m, e.1 ≠ k) : mset k v m = m ++ [(k, v)] := by
  induction m with
  | nil => rfl
  | cons x m ih =>
    have hx : ¬ x.1 = k := h x List.mem_cons_self
    simp only [mset, hx, if_false, List.cons_append]
    rw [ih (fun e he => h e (List.mem_cons_of_mem _ he))]

theorem clearThumb_fold (l : List (Nat × Sym)) : ∀ (m : List (Nat × Sym)),
    (∀ e ∈ m, ∀ x ∈ l, e.1 ≠ x.1 / 2 * 2) →
    l.Pairwise (fun x y => x.1 / 2 ≠ y.1 / 2) →
    l.foldl (fun m e => mset (e.1 / 2 * 2) e.2 m) m = m ++ l.map (fun e => (e.1 / 2 * 2, e.2)) := by
  induction l with
  | nil => simp
  | cons x l ih =>
    intro m hm hp
    rw [List.pairwise_cons] at hp
    rw [List.foldl_cons, mset_fresh _ _ _ (fun e he => hm e he x List.mem_cons_self),
      ih _ ?_ hp.2]
    · simp
    · intro e he y hy
      rcases List.mem_append.mp he with he | he
      · exact hm e he y (List.mem_cons_of_mem _ hy)
      · simp only [List.mem_singleton] at he
        subst he
        have := hp.1 y hy
        simp only
        omega

theorem rsplitAt2_some {s a b : Str} (h : rsplitAt2 s = some (a, b)) : s = a ++ c!"@@" ++ b := by
  induction s generalizing a b with
  | nil => simp [rsplitAt2] at h
  | cons c s ih =>
    unfold rsplitAt2 at h
    cases hr : rsplitAt2 s with
    | some p =>
      obtain ⟨a', b'⟩ := p
      rw [hr] at h
      simp only [Option.some.injEq, Prod.mk.injEq] at h
      obtain ⟨rfl, rfl⟩ := h
      rw [ih hr]
      simp
    | none =>
      rw [hr] at h
      simp only at h
      split at h
      · simp only [Option.some.injEq, Prod.mk.injEq] at h
        obtain ⟨rfl, rfl⟩ := h
        rfl
      · simp at h

theorem rsplitAt2_none {s : Str} (h : rsplitAt2 s = none) (x y : Str) : s ≠ x ++ c!"@@" ++ y := by
  induction s generalizing x y with
  | nil => simp
  | cons c s ih =>
    unfold rsplitAt2 at h
    cases hr : rsplitAt2 s with
    | some p =>
      obtain ⟨a', b'⟩ := p
      rw [hr] at h
      simp at h
    | none =>
      rw [hr] at h
      intro he
      cases x with
      | nil =>
        simp only [List.nil_append, List.cons_append, List.cons.injEq] at he
        rw [he.1, he.2] at h
        simp at h
      | cons x0 x =>
        simp only [List.cons_append, List.cons.injEq] at he
        exact ih hr x y he.2

end CallStack
