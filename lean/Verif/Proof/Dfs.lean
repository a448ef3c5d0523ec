import Verif.Proof.Reach
import Mathlib.Data.List.Perm.Subperm

/-! Correctness of the depth first searches. -/

namespace CallStack

/-- Edge relation given by a neighbour function. -/
abbrev adjRel (adj : Nat → List Nat) (a b : Nat) : Prop := b ∈ adj a

theorem length_le_of_nodup_lt {l : List Nat} {n : Nat} (hn : l.Nodup) (h : ∀ x ∈ l, x < n) :
    l.length ≤ n := by
  have : l ⊆ List.range n := fun x hx => List.mem_range.mpr (h x hx)
  simpa using (List.subperm_of_subset hn this).length_le

theorem mem_pushUnvisited {vis succs stack : List Nat} {x : Nat} :
    x ∈ pushUnvisited vis succs stack ↔ (x ∈ succs ∧ x ∉ vis) ∨ x ∈ stack := by
  induction succs generalizing stack with
  | nil => simp [pushUnvisited]
  | cons s ss ih =>
    simp only [pushUnvisited, ih]
    by_cases hs : s ∈ vis
    · have : vis.contains s = true := by simpa using hs
      simp only [this, if_true, List.mem_cons]
      constructor
      · rintro (⟨h1, h2⟩ | h)
        · exact .inl ⟨.inr h1, h2⟩
        · exact .inr h
      · rintro (⟨rfl | h1, h2⟩ | h)
        · exact absurd hs h2
        · exact .inl ⟨h1, h2⟩
        · exact .inr h
    · have : vis.contains s = false := by simpa using hs
      simp only [this, Bool.false_eq_true, if_false, List.mem_cons]
      constructor
      · rintro (⟨h1, h2⟩ | rfl | h)
        · exact .inl ⟨.inr h1, h2⟩
        · exact .inl ⟨.inl rfl, hs⟩
        · exact .inr h
      · rintro (⟨rfl | h1, h2⟩ | h)
        · exact .inr (.inl rfl)
        · exact .inl ⟨h1, h2⟩
        · exact .inr (.inr h)

theorem pushUnvisited_length {vis succs stack : List Nat} :
    (pushUnvisited vis succs stack).length ≤ succs.length + stack.length := by
  induction succs generalizing stack with
  | nil => simp [pushUnvisited]
  | cons s ss ih =>
    simp only [pushUnvisited]
    refine Nat.le_trans ih ?_
    split <;> (simp; try omega)

/-- `pushUnvisited` only prepends. -/
theorem pushUnvisited_eq (vis succs stack : List Nat) :
    ∃ P, pushUnvisited vis succs stack = P ++ stack ∧ ∀ x, x ∈ P ↔ x ∈ succs ∧ x ∉ vis := by
  induction succs generalizing stack with
  | nil => exact ⟨[], by simp [pushUnvisited], by simp⟩
  | cons s ss ih =>
    simp only [pushUnvisited]
    by_cases hs : s ∈ vis
    · obtain ⟨P, h1, h2⟩ := ih stack
      refine ⟨P, by simpa [hs] using h1, fun x => ?_⟩
      rw [h2]; constructor
      · rintro ⟨a, b⟩; exact ⟨.tail _ a, b⟩
      · rintro ⟨a, b⟩
        rcases List.mem_cons.mp a with rfl | a
        · exact absurd hs b
        · exact ⟨a, b⟩
    · obtain ⟨P, h1, h2⟩ := ih (s :: stack)
      refine ⟨P ++ [s], by simp [hs, h1], fun x => ?_⟩
      rw [List.mem_append, h2, List.mem_singleton]
      constructor
      · rintro (⟨a, b⟩ | rfl)
        · exact ⟨.tail _ a, b⟩
        · exact ⟨.head _, hs⟩
      · rintro ⟨a, b⟩
        rcases List.mem_cons.mp a with rfl | a
        · exact .inr rfl
        · exact .inl ⟨a, b⟩

/-- One `Dfs::next`. -/
theorem dfsNext_spec (adj : Nat → List Nat) (stack disc : List Nat) :
    (dfsNext adj stack disc = none ∧ ∀ x ∈ stack, x ∈ disc) ∨
    (∃ A nx B, stack = A ++ nx :: B ∧ (∀ x ∈ A, x ∈ disc) ∧ nx ∉ disc ∧
      dfsNext adj stack disc =
        some (nx, pushUnvisited (nx :: disc) (adj nx) B, nx :: disc)) := by
  induction stack with
  | nil => left; simp [dfsNext]
  | cons s ss ih =>
    by_cases hs : s ∈ disc
    · have hc : disc.contains s = true := by simpa using hs
      simp only [dfsNext, hc, if_true]
      rcases ih with ⟨h1, h2⟩ | ⟨A, nx, B, h1, h2, h3, h4⟩
      · left
        refine ⟨h1, fun x hx => ?_⟩
        rcases List.mem_cons.mp hx with rfl | hx
        · exact hs
        · exact h2 x hx
      · right
        refine ⟨s :: A, nx, B, by simp [h1], fun x hx => ?_, h3, h4⟩
        rcases List.mem_cons.mp hx with rfl | hx
        · exact hs
        · exact h2 x hx
    · have hc : disc.contains s = false := by simpa using hs
      right
      exact ⟨[], s, ss, rfl, by simp, hs, by simp [dfsNext, hs]⟩

/-- The result of running `Dfs` to the end. -/
structure DfsResult (adj : Nat → List Nat) (stack disc out disc' : List Nat) : Prop where
  disc_eq : disc' = out.reverse ++ disc
  nodup : out.Nodup
  fresh : ∀ x ∈ out, x ∉ disc
  stack_mem : ∀ x ∈ stack, x ∈ disc'
  closed : (∀ u ∈ disc, ∀ v ∈ adj u, v ∈ disc ∨ v ∈ stack) → ∀ u ∈ disc', ∀ v ∈ adj u, v ∈ disc'
  reach : ∀ y ∈ out, ∃ x ∈ stack, Reach (adjRel adj) x y

theorem dfsCollect_spec (n : Nat) (adj : Nat → List Nat) (hadj : ∀ u v, v ∈ adj u → v < n)
    (fuel : Nat) (stack disc : List Nat) (hst : ∀ x ∈ stack, x < n) (hdn : disc.Nodup)
    (hd : ∀ x ∈ disc, x < n) (hf : n < fuel + disc.length) :
    ∃ out disc', dfsCollect adj fuel stack disc = some (out, disc') ∧
      DfsResult adj stack disc out disc' := by
  induction fuel generalizing stack disc with
  | zero =>
    have := length_le_of_nodup_lt hdn hd
    omega
  | succ fuel ih =>
    rcases dfsNext_spec adj stack disc with ⟨h1, h2⟩ | ⟨A, nx, B, h1, h2, h3, h4⟩
    · refine ⟨[], disc, by simp [dfsCollect, h1], ⟨by simp, by simp, by simp, h2, ?_, by simp⟩⟩
      intro hc u hu v hv
      rcases hc u hu v hv with h | h
      · exact h
      · exact h2 v h
    · have hnx : nx < n := hst nx (by simp [h1])
      obtain ⟨out, disc', e, r⟩ := ih (pushUnvisited (nx :: disc) (adj nx) B) (nx :: disc)
        (fun x hx => by
          rcases mem_pushUnvisited.mp hx with ⟨h, _⟩ | h
          · exact hadj _ _ h
          · exact hst x (by simp [h1, h]))
        (List.nodup_cons.mpr ⟨h3, hdn⟩)
        (fun x hx => by
          rcases List.mem_cons.mp hx with rfl | h
          · exact hnx
          · exact hd x h)
        (by simp only [List.length_cons]; omega)
      refine ⟨nx :: out, disc', by simp [dfsCollect, h4, e], ?_⟩
      have hnxd : nx ∈ disc' := by rw [r.disc_eq]; simp
      refine ⟨by simp [r.disc_eq], ?_, ?_, ?_, ?_, ?_⟩
      · refine List.nodup_cons.mpr ⟨fun h => ?_, r.nodup⟩
        exact r.fresh nx h (by simp)
      · intro x hx
        rcases List.mem_cons.mp hx with rfl | h
        · exact h3
        · exact fun hx' => r.fresh x h (List.mem_cons_of_mem _ hx')
      · intro x hx
        rw [h1] at hx
        rcases List.mem_append.mp hx with h | h
        · rw [r.disc_eq]; simp [h2 x h]
        · rcases List.mem_cons.mp h with rfl | h
          · exact hnxd
          · exact r.stack_mem x (mem_pushUnvisited.mpr (.inr h))
      · intro hc u hu v hv
        refine r.closed ?_ u hu v hv
        intro u hu v hv
        rcases List.mem_cons.mp hu with rfl | hu
        · by_cases hvd : v ∈ u :: disc
          · exact .inl hvd
          · exact .inr (mem_pushUnvisited.mpr (.inl ⟨hv, hvd⟩))
        · rcases hc u hu v hv with h | h
          · exact .inl (List.mem_cons_of_mem _ h)
          · rw [h1] at h
            rcases List.mem_append.mp h with h | h
            · exact .inl (List.mem_cons_of_mem _ (h2 v h))
            · rcases List.mem_cons.mp h with rfl | h
              · exact .inl (by simp)
              · exact .inr (mem_pushUnvisited.mpr (.inr h))
      · intro y hy
        have hnxs : nx ∈ stack := by simp [h1]
        rcases List.mem_cons.mp hy with rfl | hy
        · exact ⟨_, hnxs, .refl _⟩
        · obtain ⟨x, hx, hr⟩ := r.reach y hy
          rcases mem_pushUnvisited.mp hx with ⟨h, _⟩ | h
          · exact ⟨nx, hnxs, .step h hr⟩
          · exact ⟨x, by simp [h1, h], hr⟩

/-- Running `Dfs` from one node with a closed set of discovered nodes visits exactly the reachable
undiscovered nodes. -/
theorem dfsCollect_single (n : Nat) (adj : Nat → List Nat) (hadj : ∀ u v, v ∈ adj u → v < n)
    (i : Nat) (disc : List Nat) (hi : i < n) (hdn : disc.Nodup) (hd : ∀ x ∈ disc, x < n)
    (hclosed : ∀ u ∈ disc, ∀ v ∈ adj u, v ∈ disc) :
    ∃ out disc', dfsCollect adj (n + 1) [i] disc = some (out, disc') ∧
      disc' = out.reverse ++ disc ∧ out.Nodup ∧
      (∀ y, y ∈ out ↔ Reach (adjRel adj) i y ∧ y ∉ disc) ∧
      (∀ u ∈ disc', ∀ v ∈ adj u, v ∈ disc') ∧ (i ∉ disc → ∃ rest, out = i :: rest) := by
  obtain ⟨out, disc', e, r⟩ := dfsCollect_spec n adj hadj (n + 1) [i] disc (by simpa using hi) hdn hd
    (by omega)
  have hcl := r.closed (fun u hu v hv => .inl (hclosed u hu v hv))
  refine ⟨out, disc', e, r.disc_eq, r.nodup, fun y => ⟨fun hy => ⟨?_, r.fresh y hy⟩, ?_⟩, hcl, ?_⟩
  · obtain ⟨x, hx, hr⟩ := r.reach y hy
    simp only [List.mem_singleton] at hx
    subst hx; exact hr
  · rintro ⟨hr, hnd⟩
    have : y ∈ disc' := hr.closed (S := (· ∈ disc')) (fun a b ha hab => hcl a ha b hab)
      (r.stack_mem i (by simp))
    rw [r.disc_eq] at this
    simpa [hnd] using this
  · intro hid
    have hc : disc.contains i = false := by simpa using hid
    simp only [dfsCollect, dfsNext, hc] at e
    revert e
    simp only [Bool.false_eq_true, if_false]
    intro e
    split at e
    · simp at e
    · simp only [Option.some.injEq, Prod.mk.injEq] at e
      exact ⟨_, e.1.symm⟩

end CallStack
