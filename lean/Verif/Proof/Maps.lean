import Mathlib.Tactic.Tauto
import Verif.Model.Symbols

/-!
Lemmas about maps and sets represented as lists.
-/

namespace CallStack

section
variable {κ β : Type} [DecidableEq κ]

theorem mget_mset (k k' : κ) (v : β) (m : List (κ × β)) :
    mget k' (mset k v m) = if k = k' then some v else mget k' m := by
  induction m with
  | nil => simp [mset, mget]
  | cons e m ih =>
    obtain ⟨a, b⟩ := e
    unfold mset
    split
    · rename_i h
      subst h
      simp only [mget]
      split <;> rfl
    · rename_i h
      simp only [mget]
      split
      · rename_i h'
        subst h'
        rw [if_neg (fun h2 => h h2.symm)]
      · exact ih

theorem mget_mset_self (k : κ) (v : β) (m : List (κ × β)) : mget k (mset k v m) = some v := by
  rw [mget_mset, if_pos rfl]

theorem mget_mset_ne {k k' : κ} (v : β) (m : List (κ × β)) (h : k ≠ k') :
    mget k' (mset k v m) = mget k' m := by
  rw [mget_mset, if_neg h]

theorem mget_mem {k : κ} {v : β} {m : List (κ × β)} (h : mget k m = some v) : (k, v) ∈ m := by
  induction m with
  | nil => simp [mget] at h
  | cons e m ih =>
    obtain ⟨a, b⟩ := e
    unfold mget at h
    split at h
    · rename_i hk
      simp only [Option.some.injEq] at h
      subst hk; subst h
      exact List.mem_cons_self
    · exact List.mem_cons_of_mem _ (ih h)

theorem mget_of_mem {k : κ} {v : β} {m : List (κ × β)} (hn : (m.map (·.1)).Nodup)
    (h : (k, v) ∈ m) : mget k m = some v := by
  induction m with
  | nil => simp at h
  | cons e m ih =>
    obtain ⟨a, b⟩ := e
    simp only [List.map_cons, List.nodup_cons] at hn
    unfold mget
    rcases List.mem_cons.mp h with h | h
    · simp only [Prod.mk.injEq] at h
      rw [if_pos h.1.symm, h.2]
    · rw [if_neg]
      · exact ih hn.2 h
      · intro hk
        subst hk
        exact hn.1 (List.mem_map.mpr ⟨_, h, rfl⟩)

theorem mget_none {k : κ} {m : List (κ × β)} : mget k m = none ↔ ∀ e ∈ m, e.1 ≠ k := by
  induction m with
  | nil => simp [mget]
  | cons e m ih =>
    obtain ⟨a, b⟩ := e
    unfold mget
    split
    · rename_i hk
      simp [hk]
    · rename_i hk
      rw [ih]
      simp [hk]

theorem mset_keys (k : κ) (v : β) (m : List (κ × β)) (k' : κ) :
    k' ∈ (mset k v m).map (·.1) ↔ k' = k ∨ k' ∈ m.map (·.1) := by
  induction m with
  | nil => simp [mset]
  | cons e m ih =>
    obtain ⟨a, b⟩ := e
    unfold mset
    split
    · rename_i hk
      subst hk
      simp
    · simp only [List.map_cons, List.mem_cons, ih]
      tauto

theorem mset_nodup (k : κ) (v : β) (m : List (κ × β)) (hn : (m.map (·.1)).Nodup) :
    ((mset k v m).map (·.1)).Nodup := by
  induction m with
  | nil => simp [mset]
  | cons e m ih =>
    obtain ⟨a, b⟩ := e
    simp only [List.map_cons, List.nodup_cons] at hn
    unfold mset
    split
    · simpa using hn
    · rename_i hk
      simp only [List.map_cons, List.nodup_cons]
      refine ⟨?_, ih hn.2⟩
      intro h
      have := (mset_keys k v m a).mp h
      rcases this with h | h
      · exact hk h
      · exact hn.1 h

theorem mset_mem_iff (k : κ) (v : β) (m : List (κ × β)) (hn : (m.map (·.1)).Nodup) (e : κ × β) :
    e ∈ mset k v m ↔ e = (k, v) ∨ (e ∈ m ∧ e.1 ≠ k) := by
  have hn' := mset_nodup k v m hn
  obtain ⟨a, b⟩ := e
  constructor
  · intro h
    have h1 := mget_of_mem hn' h
    rw [mget_mset] at h1
    split at h1
    · rename_i hk
      simp only [Option.some.injEq] at h1
      left
      rw [hk, h1]
    · rename_i hk
      exact Or.inr ⟨mget_mem h1, fun h => hk h.symm⟩
  · rintro (h | ⟨h, hk⟩)
    · simp only [Prod.mk.injEq] at h
      rw [h.1, h.2]
      exact mget_mem (mget_mset_self k v m)
    · apply mget_mem
      rw [mget_mset_ne v m (fun h => hk h.symm)]
      exact mget_of_mem hn h

end

theorem mem_sinsert {α : Type} [DecidableEq α] (a b : α) (s : List α) :
    b ∈ sinsert a s ↔ b = a ∨ b ∈ s := by
  unfold sinsert
  split
  · rename_i h
    have : a ∈ s := by simpa using h
    constructor
    · exact Or.inr
    · rintro (h | h)
      · exact h ▸ this
      · exact h
  · simp only [List.mem_append, List.mem_singleton]
    tauto

theorem sinsert_nodup {α : Type} [DecidableEq α] (a : α) (s : List α) (h : s.Nodup) :
    (sinsert a s).Nodup := by
  unfold sinsert
  split
  · exact h
  · rename_i hc
    have hc' : a ∉ s := by simpa using hc
    rw [List.nodup_append]
    refine ⟨h, by simp, ?_⟩
    intro x hx y hy
    simp only [List.mem_singleton] at hy
    subst hy
    exact fun h => hc' (h ▸ hx)

end CallStack
