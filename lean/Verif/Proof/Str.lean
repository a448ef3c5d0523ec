import Verif.Model.Filter

/-! Strings and maps with string keys. -/

namespace CallStack

theorem startsWith_iff (s pre : Str) : startsWith s pre = true ↔ pre <+: s := by
  induction pre generalizing s with
  | nil => simp [startsWith]
  | cons p ps ih =>
    cases s with
    | nil => simp [startsWith]
    | cons c s =>
      simp only [startsWith, Bool.and_eq_true, beq_iff_eq, ih, List.cons_prefix_cons]
      exact ⟨fun h => ⟨h.1.symm, h.2⟩, fun h => ⟨h.1.symm, h.2⟩⟩

theorem lookupStr_iff {α : Type} {l : List (Str × α)} (hn : (l.map (·.1)).Nodup) {k : Str} {v : α} :
    lookupStr k l = some v ↔ (k, v) ∈ l := by
  induction l with
  | nil => simp [lookupStr]
  | cons e l ih =>
    obtain ⟨k', v'⟩ := e
    simp only [List.map_cons, List.nodup_cons] at hn
    simp only [lookupStr]
    by_cases hk : k' = k
    · subst hk
      simp only [if_true, Option.some.injEq, List.mem_cons, Prod.mk.injEq, true_and]
      constructor
      · exact fun h => .inl h.symm
      · rintro (h | h)
        · exact h.symm
        · exact absurd (List.mem_map.mpr ⟨_, h, rfl⟩) hn.1
    · rw [if_neg hk, ih hn.2]
      simp only [List.mem_cons, Prod.mk.injEq]
      constructor
      · exact .inr
      · rintro (⟨h, _⟩ | h)
        · exact absurd h.symm hk
        · exact h

theorem lookupStr_none {α : Type} {l : List (Str × α)} {k : Str} :
    lookupStr k l = none ↔ ∀ v, (k, v) ∉ l := by
  induction l with
  | nil => simp [lookupStr]
  | cons e l ih =>
    obtain ⟨k', v'⟩ := e
    simp only [lookupStr]
    by_cases hk : k' = k
    · subst hk
      simp only [if_true, reduceCtorEq, false_iff]
      exact fun h => h v' (by simp)
    · rw [if_neg hk, ih]
      have : k ≠ k' := fun h => hk h.symm
      simp [this]

end CallStack
