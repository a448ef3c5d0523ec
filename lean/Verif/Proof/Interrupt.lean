import Mathlib.Data.List.Forall2
import Verif.Spec.Interrupt

/-!
Helper lemmas for C109.
-/

namespace CallStack

section

variable {S : Type} {step : S → S → Prop} {entry : Nat → S} {over : S → Prop} {handler : Nat → Prop}
  {prio : Nat → Nat} {main : Nat}

/-- Below handlers of falling priorities is `main`, and all levels are executions. -/
inductive Levels (run : Nat → S → Prop) (handler : Nat → Prop) (prio : Nat → Nat) (main : Nat) :
    List (Nat × S) → Prop
  | main {s : S} : run main s → Levels run handler prio main [(main, s)]
  | handler {h h' : Nat} {s s' : S} {rest : List (Nat × S)} : handler h' → prio h < prio h' → run h' s' →
      Levels run handler prio main ((h, s) :: rest) → Levels run handler prio main ((h', s') :: (h, s) :: rest)

theorem Nested.levels {run : Nat → S → Prop} (he : ∀ h, run h (entry h))
    (hs : ∀ h s s', run h s → step s s' → run h s') {ls : List (Nat × S)}
    (h : Nested step entry over handler prio main ls) : Levels run handler prio main ls := by
  induction h with
  | start => exact .main (he _)
  | step _ h1 ih =>
    cases h1 with
    | run h2 =>
      cases ih with
      | main h3 => exact .main (hs _ _ _ h3 h2)
      | handler a b c d => exact .handler a b (hs _ _ _ c h2) d
    | enter h2 h3 => exact .handler h2 h3 (he _) ih
    | leave h2 =>
      cases ih with
      | handler _ _ _ d => exact d

theorem range_sum_mono (f : Nat → Nat) {a b : Nat} (h : a ≤ b) :
    ((List.range a).map f).sum ≤ ((List.range b).map f).sum := by
  induction b with
  | zero =>
    obtain rfl : a = 0 := by omega
    exact Nat.le_refl _
  | succ b ih =>
    by_cases hab : a = b + 1
    · rw [hab]
      exact Nat.le_refl _
    · have := ih (by omega)
      rw [List.range_succ, List.map_append, List.sum_append]
      omega

/-- The sum over the levels. -/
theorem Levels.bound_rel {run : Nat → S → Prop} {ls : List (Nat × S)} (h : Levels run handler prio main ls)
    {use : S → Int → Prop} {n0 saved top : Nat} {need : Nat → Nat}
    (hmain : ∀ s, run main s → ∃ k, use s k ∧ k ≤ n0) (h0 : prio main = 0)
    (hh : ∀ h, handler h → prio h ≤ top ∧ ∀ s, run h s → ∃ k, use s k ∧ k ≤ need (prio h)) :
    ∃ ks, List.Forall₂ (fun l k => use l.2 k) ls ks ∧
      ks.sum + saved * (ls.length - 1 : Nat) ≤ withInterrupts n0 saved top need := by
  suffices hx : ∃ h s rest ks, ls = (h, s) :: rest ∧ prio h ≤ top ∧
      List.Forall₂ (fun l k => use l.2 k) ls ks ∧
      ks.sum + saved * (ls.length - 1 : Nat) ≤ withInterrupts n0 saved (prio h) need by
    obtain ⟨h, s, rest, ks, _, h2, h3, h4⟩ := hx
    have := range_sum_mono (fun q => saved + need (q + 1)) h2
    refine ⟨ks, h3, ?_⟩
    unfold withInterrupts at h4 ⊢
    omega
  induction h with
  | @main s h1 =>
    obtain ⟨k, hk, hle⟩ := hmain s h1
    refine ⟨_, _, _, [k], rfl, by omega, .cons hk .nil, ?_⟩
    rw [h0]
    simp [withInterrupts]
    omega
  | @handler h h' s s' rest h1 h2 h3 _ ih =>
    obtain ⟨a, b, c, ks, h4, _, hf, h5⟩ := ih
    obtain ⟨h6, h7⟩ := hh h' h1
    obtain ⟨k, hk, h8⟩ := h7 s' h3
    refine ⟨_, _, _, k :: ks, rfl, h6, .cons hk hf, ?_⟩
    simp only [List.cons.injEq, Prod.mk.injEq] at h4
    obtain ⟨⟨rfl, rfl⟩, rfl⟩ := h4
    generalize hl : (h, s) :: rest = l at *
    have hpos : l.length - 1 + 1 = l.length := by rw [← hl]; rfl
    have h9 := range_sum_mono (fun q => saved + need (q + 1)) (show prio h ≤ prio h' - 1 by omega)
    have h10 : ((List.range (prio h')).map (fun q => saved + need (q + 1))).sum =
        ((List.range (prio h' - 1)).map (fun q => saved + need (q + 1))).sum + (saved + need (prio h')) := by
      obtain ⟨k, hk⟩ : ∃ k, prio h' = k + 1 := ⟨prio h' - 1, by omega⟩
      rw [hk, List.range_succ, List.map_append, List.sum_append, Nat.add_sub_cancel]
      simp
    unfold withInterrupts at h5 ⊢
    rw [h10]
    simp only [List.sum_cons, List.length_cons, Nat.add_sub_cancel]
    have h11 : (saved : Int) * (l.length : Nat) = saved * (l.length - 1 : Nat) + saved := by
      rw [← hpos, Nat.add_sub_cancel]
      push_cast
      rw [Int.mul_add, Int.mul_one]
    rw [h11]
    omega

theorem Levels.bound {run : Nat → S → Prop} {ls : List (Nat × S)} (h : Levels run handler prio main ls)
    {use : S → Int} {n0 saved top : Nat} {need : Nat → Nat} (hmain : ∀ s, run main s → use s ≤ n0)
    (h0 : prio main = 0)
    (hh : ∀ h, handler h → prio h ≤ top ∧ ∀ s, run h s → use s ≤ need (prio h)) :
    (ls.map (fun l => use l.2)).sum + saved * (ls.length - 1 : Nat) ≤ withInterrupts n0 saved top need := by
  obtain ⟨ks, h1, h2⟩ := h.bound_rel (use := fun s k => k = use s) (saved := saved)
    (fun s hs => ⟨_, rfl, hmain s hs⟩) h0 (fun i hi => ⟨(hh i hi).1, fun s hs => ⟨_, rfl, (hh i hi).2 s hs⟩⟩)
  have h3 : ks = ls.map (fun l => use l.2) := by
    clear h h2
    induction h1 with
    | nil => rfl
    | cons h4 _ ih => rw [h4, ih, List.map_cons]
  rw [← h3]
  exact h2

/-- Frames of all levels together. -/
theorem frames_flat {frame : Nat → Nat → Prop} {ls : List (Nat × List Nat)} {ks : List Int}
    (h : List.Forall₂ (fun l k => ∃ fr : List Nat, List.Forall₂ frame l.2 fr ∧ (fr.sum : Int) = k) ls ks) :
    ∃ fr : List Nat, List.Forall₂ frame (ls.flatMap (·.2)) fr ∧ (fr.sum : Int) = ks.sum := by
  induction h with
  | nil => exact ⟨[], .nil, rfl⟩
  | cons h1 _ ih =>
    obtain ⟨f1, h2, h3⟩ := h1
    obtain ⟨f2, h4, h5⟩ := ih
    refine ⟨f1 ++ f2, ?_, ?_⟩
    · rw [List.flatMap_cons]
      exact List.rel_append h2 h4
    · rw [List.sum_append, List.sum_cons]
      omega

end

end CallStack
