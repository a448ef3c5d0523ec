import Verif.Spec.IrExec
import Verif.Spec.Graph
import Mathlib.Data.List.Chain

/-!
Lemmas about stacks of active functions.
-/

namespace CallStack

variable {C : Nat → Nat → Prop}

/-- The active functions are part of a chain of calls from `i`, the innermost one at its end. -/
def Stacked (C : Nat → Nat → Prop) (i : Nat) (acts : List Nat) : Prop :=
  acts = [] ∨ ∃ a rest l, acts = a :: rest ∧ rest.Sublist l ∧ (a :: l).getLast? = some i ∧
    (a :: l).IsChain (fun x y => C y x)

theorem Stacked.entry (i : Nat) : Stacked C i [i] := Or.inr ⟨i, [], [], rfl, .slnil, rfl, by simp⟩

theorem Stacked.call {i a b : Nat} {rest : List Nat} (h : Stacked C i (a :: rest)) (hc : C a b) :
    Stacked C i (b :: a :: rest) := by
  rcases h with h | ⟨a', rest', l, h1, h2, h3, h4⟩
  · simp at h
  · simp only [List.cons.injEq] at h1
    obtain ⟨rfl, rfl⟩ := h1
    refine Or.inr ⟨b, a :: rest, a :: l, rfl, h2.cons_cons a, ?_, ?_⟩
    · rw [List.getLast?_cons_cons]; exact h3
    · exact List.isChain_cons_cons.mpr ⟨hc, h4⟩

theorem Stacked.tail {i a b : Nat} {rest : List Nat} (h : Stacked C i (a :: rest)) (hc : C a b) :
    Stacked C i (b :: rest) := by
  rcases h with h | ⟨a', rest', l, h1, h2, h3, h4⟩
  · simp at h
  · simp only [List.cons.injEq] at h1
    obtain ⟨rfl, rfl⟩ := h1
    refine Or.inr ⟨b, rest, a :: l, rfl, h2.cons a, ?_, ?_⟩
    · rw [List.getLast?_cons_cons]; exact h3
    · exact List.isChain_cons_cons.mpr ⟨hc, h4⟩

theorem Stacked.ret {i a : Nat} {rest : List Nat} (h : Stacked C i (a :: rest)) : Stacked C i rest := by
  rcases h with h | ⟨a', rest', l, h1, h2, h3, h4⟩
  · simp at h
  · simp only [List.cons.injEq] at h1
    obtain ⟨rfl, rfl⟩ := h1
    cases rest with
    | nil => exact Or.inl rfl
    | cons b rest =>
      obtain ⟨r1, r2, rfl, hb, hs⟩ := List.cons_sublist_iff.mp h2
      obtain ⟨u, v, rfl⟩ := List.append_of_mem hb
      refine Or.inr ⟨b, rest, v ++ r2, rfl, hs.trans (List.sublist_append_right _ _), ?_, ?_⟩
      · rw [← h3]
        have e : a :: (u ++ b :: v ++ r2) = (a :: u) ++ b :: (v ++ r2) := by simp
        rw [e, List.getLast?_append]
        cases h5 : (b :: (v ++ r2)).getLast? with
        | none => simp at h5
        | some x => rfl
      · have e : a :: (u ++ b :: v ++ r2) = (a :: u) ++ b :: (v ++ r2) := by simp
        rw [e] at h4
        exact (List.isChain_append.mp h4).2.1

/-- A chain, read from its start. -/
theorem chain_of_stacked {i a : Nat} {l : List Nat} (hl : (a :: l).getLast? = some i)
    (hc : (a :: l).IsChain (fun x y => C y x)) : CallChain C i (a :: l).reverse := by
  have key : ∀ (m : List Nat) (x : Nat), m ≠ [] → m.head? = some x → m.IsChain C → CallChain C x m := by
    intro m
    induction m with
    | nil => simp
    | cons y m ih =>
      intro x _ hx hm
      simp only [List.head?_cons, Option.some.injEq] at hx
      subst hx
      cases m with
      | nil => exact .single _
      | cons z m =>
        rw [List.isChain_cons_cons] at hm
        exact .call hm.1 (ih z (by simp) rfl hm.2)
  refine key _ i (by simp) ?_ ?_
  · rw [List.head?_reverse]; exact hl
  · rw [List.isChain_reverse]
    exact hc

theorem sublist_sum_le {l l' : List Nat} (h : l.Sublist l') : l.sum ≤ l'.sum := by
  induction h with
  | slnil => simp
  | cons _ _ ih => simp only [List.sum_cons]; omega
  | cons_cons _ _ ih => simp only [List.sum_cons]; omega

end CallStack
