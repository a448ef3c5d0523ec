import Verif.Proof.Reach
import Mathlib.Data.List.Perm.Subperm

/-! The heaviest chain of a recursion group in terms of its callees. -/

namespace CallStack

variable {E : Nat → Nat → Prop} {loc : Nat → Local}

theorem weight_cons (u : Nat) (us : List Nat) :
    weight loc (u :: us) = (loc u).bytes + weight loc us := by simp [weight]

theorem Heaviest.unique {v a b : Nat} (ha : Heaviest E loc v a) (hb : Heaviest E loc v b) : a = b := by
  obtain ⟨⟨us, h1, h2⟩, h3⟩ := ha
  obtain ⟨⟨us', g1, g2⟩, g3⟩ := hb
  have := h3 us' g1
  have := g3 us h1
  omega

theorem Max.ext_iff {m m' : Max} : m = m' ↔ m.bytes = m'.bytes ∧ (m.IsExact ↔ m'.IsExact) := by
  cases m <;> cases m' <;> simp [Max.bytes, Max.IsExact]

theorem MaxSpec.unique {v : Nat} {a b : Max} (ha : MaxSpec E loc v a) (hb : MaxSpec E loc v b) :
    a = b :=
  Max.ext_iff.mpr ⟨ha.1.unique hb.1, ha.2.trans hb.2.symm⟩

theorem GroupChain.of_reach {v w : Nat} {us : List Nat} (h : GroupChain E w us) (hr : Reach E v w) :
    GroupChain E v us := ⟨fun u hu => hr.trans (h.1 u hu), h.2⟩

theorem group_step {v : Nat} {S N : List Nat} {f : Nat → Max}
    (hS : ∀ b, b ∈ S ↔ SameGroup E v b) (hN : ∀ w, w ∈ N ↔ w ∉ S ∧ ∃ u ∈ S, E u w)
    (hf : ∀ w ∈ N, MaxSpec E loc w (f w)) {l m : Nat}
    (hl : (∃ u ∈ S, (loc u).bytes = l) ∧ ∀ u ∈ S, (loc u).bytes ≤ l)
    (hm : (N = [] ∧ m = 0) ∨ ((∃ w ∈ N, (f w).bytes = m) ∧ ∀ w ∈ N, (f w).bytes ≤ m)) :
    Heaviest E loc v (l + m) ∧
    (BoundedKnown E loc v ↔
      (∀ u ∈ S, (loc u).Known ∧ (Recursive E u → (loc u).bytes = 0)) ∧ ∀ w ∈ N, (f w).IsExact) := by
  have hexit : ∀ x, Reach E v x → x ∉ S → ∃ w ∈ N, Reach E w x := by
    intro x hx hxS
    obtain ⟨u, w, h1, _, h3, h4, h5⟩ := hx.exit (S := (· ∈ S)) ((hS v).mpr (.refl v)) hxS
    exact ⟨w, (hN w).mpr ⟨h4, u, h1, h3⟩, h5⟩
  have hmle : ∀ w ∈ N, (f w).bytes ≤ m := by
    rcases hm with ⟨rfl, _⟩ | ⟨_, h⟩
    · simp
    · exact h
  have hvN : ∀ w ∈ N, Reach E v w := by
    intro w hw
    obtain ⟨_, u, hu, huw⟩ := (hN w).mp hw
    exact ((hS u).mp hu).1.tail huw
  -- chains that start outside of the group
  have hout : ∀ us, us ≠ [] → GroupChain E v us → (∀ u ∈ us, u ∉ S) → weight loc us ≤ m := by
    intro us hne hg hns
    cases us with
    | nil => exact absurd rfl hne
    | cons u us =>
      obtain ⟨w, hw, hwu⟩ := hexit u (hg.1 u (by simp)) (hns u (by simp))
      refine Nat.le_trans ((hf w hw).1.2 (u :: us) ⟨fun x hx => ?_, hg.2⟩) (hmle w hw)
      rcases List.mem_cons.mp hx with rfl | hx
      · exact hwu
      · exact hwu.trans ((List.pairwise_cons.mp hg.2).1 x hx).1
  refine ⟨⟨?_, ?_⟩, ?_⟩
  · obtain ⟨⟨u, hu, hul⟩, _⟩ := hl
    have hvu := (hS u).mp hu
    rcases hm with ⟨_, rfl⟩ | ⟨⟨w, hw, hwm⟩, _⟩
    · refine ⟨[u], ⟨?_, by simp⟩, by simp [weight, hul]⟩
      intro x hx
      simp only [List.mem_singleton] at hx
      subst hx; exact hvu.1
    · obtain ⟨⟨us, hg, hwt⟩, _⟩ := (hf w hw).1
      obtain ⟨hwS, u', hu', huw⟩ := (hN w).mp hw
      refine ⟨u :: us, ⟨?_, ?_⟩, ?_⟩
      · intro x hx
        rcases List.mem_cons.mp hx with rfl | hx
        · exact hvu.1
        · exact (hvN w hw).trans (hg.1 x hx)
      · refine List.pairwise_cons.mpr ⟨fun x hx => ⟨?_, fun hxu => hwS ?_⟩, hg.2⟩
        · exact hvu.2.trans ((hvN w hw).trans (hg.1 x hx))
        · exact (hS w).mpr ⟨hvN w hw, (hg.1 x hx).trans (hxu.trans hvu.2)⟩
      · rw [weight_cons, hul, hwt, hwm]
  · intro us hg
    cases us with
    | nil => simp [weight]
    | cons u us =>
      have hp := List.pairwise_cons.mp hg.2
      by_cases hu : u ∈ S
      · have hu' := (hS u).mp hu
        rw [weight_cons]
        have h1 := hl.2 u hu
        by_cases hne : us = []
        · subst hne; simp [weight]; omega
        · have := hout us hne ⟨fun x hx => hg.1 x (.tail _ hx), hp.2⟩ (fun x hx hxS =>
            (hp.1 x hx).2 (((hS x).mp hxS).2.trans hu'.1))
          omega
      · have := hout (u :: us) (by simp) hg (fun x hx hxS => by
          rcases List.mem_cons.mp hx with rfl | hx
          · exact hu hxS
          · apply hu
            exact (hS u).mpr ⟨hg.1 u (by simp), (hp.1 x hx).1.trans ((hS x).mp hxS).2⟩)
        omega
  · constructor
    · intro h
      refine ⟨fun u hu => h u ((hS u).mp hu).1, fun w hw => (hf w hw).2.mpr ?_⟩
      exact fun x hx => h x ((hvN w hw).trans hx)
    · rintro ⟨h1, h2⟩ x hx
      by_cases hxS : x ∈ S
      · exact h1 x hxS
      · obtain ⟨w, hw, hwx⟩ := hexit x hx hxS
        exact (hf w hw).2.mp (h2 w hw) x hwx

/-- A group chain visits every node at most once. -/
theorem GroupChain.nodup {v : Nat} {us : List Nat} (h : GroupChain E v us) : us.Nodup := by
  refine h.2.imp ?_
  rintro a b ⟨h1, h2⟩ rfl
  exact h2 h1

theorem weight_le_of_subperm {l l' : List Nat} (hn : l.Nodup) (hs : l ⊆ l') :
    weight loc l ≤ weight loc l' := by
  obtain ⟨l'', hp, hs'⟩ := List.subperm_of_subset hn hs
  unfold weight
  rw [← (hp.map _).sum_nat]
  have : ∀ {a b : List Nat}, a.Sublist b →
      (a.map (fun i => (loc i).bytes)).sum ≤ (b.map (fun i => (loc i).bytes)).sum := by
    intro a b h
    induction h with
    | slnil => simp
    | cons a _ ih => simp only [List.map_cons, List.sum_cons]; omega
    | cons_cons a _ ih => simp only [List.map_cons, List.sum_cons]; omega
  exact this hs'

theorem weight_range (g : Graph) : weight g.locOf (List.range g.nodes.length) = g.totalKnown := by
  unfold weight Graph.totalKnown
  congr 1
  apply List.ext_getElem
  · simp
  · intro i h1 h2
    simp at h1
    simp [Graph.locOf, h1]

/-- The heaviest chain weighs at most the sum of all known locals. -/
theorem Heaviest.le_total {g : Graph} (hwf : g.WF) {v k : Nat} (hv : v < g.nodes.length)
    (h : Heaviest g.Calls g.locOf v k) : k ≤ g.totalKnown := by
  obtain ⟨⟨us, hg, rfl⟩, _⟩ := h
  rw [← weight_range]
  refine weight_le_of_subperm hg.nodup (fun u hu => List.mem_range.mpr ?_)
  exact (hg.1 u hu).closed (S := (· < g.nodes.length)) (fun a b _ hab => (hwf (a, b) hab).2) hv

end CallStack
