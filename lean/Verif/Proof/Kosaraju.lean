import Verif.Proof.Dfs
import Mathlib.Data.List.Nodup

/-! Correctness of `kosaraju_scc`. -/

namespace CallStack

/-! ### the post-order search -/

/-- Total cost of the undiscovered nodes. -/
def undiscCost (adj : Nat → List Nat) (disc : List Nat) (l : List Nat) : Nat :=
  (l.map (fun u => if u ∈ disc then 0 else 1 + (adj u).length)).sum

theorem undiscCost_cons_notin (adj : Nat → List Nat) (disc l : List Nat) (nx : Nat)
    (h : nx ∉ l) : undiscCost adj (nx :: disc) l = undiscCost adj disc l := by
  unfold undiscCost
  congr 1
  apply List.map_congr_left
  intro a ha
  have : a ≠ nx := fun e => h (e ▸ ha)
  simp [this]

theorem undiscCost_cons (adj : Nat → List Nat) (disc : List Nat) (nx : Nat) (hnx : nx ∉ disc)
    (l : List Nat) (hl : l.Nodup) (hm : nx ∈ l) :
    undiscCost adj (nx :: disc) l + (1 + (adj nx).length) = undiscCost adj disc l := by
  induction l with
  | nil => simp at hm
  | cons a l ih =>
    have hl' := List.nodup_cons.mp hl
    by_cases ha : a = nx
    · subst ha
      have h0 := undiscCost_cons_notin adj disc l a hl'.1
      unfold undiscCost at h0 ⊢
      rw [List.map_cons, List.sum_cons, h0, List.map_cons, List.sum_cons]
      simp only [hnx, if_false, List.mem_cons, true_or, if_true]
      omega
    · have hm' : nx ∈ l := by
        rcases List.mem_cons.mp hm with h | h
        · exact absurd h.symm ha
        · exact h
      have := ih hl'.2 hm'
      unfold undiscCost at this ⊢
      simp only [List.map_cons, List.sum_cons, List.mem_cons, ha, false_or] at this ⊢
      omega

theorem undiscCost_nil (adj : Nat → List Nat) (n : Nat) (disc : List Nat) :
    undiscCost adj disc (List.range n) ≤ n + degreeSum adj n := by
  unfold undiscCost degreeSum
  have : ∀ l : List Nat, (l.map (fun u => if u ∈ disc then 0 else 1 + (adj u).length)).sum ≤
      l.length + (l.map (fun u => (adj u).length)).sum := by
    intro l
    induction l with
    | nil => simp
    | cons a l ih =>
      simp only [List.map_cons, List.sum_cons, List.length_cons]
      split <;> omega
  simpa using this (List.range n)

/-- Finish orders (latest first) as produced by the search: a successor of something finished no
later than `x` is itself finished no later than `x`, or it can reach `x`. -/
def GoodOrder (adj : Nat → List Nat) (disc fin : List Nat) : Prop :=
  ∀ B x A, fin = B ++ x :: A → ∀ u ∈ x :: A, ∀ v ∈ adj u,
    v ∈ x :: A ∨ ((v ∈ B ∨ (v ∈ disc ∧ v ∉ fin)) ∧ Reach (adjRel adj) v x)

structure PostInv (n : Nat) (adj : Nat → List Nat) (st : PostState) : Prop where
  stack_lt : ∀ x ∈ st.stack, x < n
  disc_nodup : st.disc.Nodup
  disc_lt : ∀ x ∈ st.disc, x < n
  fin_disc : ∀ x ∈ st.fin, x ∈ st.disc
  fin_nodup : st.fin.Nodup
  fin_succ : ∀ u ∈ st.fin, ∀ v ∈ adj u, v ∈ st.disc
  grey : ∀ g ∈ st.disc, g ∉ st.fin → ∃ P Q, st.stack = P ++ g :: Q ∧ g ∉ P ∧
    (∀ y ∈ P, Reach (adjRel adj) g y) ∧ ∀ v ∈ adj g, v ∈ st.disc ∨ v ∈ P
  good : GoodOrder adj st.disc st.fin

theorem postLoop_spec (n : Nat) (adj : Nat → List Nat) (hadj : ∀ u v, v ∈ adj u → v < n)
    (fuel : Nat) (st : PostState) (inv : PostInv n adj st)
    (hf : undiscCost adj st.disc (List.range n) + st.stack.length < fuel) :
    ∃ st', postLoop adj fuel st = some st' ∧ PostInv n adj st' ∧ st'.stack = [] ∧
      (∀ x ∈ st.disc, x ∈ st'.disc) ∧ (∀ x ∈ st.stack, x ∈ st'.disc) := by
  induction fuel generalizing st with
  | zero => omega
  | succ fuel ih =>
    obtain ⟨stack, disc, fin⟩ := st
    cases stack with
    | nil => exact ⟨_, rfl, inv, rfl, fun x h => h, by simp⟩
    | cons nx rest =>
      obtain ⟨i1, i2, i3, i4, i5, i6, i7, i8⟩ := inv
      dsimp only at i1 i2 i3 i4 i5 i6 i7 i8 hf
      by_cases hd : nx ∈ disc
      · -- pop
        by_cases hfn : nx ∈ fin
        · have e : postLoop adj (fuel + 1) ⟨nx :: rest, disc, fin⟩ =
              postLoop adj fuel ⟨rest, disc, fin⟩ := by simp [postLoop, hd, hfn]
          refine Exists.elim (ih ⟨rest, disc, fin⟩
            ⟨fun x hx => i1 x (.tail _ hx), i2, i3, i4, i5, i6, ?_, i8⟩
            (by simp only [List.length_cons] at hf ⊢; omega)) ?_
          · intro g hg hgf
            obtain ⟨P, Q, e1, e2, e3, e4⟩ := i7 g hg hgf
            cases P with
            | nil =>
              simp only [List.nil_append, List.cons.injEq] at e1
              exact absurd hfn (e1.1 ▸ hgf)
            | cons p P =>
              simp only [List.cons_append, List.cons.injEq] at e1
              refine ⟨P, Q, e1.2, fun h => e2 (.tail _ h), fun y hy => e3 y (.tail _ hy), ?_⟩
              intro v hv
              rcases e4 v hv with h | h
              · exact .inl h
              · rcases List.mem_cons.mp h with rfl | h
                · exact .inl (e1.1 ▸ hd)
                · exact .inr h
          · rintro st' ⟨h1, h2, h3, h4, h5⟩
            refine ⟨st', e ▸ h1, h2, h3, h4, fun x hx => ?_⟩
            rcases List.mem_cons.mp hx with rfl | hx
            · exact h4 _ hd
            · exact h5 x hx
        · have e : postLoop adj (fuel + 1) ⟨nx :: rest, disc, fin⟩ =
              postLoop adj fuel ⟨rest, disc, nx :: fin⟩ := by simp [postLoop, hd, hfn]
          have hnx : ∀ v ∈ adj nx, v ∈ disc := by
            obtain ⟨P, Q, e1, e2, _, e4⟩ := i7 nx hd hfn
            cases P with
            | nil => intro v hv; simpa using e4 v hv
            | cons p P =>
              simp only [List.cons_append, List.cons.injEq] at e1
              exact absurd (by simp [e1.1]) e2
          refine Exists.elim (ih ⟨rest, disc, nx :: fin⟩
            ⟨fun x hx => i1 x (.tail _ hx), i2, i3, ?_, List.nodup_cons.mpr ⟨hfn, i5⟩, ?_, ?_, ?_⟩
            (by simp only [List.length_cons] at hf ⊢; omega)) ?_
          · intro x hx
            rcases List.mem_cons.mp hx with rfl | hx
            · exact hd
            · exact i4 x hx
          · intro u hu v hv
            rcases List.mem_cons.mp hu with rfl | hu
            · exact hnx v hv
            · exact i6 u hu v hv
          · intro g hg hgf
            simp only [List.mem_cons, not_or] at hgf
            obtain ⟨P, Q, e1, e2, e3, e4⟩ := i7 g hg hgf.2
            cases P with
            | nil =>
              simp only [List.nil_append, List.cons.injEq] at e1
              exact absurd e1.1.symm hgf.1
            | cons p P =>
              simp only [List.cons_append, List.cons.injEq] at e1
              refine ⟨P, Q, e1.2, fun h => e2 (.tail _ h), fun y hy => e3 y (.tail _ hy), ?_⟩
              intro v hv
              rcases e4 v hv with h | h
              · exact .inl h
              · rcases List.mem_cons.mp h with rfl | h
                · exact .inl (e1.1 ▸ hd)
                · exact .inr h
          · intro B x A hs u hu v hv
            cases B with
            | nil =>
              simp only [List.nil_append, List.cons.injEq] at hs
              obtain ⟨rfl, rfl⟩ := hs
              by_cases hv' : v ∈ nx :: fin
              · exact .inl hv'
              · right
                have hvd : v ∈ disc := by
                  rcases List.mem_cons.mp hu with rfl | hu
                  · exact hnx v hv
                  · exact i6 u hu v hv
                refine ⟨.inr ⟨hvd, hv'⟩, ?_⟩
                simp only [List.mem_cons, not_or] at hv'
                obtain ⟨P, Q, e1, e2, e3, e4⟩ := i7 v hvd hv'.2
                cases P with
                | nil =>
                  simp only [List.nil_append, List.cons.injEq] at e1
                  exact absurd e1.1.symm hv'.1
                | cons p P =>
                  simp only [List.cons_append, List.cons.injEq] at e1
                  exact e3 _ (by simp [e1.1])
            | cons b B =>
              simp only [List.cons_append, List.cons.injEq] at hs
              obtain ⟨rfl, hs⟩ := hs
              rcases i8 B x A hs u hu v hv with h | ⟨h | ⟨h, h'⟩, hr⟩
              · exact .inl h
              · exact .inr ⟨.inl (.tail _ h), hr⟩
              · by_cases hvx : v = nx
                · exact .inr ⟨.inl (by simp [hvx]), hr⟩
                · exact .inr ⟨.inr ⟨h, by simp [hvx, h']⟩, hr⟩
          · rintro st' ⟨h1, h2, h3, h4, h5⟩
            refine ⟨st', e ▸ h1, h2, h3, h4, fun x hx => ?_⟩
            rcases List.mem_cons.mp hx with rfl | hx
            · exact h4 _ hd
            · exact h5 x hx
      · -- first visit
        have e : postLoop adj (fuel + 1) ⟨nx :: rest, disc, fin⟩ =
            postLoop adj fuel ⟨pushUnvisited (nx :: disc) (adj nx) (nx :: rest), nx :: disc, fin⟩ := by
          simp [postLoop, hd]
        obtain ⟨P', hP, hPm⟩ := pushUnvisited_eq (nx :: disc) (adj nx) (nx :: rest)
        have hnxn : nx < n := i1 nx (by simp)
        have hnxf : nx ∉ fin := fun h => hd (i4 nx h)
        refine Exists.elim (ih
          ⟨pushUnvisited (nx :: disc) (adj nx) (nx :: rest), nx :: disc, fin⟩
          ⟨?_, List.nodup_cons.mpr ⟨hd, i2⟩, ?_, fun x hx => .tail _ (i4 x hx), i5,
            fun u hu v hv => .tail _ (i6 u hu v hv), ?_, ?_⟩ ?_) ?_
        · intro x hx
          rcases mem_pushUnvisited.mp hx with ⟨h, _⟩ | h
          · exact hadj _ _ h
          · exact i1 x h
        · intro x hx
          rcases List.mem_cons.mp hx with rfl | h
          · exact hnxn
          · exact i3 x h
        · intro g hg hgf
          simp only [hP]
          rcases List.mem_cons.mp hg with rfl | hg
          · refine ⟨P', rest, rfl, fun h => ?_, fun y hy => .single ((hPm y).mp hy).1, ?_⟩
            · exact ((hPm _).mp h).2 (by simp)
            · intro v hv
              by_cases hv' : v ∈ g :: disc
              · exact .inl hv'
              · exact .inr ((hPm v).mpr ⟨hv, hv'⟩)
          · obtain ⟨P, Q, e1, e2, e3, e4⟩ := i7 g hg hgf
            cases P with
            | nil =>
              simp only [List.nil_append, List.cons.injEq] at e1
              exact absurd hg (e1.1 ▸ hd)
            | cons p P =>
              simp only [List.cons_append, List.cons.injEq] at e1
              obtain ⟨rfl, e1⟩ := e1
              refine ⟨P' ++ nx :: P, Q, by simp [e1], ?_, ?_, ?_⟩
              · intro h
                rcases List.mem_append.mp h with h | h
                · exact ((hPm _).mp h).2 (.tail _ hg)
                · exact e2 h
              · intro y hy
                rcases List.mem_append.mp hy with h | h
                · exact (e3 nx (by simp)).tail ((hPm y).mp h).1
                · exact e3 y h
              · intro v hv
                rcases e4 v hv with h | h
                · exact .inl (.tail _ h)
                · exact .inr (List.mem_append.mpr (.inr h))
        · intro B x A hs u hu v hv
          rcases i8 B x A hs u hu v hv with h | ⟨h | ⟨h, h'⟩, hr⟩
          · exact .inl h
          · exact .inr ⟨.inl h, hr⟩
          · exact .inr ⟨.inr ⟨.tail _ h, h'⟩, hr⟩
        · have h1 := undiscCost_cons adj disc nx hd (List.range n) List.nodup_range
            (List.mem_range.mpr hnxn)
          have h2 := pushUnvisited_length (vis := nx :: disc) (succs := adj nx) (stack := nx :: rest)
          simp only [List.length_cons] at hf h2 ⊢
          omega
        · rintro st' ⟨h1, h2, h3, h4, h5⟩
          refine ⟨st', e ▸ h1, h2, h3, fun x hx => h4 x (.tail _ hx), fun x hx => h5 x ?_⟩
          exact mem_pushUnvisited.mpr (.inr hx)

theorem finishOrder_spec (n : Nat) (adj : Nat → List Nat) (hadj : ∀ u v, v ∈ adj u → v < n)
    (is : List Nat) (his : ∀ i ∈ is, i < n) (st : PostState) (inv : PostInv n adj st)
    (hst : st.stack = []) :
    ∃ st', finishOrder adj (n + degreeSum adj n + 2) is st = some st' ∧ PostInv n adj st' ∧
      st'.stack = [] ∧ (∀ x ∈ st.disc, x ∈ st'.disc) ∧ (∀ x ∈ is, x ∈ st'.disc) := by
  induction is generalizing st with
  | nil => exact ⟨st, rfl, inv, hst, fun _ h => h, by simp⟩
  | cons i is ih =>
    by_cases hi : i ∈ st.disc
    · obtain ⟨st', h1, h2, h3, h4, h5⟩ := ih (fun j hj => his j (.tail _ hj)) st inv hst
      refine ⟨st', by simpa [finishOrder, hi] using h1, h2, h3, h4, fun x hx => ?_⟩
      rcases List.mem_cons.mp hx with rfl | hx
      · exact h4 _ hi
      · exact h5 x hx
    · have hin := his i (by simp)
      refine Exists.elim (postLoop_spec n adj hadj (n + degreeSum adj n + 2)
        { st with stack := [i] }
        ⟨by simpa using hin, inv.disc_nodup, inv.disc_lt, inv.fin_disc, inv.fin_nodup,
          inv.fin_succ, ?_, inv.good⟩ ?_) ?_
      · intro g hg hgf
        obtain ⟨P, Q, e, _⟩ := inv.grey g hg hgf
        rw [hst] at e
        simp at e
      · have := undiscCost_nil adj n st.disc
        simp only [List.length_singleton]
        omega
      · rintro st1 ⟨g1, g2, g3, g4, g5⟩
        obtain ⟨st', h1, h2, h3, h4, h5⟩ := ih (fun j hj => his j (.tail _ hj)) st1 g2 g3
        refine ⟨st', ?_, h2, h3, fun x hx => h4 x (g4 x hx), fun x hx => ?_⟩
        · simp [finishOrder, hi, g1, h1]
        · rcases List.mem_cons.mp hx with rfl | hx
          · exact h4 _ (g5 _ (by simp))
          · exact h5 x hx

/-- The finish order of the first phase. -/
theorem finishOrder_all (n : Nat) (adj : Nat → List Nat) (hadj : ∀ u v, v ∈ adj u → v < n) :
    ∃ st, finishOrder adj (n + degreeSum adj n + 2) (List.range n) ⟨[], [], []⟩ = some st ∧
      st.fin.Nodup ∧ (∀ i, i ∈ st.fin ↔ i < n) ∧
      ∀ B x A, st.fin = B ++ x :: A → ∀ u ∈ x :: A, ∀ v ∈ adj u,
        v ∈ x :: A ∨ (v ∈ B ∧ Reach (adjRel adj) v x) := by
  obtain ⟨st, h1, h2, h3, h4, h5⟩ := finishOrder_spec n adj hadj (List.range n)
    (fun i hi => List.mem_range.mp hi) ⟨[], [], []⟩
    ⟨by simp, by simp, by simp, by simp, by simp, by simp, by simp, by
      intro B x A h; simp at h⟩ rfl
  have hdf : ∀ x ∈ st.disc, x ∈ st.fin := by
    intro x hx
    by_cases h : x ∈ st.fin
    · exact h
    · obtain ⟨P, Q, e, _⟩ := h2.grey x hx h
      rw [h3] at e; simp at e
  refine ⟨st, h1, h2.fin_nodup, fun i => ⟨fun h => h2.disc_lt i (h2.fin_disc i h), fun h => ?_⟩, ?_⟩
  · exact hdf i (h5 i (List.mem_range.mpr h))
  · intro B x A hs u hu v hv
    rcases h2.good B x A hs u hu v hv with h | ⟨h | ⟨h, h'⟩, hr⟩
    · exact .inl h
    · exact .inr ⟨h, hr⟩
    · exact absurd (hdf v h) h'

/-! ### the second phase -/

/-- Anything that can reach `x` is in the group of something finished no earlier than `x`. -/
theorem goodOrder_later {adj : Nat → List Nat} {fin : List Nat} (hn : fin.Nodup)
    (hgood : ∀ B x A, fin = B ++ x :: A → ∀ u ∈ x :: A, ∀ v ∈ adj u,
        v ∈ x :: A ∨ (v ∈ B ∧ Reach (adjRel adj) v x))
    {B : List Nat} {x : Nat} {A : List Nat} (hs : fin = B ++ x :: A) (a : Nat) (ha : a ∈ fin)
    (hr : Reach (adjRel adj) a x) :
    ∃ a', SameGroup (adjRel adj) a a' ∧ (a' ∈ B ∨ a' = x) := by
  have main : ∀ k, ∀ A1 a A2, A = A1 ++ a :: A2 → A1.length = k → Reach (adjRel adj) a x →
      ∃ a', SameGroup (adjRel adj) a a' ∧ (a' ∈ B ∨ a' = x) := by
    intro k
    induction k using Nat.strongRecOn with
    | ind k ih =>
      intro A1 a A2 hA hk hr
      have hs' : fin = (B ++ x :: A1) ++ a :: A2 := by rw [hs, hA]; simp
      have hx : x ∉ a :: A2 := by
        rw [hs'] at hn
        exact fun h => (List.nodup_append.mp hn).2.2 x (by simp) x h rfl
      obtain ⟨u, v, hu, hau, huv, hv, hvx⟩ := hr.exit (S := (· ∈ a :: A2)) (by simp) hx
      rcases hgood _ _ _ hs' u hu v huv with h | ⟨h, hva⟩
      · exact absurd h hv
      · have hsg : SameGroup (adjRel adj) a v := ⟨hau.tail huv, hva⟩
        rcases List.mem_append.mp h with h | h
        · exact ⟨v, hsg, .inl h⟩
        · rcases List.mem_cons.mp h with rfl | h
          · exact ⟨v, hsg, .inr rfl⟩
          · obtain ⟨A11, A12, e⟩ := List.append_of_mem h
            obtain ⟨a', h1, h2⟩ := ih A11.length (by rw [← hk, e]; simp) A11 v
              (A12 ++ a :: A2) (by rw [hA, e]; simp) rfl hvx
            exact ⟨a', hsg.trans h1, h2⟩
  rw [hs] at ha
  rcases List.mem_append.mp ha with h | h
  · exact ⟨a, .refl a, .inl h⟩
  · rcases List.mem_cons.mp h with rfl | h
    · exact ⟨a, .refl a, .inr rfl⟩
    · obtain ⟨A1, A2, e⟩ := List.append_of_mem h
      exact main _ A1 a A2 e rfl hr

theorem collectSccs_spec (n : Nat) (adj radj : Nat → List Nat) (hadj : ∀ u v, v ∈ adj u → v < n)
    (hrev : ∀ a b, b ∈ radj a ↔ a ∈ adj b) (fin : List Nat) (hn : fin.Nodup)
    (hall : ∀ i, i ∈ fin ↔ i < n)
    (hgood : ∀ B x A, fin = B ++ x :: A → ∀ u ∈ x :: A, ∀ v ∈ radj u,
        v ∈ x :: A ∨ (v ∈ B ∧ Reach (adjRel radj) v x))
    (is B disc : List Nat) (hs : fin = B ++ is) (hB : ∀ b ∈ B, b ∈ disc) (hdn : disc.Nodup)
    (hdlt : ∀ d ∈ disc, d < n) (hcl : ∀ u ∈ disc, ∀ v ∈ adj u, v ∈ disc) :
    ∃ sccs, collectSccs adj (n + 1) is disc = some sccs ∧ (∀ c ∈ sccs, c ≠ []) ∧
      sccs.flatten.Nodup ∧ (∀ i, i ∈ sccs.flatten ↔ i < n ∧ i ∉ disc) ∧
      (∀ c ∈ sccs, ∀ a ∈ c, ∀ b, b ∈ c ↔ SameGroup (adjRel adj) a b) ∧
      sccs.Pairwise (fun c d => ∀ a ∈ c, ∀ b ∈ d, ¬ Reach (adjRel adj) a b) := by
  induction is generalizing B disc with
  | nil =>
    refine ⟨[], rfl, by simp, by simp, fun i => ?_, by simp, by simp⟩
    simp only [List.flatten_nil, List.not_mem_nil, false_iff, not_and, Classical.not_not]
    intro hi
    apply hB
    have := (hall i).mpr hi
    simpa [hs] using this
  | cons x is ih =>
    by_cases hx : x ∈ disc
    · obtain ⟨sccs, h⟩ := ih (B ++ [x]) disc (by simp [hs]) (fun b hb => by
        rcases List.mem_append.mp hb with h | h
        · exact hB b h
        · simp only [List.mem_singleton] at h; exact h ▸ hx) hdn hdlt hcl
      refine ⟨sccs, by simpa [collectSccs, hx] using h.1, h.2⟩
    · have hxn : x < n := (hall x).mp (by simp [hs])
      obtain ⟨out, disc', e, hd', hon, hom, hcl', hfirst⟩ :=
        dfsCollect_single n adj hadj x disc hxn hdn hdlt hcl
      have hrel : ∀ a b, Reach (adjRel radj) a b ↔ Reach (adjRel adj) b a := by
        intro a b
        have : adjRel radj = fun a b => adjRel adj b a := by
          funext a b; exact propext (hrev a b)
        rw [this]; exact reach_flip_iff
      -- the component is the group of `x`
      have hgrp : ∀ y, y ∈ out ↔ SameGroup (adjRel adj) x y := by
        intro y
        rw [hom]
        constructor
        · rintro ⟨hr, hyd⟩
          have hyn : y < n := hr.closed (S := (· < n)) (fun a b _ hab => hadj a b hab) hxn
          obtain ⟨y', ⟨h1, h2⟩, h3⟩ := goodOrder_later hn hgood hs y ((hall y).mpr hyn)
            ((hrel y x).mpr hr)
          rw [hrel] at h1 h2
          rcases h3 with h3 | rfl
          · exfalso
            exact hyd (h1.closed (S := (· ∈ disc)) (fun a b ha hab => hcl a ha b hab) (hB y' h3))
          · exact ⟨h1, h2⟩
        · rintro ⟨h1, h2⟩
          refine ⟨h1, fun hy => hx ?_⟩
          exact h2.closed (S := (· ∈ disc)) (fun a b ha hab => hcl a ha b hab) hy
      have hout_lt : ∀ y ∈ out, y < n := fun y hy =>
        ((hom y).mp hy).1.closed (S := (· < n)) (fun a b _ hab => hadj a b hab) hxn
      have hxout : x ∈ out := (hgrp x).mpr (.refl x)
      obtain ⟨sccs, e', h1, h2, h3, h4, h5⟩ := ih (B ++ [x]) disc' (by simp [hs])
        (fun b hb => by
          rw [hd']
          rcases List.mem_append.mp hb with h | h
          · simp [hB b h]
          · simp only [List.mem_singleton] at h; subst h; simp [hxout])
        (by
          rw [hd', List.nodup_append]
          refine ⟨List.nodup_reverse.mpr hon, hdn, ?_⟩
          intro a ha b hb hab
          subst hab
          exact ((hom a).mp (List.mem_reverse.mp ha)).2 hb)
        (by
          intro d hd
          rw [hd'] at hd
          rcases List.mem_append.mp hd with h | h
          · exact hout_lt d (List.mem_reverse.mp h)
          · exact hdlt d h)
        hcl'
      refine ⟨out :: sccs, by simp [collectSccs, hx, e, e'], ?_, ?_, ?_, ?_, ?_⟩
      · intro c hc
        rcases List.mem_cons.mp hc with rfl | hc
        · exact List.ne_nil_of_mem hxout
        · exact h1 c hc
      · rw [List.flatten_cons, List.nodup_append]
        refine ⟨hon, h2, ?_⟩
        intro a ha b hb hab
        subst hab
        apply ((h3 a).mp hb).2
        rw [hd']; simp [ha]
      · intro i
        rw [List.flatten_cons, List.mem_append, h3, hd']
        simp only [List.mem_append, List.mem_reverse, not_or]
        constructor
        · rintro (h | ⟨h, h', h''⟩)
          · exact ⟨hout_lt i h, ((hom i).mp h).2⟩
          · exact ⟨h, h''⟩
        · rintro ⟨h, h'⟩
          by_cases hi : i ∈ out
          · exact .inl hi
          · exact .inr ⟨h, hi, h'⟩
      · intro c hc a ha b
        rcases List.mem_cons.mp hc with rfl | hc
        · have hxa := (hgrp a).mp ha
          rw [hgrp]
          exact ⟨fun h => hxa.symm.trans h, fun h => hxa.trans h⟩
        · exact h4 c hc a ha b
      · rw [List.pairwise_cons]
        refine ⟨fun d hd a ha b hb hr => ?_, h5⟩
        have hbd : b ∉ disc' := ((h3 b).mp (List.mem_flatten.mpr ⟨d, hd, hb⟩)).2
        apply hbd
        refine hr.closed (S := (· ∈ disc')) (fun a b ha hab => hcl' a ha b hab) ?_
        rw [hd']; simp [ha]

/-- `kosaraju_scc` terminates and returns the recursion groups, callees first. -/
theorem kosaraju_spec (n : Nat) (adj radj : Nat → List Nat) (hadj : ∀ u v, v ∈ adj u → u < n ∧ v < n)
    (hrev : ∀ a b, b ∈ radj a ↔ a ∈ adj b) :
    ∃ sccs, kosaraju n adj radj = some sccs ∧ SccOrder (adjRel adj) n sccs := by
  obtain ⟨st, h1, h2, h3, h4⟩ := finishOrder_all n radj
    (fun u v h => (hadj v u ((hrev u v).mp h)).1)
  obtain ⟨sccs, g1, g2, g3, g4, g5, g6⟩ := collectSccs_spec n adj radj (fun u v h => (hadj u v h).2)
    hrev st.fin h2 h3 h4 st.fin [] [] rfl (by simp) (by simp) (by simp) (by simp)
  refine ⟨sccs, by simp [kosaraju, h1, g1], ⟨g2, g3, fun i => ?_, g5, g6⟩⟩
  rw [g4]; simp

end CallStack
