import Verif.Spec.Need
import Verif.Proof.Chains
import Verif.Proof.Dfs

/-!
What a call can need is bounded exactly if everything that can be reached is known, does not leave and uses no stack
in recursion.
-/

namespace CallStack

variable {E : Nat → Nat → Prop} {leaves : Nat → Prop} {loc : Nat → Local}

theorem Reach.chain {v u : Nat} (h : Reach E v u) : ∃ c, CallChain E v c ∧ c.getLast? = some u := by
  induction h with
  | refl a => exact ⟨[a], .single a, rfl⟩
  | @step a b c e _ ih =>
    obtain ⟨l, h1, h2⟩ := ih
    refine ⟨a :: l, .call e h1, ?_⟩
    cases l with
    | nil => simp at h2
    | cons x l => rw [List.getLast?_cons_cons]; exact h2

theorem weight_le_sum {frame : Nat → Nat} (ha : Agrees loc frame) (l : List Nat) :
    weight loc l ≤ (l.map frame).sum := by
  induction l with
  | nil => simp [weight]
  | cons u l ih =>
    have : (loc u).bytes ≤ frame u := by
      cases hl : loc u with
      | exact n => rw [ha u (by rw [hl]; trivial), hl]; exact Nat.le_refl _
      | unknown => exact Nat.zero_le _
    rw [weight_cons, List.map_cons, List.sum_cons]
    omega

theorem sum_eq_weight {frame : Nat → Nat} (ha : Agrees loc frame) {l : List Nat} (hk : ∀ u ∈ l, (loc u).Known) :
    (l.map frame).sum = weight loc l := by
  induction l with
  | nil => rfl
  | cons u l ih =>
    rw [List.map_cons, List.sum_cons, weight_cons, ih (fun w hw => hk w (List.mem_cons_of_mem _ hw)),
      ha u (hk u List.mem_cons_self)]

theorem agrees_bytes : Agrees loc (fun u => (loc u).bytes) := fun _ _ => rfl

theorem le_sum_of_mem {frame : Nat → Nat} {u : Nat} {l : List Nat} (h : u ∈ l) : frame u ≤ (l.map frame).sum := by
  induction l with
  | nil => simp at h
  | cons w l ih =>
    rw [List.map_cons, List.sum_cons]
    rcases List.mem_cons.1 h with rfl | h
    · omega
    · have := ih h
      omega

/-- If everything that can be reached is known, does not leave and uses no stack in recursion, then the weight of
the heaviest chain is the most that can be needed. -/
theorem canNeed_most {v n : Nat}
    (hb : ∀ u, Reach E v u → (loc u).Known ∧ ¬ leaves u ∧ (Recursive E u → (loc u).bytes = 0))
    (hn : Heaviest E loc v n) : CanNeed E leaves loc v n ∧ ∀ k, CanNeed E leaves loc v k → k ≤ n := by
  have hk : BoundedKnown E loc v := fun u hu => ⟨(hb u hu).1, (hb u hu).2.2⟩
  have upper : ∀ c, CallChain E v c → weight loc c ≤ n := by
    intro c hc
    obtain ⟨us, h1, h2⟩ := hc.toGroup hk
    rw [← h2]
    exact hn.2 us h1
  constructor
  · obtain ⟨us, h1, h2⟩ := hn.1
    obtain ⟨c, h3, h4⟩ := h1.toCall (loc := loc)
    have := upper c h3
    exact ⟨fun u => (loc u).bytes, c, 0, agrees_bytes, h3, .inl rfl, by
      have : weight loc c = n := by omega
      exact this.symm⟩
  · rintro k ⟨frame, c, x, ha, hc, hx, rfl⟩
    rw [sum_eq_weight ha (fun u hu => (hb u (hc.reach u hu)).1)]
    rcases hx with rfl | ⟨u, hu, hl⟩
    · exact upper c hc
    · exact absurd hl (hb u (hc.reach u (List.mem_of_getLast? hu))).2.1

/-- Otherwise there is no limit to what can be needed. -/
theorem canNeed_unbounded {v u : Nat} (hr : Reach E v u)
    (hu : ¬ (loc u).Known ∨ leaves u ∨ (Recursive E u ∧ (loc u).bytes ≠ 0)) (n : Nat) :
    ∃ k, n ≤ k ∧ CanNeed E leaves loc v k := by
  obtain ⟨c, hc, hlast⟩ := hr.chain
  have hmem : u ∈ c := List.mem_of_getLast? hlast
  rcases hu with hu | hu | ⟨⟨b, hub, hbu⟩, hz⟩
  · have h1 : Agrees loc (fun w => if w = u then n else (loc w).bytes) := by
      intro w hw
      have : w ≠ u := by rintro rfl; exact hu hw
      simp [this]
    have h2 := le_sum_of_mem (frame := fun w => if w = u then n else (loc w).bytes) hmem
    simp only [if_true] at h2
    exact ⟨_, h2, _, c, 0, h1, hc, .inl rfl, rfl⟩
  · exact ⟨_, Nat.le_add_left n _, _, c, n, agrees_bytes, hc, .inr ⟨u, hlast, hu⟩, rfl⟩
  · have loop : ∀ n, ∃ l, CallChain E u l ∧ n ≤ weight loc l := by
      intro n
      induction n with
      | zero => exact ⟨[u], .single u, Nat.zero_le _⟩
      | succ n ih =>
        obtain ⟨l, h1, h2⟩ := ih
        obtain ⟨l', h3, h4⟩ := CallChain.extend (loc := loc) hbu h1
        exact ⟨u :: l', .call hub h3, by rw [weight_cons]; omega⟩
    obtain ⟨l, h1, h2⟩ := loop n
    obtain ⟨l', h3, h4⟩ := CallChain.extend (loc := loc) hr h1
    exact ⟨weight loc l', Nat.le_trans h2 h4, _, l', 0, agrees_bytes, h3, .inl rfl, rfl⟩

/-- What can be needed is at least the weight of the heaviest chain, whatever the sizes of unknown frames are. -/
theorem canNeed_least {v n : Nat} (hn : Heaviest E loc v n) {frame : Nat → Nat} (ha : Agrees loc frame) :
    ∃ c, CallChain E v c ∧ n ≤ (c.map frame).sum := by
  obtain ⟨us, h1, h2⟩ := hn.1
  obtain ⟨c, h3, h4⟩ := h1.toCall (loc := loc)
  exact ⟨c, h3, by have := weight_le_sum ha c; omega⟩

/-- The condition for a bound, in one statement. -/
theorem canNeed_iff {v n N : Nat} (hn : Heaviest E loc v n) (hN : n ≤ N) :
    (∀ u, Reach E v u → (loc u).Known ∧ ¬ leaves u ∧ (Recursive E u → (loc u).bytes = 0)) ↔
      ∀ k, CanNeed E leaves loc v k → k ≤ N := by
  constructor
  · exact fun hb k hk => Nat.le_trans ((canNeed_most hb hn).2 k hk) hN
  · intro h u hr
    have no : ∀ hu : ¬ (loc u).Known ∨ leaves u ∨ (Recursive E u ∧ (loc u).bytes ≠ 0), False := by
      intro hu
      obtain ⟨k, h1, h2⟩ := canNeed_unbounded hr hu (N + 1)
      have := h k h2
      omega
    exact ⟨Classical.byContradiction fun h => no (.inl h), fun h => no (.inr (.inl h)),
      fun hr => Classical.byContradiction fun h => no (.inr (.inr ⟨hr, h⟩))⟩

/-- A bounded set of numbers that is not empty has a greatest element. -/
theorem exists_greatest {P : Nat → Prop} {n B : Nat} (h : P n) (hb : ∀ k, P k → k ≤ B) :
    ∃ m, P m ∧ ∀ k, P k → k ≤ m := by
  induction B with
  | zero => exact ⟨n, h, fun k hk => Nat.le_trans (hb k hk) (Nat.zero_le _)⟩
  | succ B ih =>
    by_cases hB : P (B + 1)
    · exact ⟨B + 1, hB, hb⟩
    · refine ih fun k hk => ?_
      have := hb k hk
      have : k ≠ B + 1 := by rintro rfl; exact hB hk
      omega

/-- Among finitely many functions there is a heaviest chain. -/
theorem exists_heaviest {v N : Nat} (hN : ∀ u, Reach E v u → u < N) : ∃ n, Heaviest E loc v n := by
  have hM : ∃ M, ∀ u < N, (loc u).bytes ≤ M := by
    clear hN
    induction N with
    | zero => exact ⟨0, fun u hu => by omega⟩
    | succ N ih =>
      obtain ⟨M, hM⟩ := ih
      refine ⟨M + (loc N).bytes, fun u hu => ?_⟩
      by_cases h : u = N
      · subst h; omega
      · have := hM u (by omega)
        omega
  obtain ⟨M, hM⟩ := hM
  have hw : ∀ us, GroupChain E v us → weight loc us ≤ N * M := by
    intro us hg
    have hlen : us.length ≤ N := length_le_of_nodup_lt
      (hg.2.imp fun {a b} hab => by rintro rfl; exact hab.2 (.refl _)) (fun u hu => hN u (hg.1 u hu))
    have : ∀ us : List Nat, (∀ u ∈ us, u < N) → weight loc us ≤ us.length * M := by
      intro us
      induction us with
      | nil => simp [weight]
      | cons u us ih =>
        intro h
        have h1 := ih (fun w hw => h w (List.mem_cons_of_mem _ hw))
        have h2 := hM u (h u List.mem_cons_self)
        rw [weight_cons, List.length_cons, Nat.succ_mul]
        omega
    exact Nat.le_trans (this us (fun u hu => hN u (hg.1 u hu))) (Nat.mul_le_mul_right _ hlen)
  obtain ⟨m, ⟨us, h1, h2⟩, h3⟩ := exists_greatest (P := fun n => ∃ us, GroupChain E v us ∧ weight loc us = n)
    (n := 0) (B := N * M) ⟨[], ⟨by simp, by simp⟩, rfl⟩ (by rintro k ⟨us, h1, rfl⟩; exact hw us h1)
  exact ⟨m, ⟨us, h1, h2⟩, fun us hg => h3 _ ⟨us, hg, rfl⟩⟩

end CallStack
