import Verif.Proof.Chains
import Mathlib.Tactic.ByContra

/-!
The maxima of the live functions only depend on the live functions: on which of them can call which,
directly or through one other node, and on which of them can get to an unknown node.
-/

namespace CallStack

/-- A call from `a` to `b`, directly or through one node that is no live function. -/
def Hop (E : Nat → Nat → Prop) (n a b : Nat) : Prop := E a b ∨ ∃ d, n ≤ d ∧ E a d ∧ E d b

/-- A call to a node of unknown usage that is no live function, directly or through another one. -/
def UnknownHop (E : Nat → Nat → Prop) (loc : Nat → Local) (n a : Nat) : Prop :=
  ∃ d, n ≤ d ∧ E a d ∧ (¬ (loc d).Known ∨ ∃ d', n ≤ d' ∧ E d d' ∧ ¬ (loc d').Known)

/-- The nodes from `n` on use no stack, and calls among them end there. -/
structure LiveGraph (n : Nat) (E : Nat → Nat → Prop) (loc : Nat → Local) : Prop where
  zero : ∀ a, n ≤ a → (loc a).bytes = 0
  shape : ∀ a b c, n ≤ a → n ≤ b → E a b → ¬ E b c

/-- Two graphs that agree on the live functions. -/
structure LiveSame (n : Nat) (E₁ : Nat → Nat → Prop) (loc₁ : Nat → Local) (E₂ : Nat → Nat → Prop)
    (loc₂ : Nat → Local) : Prop where
  left : LiveGraph n E₁ loc₁
  right : LiveGraph n E₂ loc₂
  hop : ∀ a b, a < n → b < n → (Hop E₁ n a b ↔ Hop E₂ n a b)
  unknown : ∀ a, a < n → (UnknownHop E₁ loc₁ n a ↔ UnknownHop E₂ loc₂ n a)
  loc : ∀ a, a < n → loc₁ a = loc₂ a

section one

variable {n : Nat} {E : Nat → Nat → Prop} {loc : Nat → Local}

theorem Hop.reach {a b : Nat} (h : Hop E n a b) : Reach E a b := by
  rcases h with h | ⟨d, _, h1, h2⟩
  · exact .step h (.refl _)
  · exact .step h1 (.step h2 (.refl _))

/-- Calls between live functions. -/
def LiveHop (E : Nat → Nat → Prop) (n a b : Nat) : Prop := a < n ∧ b < n ∧ Hop E n a b

theorem LiveHop.reach {a b : Nat} (h : Reach (LiveHop E n) a b) : Reach E a b := by
  induction h with
  | refl => exact .refl _
  | step h _ ih => exact h.2.2.reach.trans ih

theorem LiveGraph.reach_cases (h : LiveGraph n E loc) {a b : Nat} (hb : b < n) (hr : Reach E a b) :
    (a < n → Reach (LiveHop E n) a b) ∧
      (n ≤ a → ∃ c, c < n ∧ E a c ∧ Reach (LiveHop E n) c b) := by
  induction hr with
  | refl a => exact ⟨fun _ => .refl _, fun h1 => by omega⟩
  | @step a c b e hr ih =>
    obtain ⟨ih1, ih2⟩ := ih hb
    constructor
    · intro ha
      by_cases hc : c < n
      · exact .step ⟨ha, hc, Or.inl e⟩ (ih1 hc)
      · obtain ⟨d, hd, h1, h2⟩ := ih2 (by omega)
        exact .step ⟨ha, hd, Or.inr ⟨c, by omega, e, h1⟩⟩ h2
    · intro ha
      by_cases hc : c < n
      · exact ⟨c, hc, e, ih1 hc⟩
      · obtain ⟨d, hd, h1, h2⟩ := ih2 (by omega)
        exact absurd h1 (h.shape a c d ha (by omega) e)

theorem LiveGraph.reach_iff (h : LiveGraph n E loc) {a b : Nat} (ha : a < n) (hb : b < n) :
    Reach E a b ↔ Reach (LiveHop E n) a b :=
  ⟨fun hr => (h.reach_cases hb hr).1 ha, LiveHop.reach⟩

theorem LiveGraph.recursive_iff (h : LiveGraph n E loc) {a : Nat} (ha : a < n) :
    Recursive E a ↔ ∃ b, LiveHop E n a b ∧ Reach (LiveHop E n) b a := by
  constructor
  · rintro ⟨b, h1, h2⟩
    obtain ⟨k1, k2⟩ := h.reach_cases ha h2
    by_cases hb : b < n
    · exact ⟨b, ⟨ha, hb, Or.inl h1⟩, k1 hb⟩
    · obtain ⟨c, hc, h3, h4⟩ := k2 (by omega)
      exact ⟨c, ⟨ha, hc, Or.inr ⟨b, by omega, h1, h3⟩⟩, h4⟩
  · rintro ⟨b, ⟨_, _, h1 | ⟨d, _, h1, h3⟩⟩, h2⟩
    · exact ⟨b, h1, LiveHop.reach h2⟩
    · exact ⟨d, h1, .step h3 (LiveHop.reach h2)⟩

theorem LiveGraph.unknown_cases (h : LiveGraph n E loc) {a u : Nat} (hu : n ≤ u)
    (hk : ¬ (loc u).Known) (hr : Reach E a u) :
    (a < n → ∃ c, c < n ∧ Reach E a c ∧ UnknownHop E loc n c) ∧
      (n ≤ a → a = u ∨ E a u ∨
        ∃ b, E a b ∧ ∃ c, c < n ∧ Reach E b c ∧ UnknownHop E loc n c) := by
  induction hr with
  | refl a => exact ⟨fun _ => by omega, fun _ => Or.inl rfl⟩
  | @step a b u e hr ih =>
    obtain ⟨ih1, ih2⟩ := ih hu hk
    constructor
    · intro ha
      by_cases hb : b < n
      · obtain ⟨c, hc, h1, h2⟩ := ih1 hb
        exact ⟨c, hc, .step e h1, h2⟩
      · rcases ih2 (by omega) with rfl | h1 | ⟨d, h1, c, hc, h2, h3⟩
        · exact ⟨a, ha, .refl _, b, hu, e, Or.inl hk⟩
        · exact ⟨a, ha, .refl _, b, by omega, e, Or.inr ⟨u, hu, h1, hk⟩⟩
        · exact ⟨c, hc, .step e (.step h1 h2), h3⟩
    · intro ha
      by_cases hb : b < n
      · obtain ⟨c, hc, h1, h2⟩ := ih1 hb
        exact Or.inr (Or.inr ⟨b, e, c, hc, h1, h2⟩)
      · rcases ih2 (by omega) with rfl | h1 | ⟨d, h1, _⟩
        · exact Or.inr (Or.inl e)
        · exact absurd h1 (h.shape a b u ha (by omega) e)
        · exact absurd h1 (h.shape a b d ha (by omega) e)

theorem UnknownHop.reach {c : Nat} (h : UnknownHop E loc n c) :
    ∃ u, n ≤ u ∧ Reach E c u ∧ ¬ (loc u).Known := by
  obtain ⟨d, h1, h2, h3 | ⟨d', h3, h4, h5⟩⟩ := h
  · exact ⟨d, h1, .step h2 (.refl _), h3⟩
  · exact ⟨d', h3, .step h2 (.step h4 (.refl _)), h5⟩

/-- Only the live functions of a chain count. -/
theorem LiveGraph.weight_filter (h : LiveGraph n E loc) (us : List Nat) :
    weight loc (us.filter (fun u => decide (u < n))) = weight loc us := by
  induction us with
  | nil => rfl
  | cons u us ih =>
    unfold weight at ih ⊢
    by_cases hu : u < n
    · rw [List.filter_cons_of_pos (by simpa using hu)]
      simp only [List.map_cons, List.sum_cons, ih]
    · rw [List.filter_cons_of_neg (by simpa using hu)]
      simp only [List.map_cons, List.sum_cons, ih, h.zero u (by omega)]
      omega

end one

section two

variable {n : Nat} {E₁ E₂ : Nat → Nat → Prop} {loc₁ loc₂ : Nat → Local}

theorem LiveSame.symm (h : LiveSame n E₁ loc₁ E₂ loc₂) : LiveSame n E₂ loc₂ E₁ loc₁ :=
  ⟨h.right, h.left, fun a b ha hb => (h.hop a b ha hb).symm, fun a ha => (h.unknown a ha).symm,
    fun a ha => (h.loc a ha).symm⟩

theorem LiveSame.liveHop (h : LiveSame n E₁ loc₁ E₂ loc₂) : LiveHop E₂ n = LiveHop E₁ n := by
  funext a b
  apply propext
  unfold LiveHop
  constructor
  · rintro ⟨ha, hb, h1⟩
    exact ⟨ha, hb, (h.hop a b ha hb).mpr h1⟩
  · rintro ⟨ha, hb, h1⟩
    exact ⟨ha, hb, (h.hop a b ha hb).mp h1⟩

theorem LiveSame.reach_iff (h : LiveSame n E₁ loc₁ E₂ loc₂) {a b : Nat} (ha : a < n) (hb : b < n) :
    Reach E₂ a b ↔ Reach E₁ a b := by
  rw [h.right.reach_iff ha hb, h.left.reach_iff ha hb, h.liveHop]

theorem LiveSame.recursive_iff (h : LiveSame n E₁ loc₁ E₂ loc₂) {a : Nat} (ha : a < n) :
    Recursive E₂ a ↔ Recursive E₁ a := by
  rw [h.right.recursive_iff ha, h.left.recursive_iff ha, h.liveHop]

theorem LiveSame.chain (h : LiveSame n E₁ loc₁ E₂ loc₂) {v : Nat} (hv : v < n) {us : List Nat}
    (hc : GroupChain E₁ v us) :
    ∃ us', GroupChain E₂ v us' ∧ weight loc₂ us' = weight loc₁ us := by
  refine ⟨us.filter (fun u => decide (u < n)), ⟨?_, ?_⟩, ?_⟩
  · intro u hu
    obtain ⟨h1, h2⟩ := List.mem_filter.mp hu
    exact (h.reach_iff hv (by simpa using h2)).mpr (hc.1 u h1)
  · refine (hc.2.filter _).imp_of_mem ?_
    intro a b ha hb hab
    have ha' : a < n := by simpa using (List.mem_filter.mp ha).2
    have hb' : b < n := by simpa using (List.mem_filter.mp hb).2
    rw [h.reach_iff ha' hb', h.reach_iff hb' ha']
    exact hab
  · rw [← h.left.weight_filter us]
    unfold weight
    congr 1
    apply List.map_congr_left
    intro u hu
    rw [h.loc u (by simpa using (List.mem_filter.mp hu).2)]

theorem LiveSame.bounded (h : LiveSame n E₁ loc₁ E₂ loc₂) {v : Nat} (hv : v < n)
    (hb : BoundedKnown E₁ loc₁ v) : BoundedKnown E₂ loc₂ v := by
  intro u hr
  by_cases hu : u < n
  · have := hb u ((h.reach_iff hv hu).mp hr)
    rw [h.recursive_iff hu, ← h.loc u hu]
    exact this
  · refine ⟨?_, fun _ => h.right.zero u (by omega)⟩
    by_contra hk
    obtain ⟨c, hc, h1, h2⟩ := (h.right.unknown_cases (by omega) hk hr).1 hv
    obtain ⟨u', h3, h4, h5⟩ := ((h.unknown c hc).mpr h2).reach
    exact h5 (hb u' (((h.reach_iff hv hc).mp h1).trans h4)).1

theorem LiveSame.maxSpec (h : LiveSame n E₁ loc₁ E₂ loc₂) {v : Nat} {m : Max} (hv : v < n)
    (hm : MaxSpec E₁ loc₁ v m) : MaxSpec E₂ loc₂ v m := by
  obtain ⟨⟨⟨us, h1, h2⟩, h3⟩, h4⟩ := hm
  refine ⟨⟨?_, ?_⟩, h4.trans ⟨h.bounded hv, h.symm.bounded hv⟩⟩
  · obtain ⟨us', k1, k2⟩ := h.chain hv h1
    exact ⟨us', k1, k2.trans h2⟩
  · intro us' hus
    obtain ⟨us, k1, k2⟩ := h.symm.chain hv hus
    rw [← k2]
    exact h3 us k1

end two

end CallStack
