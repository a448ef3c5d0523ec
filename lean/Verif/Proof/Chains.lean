import Verif.Proof.Analysis

/-! From heaviest group chains to call chains, transport along renumberings, monotonicity. -/

namespace CallStack

variable {E : Nat → Nat → Prop} {loc : Nat → Local}

theorem CallChain.reach {v : Nat} {l : List Nat} (h : CallChain E v l) : ∀ u ∈ l, Reach E v u := by
  induction h with
  | single v => intro u hu; simp only [List.mem_singleton] at hu; subst hu; exact .refl _
  | call e _ ih =>
    intro u hu
    rcases List.mem_cons.mp hu with rfl | hu
    · exact .refl _
    · exact .step e (ih u hu)

/-- With bounded and known usage every call chain weighs as much as some group chain. -/
theorem CallChain.toGroup {v : Nat} {l : List Nat} (h : CallChain E v l)
    (hb : BoundedKnown E loc v) : ∃ us, GroupChain E v us ∧ weight loc us = weight loc l := by
  induction h with
  | single v =>
    refine ⟨[v], ⟨?_, by simp⟩, rfl⟩
    intro u hu; simp only [List.mem_singleton] at hu; subst hu; exact .refl _
  | @call v w l e _ ih =>
    obtain ⟨us, hg, hw⟩ := ih (fun u hu => hb u (.step e hu))
    by_cases hrec : Recursive E v
    · refine ⟨us, hg.of_reach (.single e), ?_⟩
      rw [weight_cons, hw, (hb v (.refl v)).2 hrec, Nat.zero_add]
    · refine ⟨v :: us, ⟨?_, ?_⟩, by rw [weight_cons, weight_cons, hw]⟩
      · intro u hu
        rcases List.mem_cons.mp hu with rfl | hu
        · exact .refl _
        · exact .step e (hg.1 u hu)
      · refine List.pairwise_cons.mpr ⟨fun x hx => ⟨.step e (hg.1 x hx), fun hxv => hrec ?_⟩, hg.2⟩
        exact ⟨w, e, (hg.1 x hx).trans hxv⟩

theorem CallChain.extend {v u : Nat} {l : List Nat} (hr : Reach E v u) (h : CallChain E u l) :
    ∃ l', CallChain E v l' ∧ weight loc l ≤ weight loc l' := by
  induction hr with
  | refl => exact ⟨l, h, Nat.le_refl _⟩
  | @step a b c e _ ih =>
    obtain ⟨l', h1, h2⟩ := ih h
    exact ⟨a :: l', .call e h1, by rw [weight_cons]; omega⟩

/-- Every group chain is part of a call chain. -/
theorem GroupChain.toCall {us : List Nat} {v : Nat} (h : GroupChain E v us) :
    ∃ l, CallChain E v l ∧ weight loc us ≤ weight loc l := by
  induction us generalizing v with
  | nil => exact ⟨[v], .single v, by simp [weight]⟩
  | cons u us ih =>
    have hp := List.pairwise_cons.mp h.2
    cases us with
    | nil =>
      obtain ⟨l, h1, h2⟩ := CallChain.extend (loc := loc) (h.1 u (by simp)) (.single u)
      exact ⟨l, h1, h2⟩
    | cons w ws =>
      have hg : GroupChain E w (w :: ws) := by
        refine ⟨fun x hx => ?_, hp.2⟩
        rcases List.mem_cons.mp hx with rfl | hx
        · exact .refl _
        · exact ((List.pairwise_cons.mp hp.2).1 x hx).1
      obtain ⟨hr, hnr⟩ := hp.1 w (by simp)
      rcases hr.cases_tail with rfl | ⟨b, hb, hbw⟩
      · exact absurd (.refl _) hnr
      · obtain ⟨l, h1, h2⟩ := ih (hg.of_reach hbw)
        obtain ⟨l', h3, h4⟩ := CallChain.extend (loc := loc) (h.1 u (by simp)) (.call hb h1)
        refine ⟨l', h3, Nat.le_trans ?_ h4⟩
        rw [weight_cons u (w :: ws), weight_cons u l]
        omega

/-! ### renumbering -/

theorem Graph.WF.reach_lt {g : Graph} (hwf : g.WF) {a b : Nat} (h : Reach g.Calls a b)
    (ha : a < g.nodes.length) : b < g.nodes.length :=
  h.closed (S := (· < g.nodes.length)) (fun x y _ hxy => (hwf (x, y) hxy).2) ha

/-- `π` embeds the part `D` of a call relation (closed under calls) into another call relation. -/
structure Embed (D : Nat → Prop) (E₁ : Nat → Nat → Prop) (loc₁ : Nat → Local)
    (E₂ : Nat → Nat → Prop) (loc₂ : Nat → Local) (π : Nat → Nat) : Prop where
  closed : ∀ a b, D a → E₁ a b → D b
  inj : ∀ a, D a → ∀ b, D b → π a = π b → a = b
  fwd : ∀ a b, D a → E₁ a b → E₂ (π a) (π b)
  back : ∀ a c, D a → E₂ (π a) c → ∃ b, E₁ a b ∧ π b = c
  loc : ∀ a, D a → loc₂ (π a) = loc₁ a

section
variable {D : Nat → Prop} {E₁ E₂ : Nat → Nat → Prop} {loc₁ loc₂ : Nat → Local} {π : Nat → Nat}

theorem Embed.reach_fwd (h : Embed D E₁ loc₁ E₂ loc₂ π) {a b : Nat} (ha : D a) (hr : Reach E₁ a b) :
    Reach E₂ (π a) (π b) := by
  induction hr with
  | refl => exact .refl _
  | step e _ ih => exact .step (h.fwd _ _ ha e) (ih (h.closed _ _ ha e))

theorem Embed.reach_D (h : Embed D E₁ loc₁ E₂ loc₂ π) {a b : Nat} (ha : D a) (hr : Reach E₁ a b) :
    D b := hr.closed (S := D) (fun x y hx hxy => h.closed x y hx hxy) ha

theorem Embed.reach_back (h : Embed D E₁ loc₁ E₂ loc₂ π) {a c : Nat} (ha : D a)
    (hr : Reach E₂ (π a) c) : ∃ b, Reach E₁ a b ∧ π b = c := by
  have : ∀ x y, Reach E₂ x y → ∀ a, D a → π a = x → ∃ b, Reach E₁ a b ∧ π b = y := by
    intro x y hr
    induction hr with
    | refl x => rintro a _ rfl; exact ⟨a, .refl a, rfl⟩
    | step e _ ih =>
      rintro a ha rfl
      obtain ⟨b, hb, rfl⟩ := h.back a _ ha e
      obtain ⟨c, hc, rfl⟩ := ih b (h.closed a b ha hb) rfl
      exact ⟨c, .step hb hc, rfl⟩
  exact this _ _ hr a ha rfl

theorem Embed.reach_iff (h : Embed D E₁ loc₁ E₂ loc₂ π) {a b : Nat} (ha : D a) (hb : D b) :
    Reach E₂ (π a) (π b) ↔ Reach E₁ a b := by
  refine ⟨fun hr => ?_, h.reach_fwd ha⟩
  obtain ⟨c, hc, hcb⟩ := h.reach_back ha hr
  rwa [h.inj c (h.reach_D ha hc) b hb hcb] at hc

theorem Embed.maxSpec (h : Embed D E₁ loc₁ E₂ loc₂ π) {v : Nat} {m : Max} (hv : D v)
    (hm : MaxSpec E₁ loc₁ v m) : MaxSpec E₂ loc₂ (π v) m := by
  have hwt : ∀ us : List Nat, (∀ u ∈ us, D u) → weight loc₂ (us.map π) = weight loc₁ us := by
    intro us hus
    unfold weight
    rw [List.map_map]
    congr 1
    apply List.map_congr_left
    intro u hu
    simp [h.loc u (hus u hu)]
  have hgc : ∀ us : List Nat, (∀ u ∈ us, D u) →
      (GroupChain E₂ (π v) (us.map π) ↔ GroupChain E₁ v us) := by
    intro us hus
    unfold GroupChain
    refine and_congr ?_ ?_
    · simp only [List.mem_map, forall_exists_index, and_imp, forall_apply_eq_imp_iff₂]
      exact forall₂_congr fun u hu => h.reach_iff hv (hus u hu)
    · rw [List.pairwise_map]
      apply List.Pairwise.iff_of_mem
      intro a b ha hb
      rw [h.reach_iff (hus a ha) (hus b hb), h.reach_iff (hus b hb) (hus a ha)]
  obtain ⟨⟨⟨us, hg, hw⟩, hub⟩, hex⟩ := hm
  have hD : ∀ us, GroupChain E₁ v us → ∀ u ∈ us, D u := fun us hg u hu => h.reach_D hv (hg.1 u hu)
  refine ⟨⟨⟨us.map π, (hgc us (hD us hg)).mpr hg, by rw [hwt us (hD us hg), hw]⟩, ?_⟩, ?_⟩
  · intro ws hws
    have : ∀ ws : List Nat, (∀ w ∈ ws, Reach E₂ (π v) w) →
        ∃ us : List Nat, (∀ u ∈ us, D u) ∧ us.map π = ws := by
      intro ws
      induction ws with
      | nil => exact fun _ => ⟨[], by simp, rfl⟩
      | cons w ws ih =>
        intro hr
        obtain ⟨us, k1, k2⟩ := ih (fun x hx => hr x (.tail _ hx))
        obtain ⟨i, hi, hiw⟩ := h.reach_back hv (hr w (by simp))
        exact ⟨i :: us, by simpa using ⟨h.reach_D hv hi, k1⟩, by simp [k2, hiw]⟩
    obtain ⟨us', k1, rfl⟩ := this ws hws.1
    rw [hwt us' k1]
    exact hub us' ((hgc us' k1).mp hws)
  · rw [hex]
    have hrec : ∀ u, D u → (Recursive E₂ (π u) ↔ Recursive E₁ u) := by
      intro u hu
      constructor
      · rintro ⟨b, hb1, hb2⟩
        obtain ⟨c, hc, rfl⟩ := h.back u b hu hb1
        exact ⟨c, hc, (h.reach_iff (h.closed u c hu hc) hu).mp hb2⟩
      · rintro ⟨c, hc1, hc2⟩
        exact ⟨π c, h.fwd u c hu hc1, h.reach_fwd (h.closed u c hu hc1) hc2⟩
    constructor
    · intro hbk u hu
      obtain ⟨c, hc, rfl⟩ := h.reach_back hv hu
      have hcD := h.reach_D hv hc
      rw [h.loc c hcD, hrec c hcD]
      exact hbk c hc
    · intro hbk u hu
      have huD := h.reach_D hv hu
      have := hbk (π u) (h.reach_fwd hv hu)
      rwa [h.loc u huD, hrec u huD] at this

end

theorem Renumber.embed {g₁ g₂ : Graph} {π : Nat → Nat} (h : Renumber g₁ g₂ π) (h1 : g₁.WF)
    (h2 : g₂.WF) : Embed (· < g₁.nodes.length) g₁.Calls g₁.locOf g₂.Calls g₂.locOf π where
  closed a b _ hab := (h1 (a, b) hab).2
  inj a ha b hb := h.inj a ha b hb
  fwd a b ha hab := (h.calls a ha b (h1 (a, b) hab).2).mpr hab
  back a c ha hac := by
    obtain ⟨b, hb, rfl⟩ := h.surj c (h2 (_, _) hac).2
    exact ⟨b, (h.calls a ha b hb).mp hac, rfl⟩
  loc a ha := h.loc a ha

/-! ### uniqueness of results -/

theorem SameButMax.calls {g g' : Graph} (h : SameButMax g g') : g'.Calls = g.Calls := by
  funext a b; simp [Graph.Calls, h.1]

theorem SameButMax.symm {g g' : Graph} (h : SameButMax g g') : SameButMax g' g :=
  ⟨h.1.symm, h.2.symm⟩

theorem SameButMax.eq_of_max {g g' : Graph} (h : SameButMax g g')
    (hm : ∀ v < g.nodes.length, g'.maxOf? v = g.maxOf? v) : g' = g := by
  obtain ⟨n, e⟩ := g
  obtain ⟨n', e'⟩ := g'
  obtain ⟨h1, h2⟩ := h
  simp only at h1 h2
  subst h1
  congr 1
  apply List.ext_getElem?
  intro i
  have hi := congrArg (fun l => l[i]?) h2
  simp only [List.getElem?_map] at hi
  cases ha : n'[i]? with
  | none => cases hb : n[i]? with
    | none => rfl
    | some y => simp [ha, hb] at hi
  | some x => cases hb : n[i]? with
    | none => simp [ha, hb] at hi
    | some y =>
      have hlt : i < n.length := (List.getElem?_eq_some_iff.mp hb).1
      have := hm i hlt
      simp only [Graph.maxOf?, ha, hb] at this
      simp only [ha, hb, Option.map_some, Option.some.injEq, Node.mk.injEq] at hi
      congr 1
      obtain ⟨a1, a2, a3, a4⟩ := x
      obtain ⟨b1, b2, b3, b4⟩ := y
      simp_all

/-- A successful run of the analysis, unpacked. -/
theorem analyzeMax_ok {g g' : Graph} {cs : List (List Nat)} (hwf : g.WF) (hu : g.LocalsU64)
    (h : analyzeMax true g = .ok (g', cs)) :
    SameButMax g g' ∧ (∀ v < g.nodes.length, Done g g' v) ∧
      (∀ c ∈ cs, c ≠ []) ∧ cs.flatten.Nodup ∧
      (∀ c ∈ cs, ∀ a ∈ c, ∀ b, b ∈ c ↔ SameGroup g.Calls a b) ∧
      (∀ v, Recursive g.Calls v ↔ ∃ c ∈ cs, v ∈ c) := by
  rcases analyzeMax_spec hwf hu with ⟨e, _⟩ | ⟨g'', cs', e, h'⟩
  · rw [h] at e; simp at e
  · rw [h] at e
    simp only [Except.ok.injEq, Prod.mk.injEq] at e
    obtain ⟨rfl, rfl⟩ := e
    exact h'

theorem maxOf?_lt {g : Graph} {v : Nat} {m : Max} (h : g.maxOf? v = some m) : v < g.nodes.length := by
  unfold Graph.maxOf? at h
  cases hn : g.nodes[v]? with
  | none => simp [hn] at h
  | some x => exact (List.getElem?_eq_some_iff.mp hn).1

theorem analyzeMax_maxSpec {g g' : Graph} {cs : List (List Nat)} (hwf : g.WF) (hu : g.LocalsU64)
    (h : analyzeMax true g = .ok (g', cs)) {v : Nat} {m : Max} (hv : g'.maxOf? v = some m) :
    MaxSpec g'.Calls g'.locOf v m ∧ m.bytes < 2 ^ 64 := by
  obtain ⟨h1, h2, _⟩ := analyzeMax_ok hwf hu h
  have hlt : v < g.nodes.length := by rw [← h1.length]; exact maxOf?_lt hv
  obtain ⟨m', k1, k2, k3⟩ := h2 v hlt
  rw [hv] at k1
  simp only [Option.some.injEq] at k1
  subst k1
  rw [h1.calls, h1.locOf]
  exact ⟨k3, k2⟩

theorem not_overflows_of_done {g g' : Graph} (h : ∀ v < g.nodes.length, Done g g' v) :
    ¬ Overflows g := by
  rintro ⟨v, hv, k, hk, hh⟩
  obtain ⟨m, _, hb, hm⟩ := h v hv
  have := hm.1.unique hh
  omega

theorem locOf_le_total (g : Graph) (i : Nat) : (g.locOf i).bytes ≤ g.totalKnown := by
  unfold Graph.locOf Graph.totalKnown
  cases hn : g.nodes[i]? with
  | none => simp [Local.bytes]
  | some nd =>
    have hm : nd ∈ g.nodes := List.mem_of_getElem? hn
    have : ∀ l : List Node, nd ∈ l → nd.loc.bytes ≤ (l.map (fun nd => nd.loc.bytes)).sum := by
      intro l
      induction l with
      | nil => simp
      | cons a l ih =>
        intro h
        simp only [List.map_cons, List.sum_cons]
        rcases List.mem_cons.mp h with rfl | h
        · omega
        · have := ih h; omega
    exact this _ hm

theorem localsU64_of_total {g : Graph} (h : g.totalKnown < 2 ^ 64) : g.LocalsU64 :=
  fun i => Nat.lt_of_le_of_lt (locOf_le_total g i) h

end CallStack
