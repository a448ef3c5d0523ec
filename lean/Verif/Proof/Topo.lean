import Verif.Proof.Dfs

/-! Correctness of `is_cyclic_directed` and `Topo`. -/

namespace CallStack

/-! ### `is_cyclic_directed` -/

/-- Finished nodes (latest first): all successors finished before. -/
def FinGood (adj : Nat → List Nat) (fin : List Nat) : Prop :=
  ∀ B x A, fin = B ++ x :: A → ∀ v ∈ adj x, v ∈ A

structure VisitInv (n : Nat) (adj : Nat → List Nat) (st : VisitState) : Prop where
  disc_nodup : st.disc.Nodup
  disc_lt : ∀ x ∈ st.disc, x < n
  fin_disc : ∀ x ∈ st.fin, x ∈ st.disc
  fin_nodup : st.fin.Nodup
  good : FinGood adj st.fin

/-- What a successful (no back edge) visit guarantees. -/
structure VisitPost (n : Nat) (adj : Nat → List Nat) (st st' : VisitState) : Prop where
  inv : VisitInv n adj st'
  mono : ∀ x ∈ st.disc, x ∈ st'.disc
  fmono : ∀ x ∈ st.fin, x ∈ st'.fin
  len : st.disc.length ≤ st'.disc.length
  grey : ∀ x, (x ∈ st'.disc ∧ x ∉ st'.fin) ↔ (x ∈ st.disc ∧ x ∉ st.fin)

def VisitorOk (n : Nat) (adj : Nat → List Nat) (fuel : Nat)
    (f : Nat → VisitState → Option (Bool × VisitState)) : Prop :=
  ∀ u st, u < n → VisitInv n adj st → n < fuel + st.disc.length →
    (∀ v ∈ st.disc, v ∉ st.fin → Reach (adjRel adj) v u) → (u ∈ st.disc → u ∈ st.fin) →
    ∃ b st', f u st = some (b, st') ∧
      (b = true → ∃ x, Recursive (adjRel adj) x) ∧
      (b = false → VisitPost n adj st st' ∧ u ∈ st'.fin)

theorem visitNeighbors_spec {n : Nat} {adj : Nat → List Nat} (hadj : ∀ u v, v ∈ adj u → v < n)
    {fuel : Nat} {f : Nat → VisitState → Option (Bool × VisitState)} (hf : VisitorOk n adj fuel f)
    (u : Nat) (vs : List Nat) (hvs : ∀ v ∈ vs, v ∈ adj u) (st : VisitState)
    (inv : VisitInv n adj st) (hfuel : n < fuel + st.disc.length)
    (hgrey : ∀ v ∈ st.disc, v ∉ st.fin → Reach (adjRel adj) v u) :
    ∃ b st', visitNeighbors f vs st = some (b, st') ∧
      (b = true → ∃ x, Recursive (adjRel adj) x) ∧
      (b = false → VisitPost n adj st st' ∧ ∀ v ∈ vs, v ∈ st'.fin) := by
  induction vs generalizing st with
  | nil =>
    exact ⟨false, st, rfl, by simp, fun _ => ⟨⟨inv, fun _ h => h, fun _ h => h, Nat.le_refl _,
      fun _ => Iff.rfl⟩, by simp⟩⟩
  | cons v vs ih =>
    have hv : v ∈ adj u := hvs v (by simp)
    by_cases hd : v ∈ st.disc
    · by_cases hfin : v ∈ st.fin
      · obtain ⟨b, st', h1, h2, h3⟩ := ih (fun w hw => hvs w (.tail _ hw)) st inv hfuel hgrey
        refine ⟨b, st', by simpa [visitNeighbors, hd, hfin] using h1, h2, fun hb => ?_⟩
        obtain ⟨p, q⟩ := h3 hb
        refine ⟨p, fun w hw => ?_⟩
        rcases List.mem_cons.mp hw with rfl | hw
        · exact p.fmono _ hfin
        · exact q w hw
      · refine ⟨true, st, by simp [visitNeighbors, hd, hfin], fun _ => ?_, by simp⟩
        exact ⟨u, v, hv, hgrey v hd hfin⟩
    · obtain ⟨b, st1, h1, h2, h3⟩ := hf v st (hadj _ _ hv) inv hfuel
        (fun w hw hwf => (hgrey w hw hwf).tail hv) (fun h => absurd h hd)
      cases b with
      | true => exact ⟨true, st1, by simp [visitNeighbors, hd, h1], h2, by simp⟩
      | false =>
        obtain ⟨p, q⟩ := h3 rfl
        obtain ⟨b, st', g1, g2, g3⟩ := ih (fun w hw => hvs w (.tail _ hw)) st1 p.inv
          (by have := p.len; omega)
          (fun w hw hwf => by
            have := (p.grey w).mp ⟨hw, hwf⟩
            exact hgrey w this.1 this.2)
        refine ⟨b, st', by simpa [visitNeighbors, hd, h1] using g1, g2, fun hb => ?_⟩
        obtain ⟨p', q'⟩ := g3 hb
        refine ⟨⟨p'.inv, fun x hx => p'.mono x (p.mono x hx), fun x hx => p'.fmono x (p.fmono x hx),
          Nat.le_trans p.len p'.len, fun x => (p'.grey x).trans (p.grey x)⟩, fun w hw => ?_⟩
        rcases List.mem_cons.mp hw with rfl | hw
        · exact p'.fmono _ q
        · exact q' w hw

theorem dfsVisitor_spec {n : Nat} {adj : Nat → List Nat} (hadj : ∀ u v, v ∈ adj u → v < n)
    (fuel : Nat) : VisitorOk n adj fuel (dfsVisitor adj fuel) := by
  induction fuel with
  | zero =>
    intro u st _ inv hf
    have := length_le_of_nodup_lt inv.disc_nodup inv.disc_lt
    omega
  | succ fuel ih =>
    intro u st hu inv hf hgrey hdf
    by_cases hd : u ∈ st.disc
    · exact ⟨false, st, by simp [dfsVisitor, hd], by simp, fun _ => ⟨⟨inv, fun _ h => h,
        fun _ h => h, Nat.le_refl _, fun _ => Iff.rfl⟩, hdf hd⟩⟩
    · have huf : u ∉ st.fin := fun h => hd (inv.fin_disc u h)
      obtain ⟨b, st1, h1, h2, h3⟩ := visitNeighbors_spec hadj ih u (adj u) (fun _ h => h)
        { st with disc := u :: st.disc }
        ⟨List.nodup_cons.mpr ⟨hd, inv.disc_nodup⟩, fun x hx => by
            rcases List.mem_cons.mp hx with rfl | hx
            · exact hu
            · exact inv.disc_lt x hx,
          fun x hx => .tail _ (inv.fin_disc x hx), inv.fin_nodup, inv.good⟩
        (by simp only [List.length_cons]; omega)
        (fun v hv hvf => by
          rcases List.mem_cons.mp hv with rfl | hv
          · exact .refl _
          · exact hgrey v hv hvf)
      cases b with
      | true => exact ⟨true, st1, by simp [dfsVisitor, hd, h1], h2, by simp⟩
      | false =>
        obtain ⟨p, q⟩ := h3 rfl
        have hg := (p.grey u).mpr ⟨by simp, huf⟩
        refine ⟨false, { st1 with fin := u :: st1.fin }, by simp [dfsVisitor, hd, h1], by simp,
          fun _ => ⟨⟨⟨p.inv.disc_nodup, p.inv.disc_lt, ?_, List.nodup_cons.mpr ⟨hg.2, p.inv.fin_nodup⟩,
            ?_⟩, fun x hx => p.mono x (.tail _ hx), fun x hx => .tail _ (p.fmono x hx), ?_, ?_⟩,
            by simp⟩⟩
        · intro x hx
          rcases List.mem_cons.mp hx with rfl | hx
          · exact hg.1
          · exact p.inv.fin_disc x hx
        · intro B x A hs v hv
          cases B with
          | nil =>
            simp only [List.nil_append, List.cons.injEq] at hs
            obtain ⟨rfl, rfl⟩ := hs
            exact q v hv
          | cons b B =>
            simp only [List.cons_append, List.cons.injEq] at hs
            exact p.inv.good B x A hs.2 v hv
        · have := p.len
          simp only [List.length_cons] at this
          exact Nat.le_trans (by omega) this
        · intro x
          have := p.grey x
          simp only [List.mem_cons, not_or] at this ⊢
          constructor
          · rintro ⟨a, b, c⟩
            obtain ⟨d, e⟩ := this.mp ⟨a, c⟩
            exact ⟨d.resolve_left b, e⟩
          · rintro ⟨a, c⟩
            obtain ⟨d, e⟩ := this.mpr ⟨.inr a, c⟩
            exact ⟨d, fun h => hd (h ▸ a), e⟩

theorem dfsAll_spec {n : Nat} {adj : Nat → List Nat} (hadj : ∀ u v, v ∈ adj u → v < n)
    (us : List Nat) (hus : ∀ u ∈ us, u < n) (st : VisitState) (inv : VisitInv n adj st)
    (hgrey : ∀ x ∈ st.disc, x ∈ st.fin) :
    ∃ b, dfsAll adj (n + 1) us st = some b ∧ (b = true → ∃ x, Recursive (adjRel adj) x) ∧
      (b = false → ∃ fin, FinGood adj fin ∧ fin.Nodup ∧ (∀ x ∈ st.fin, x ∈ fin) ∧
        ∀ u ∈ us, u ∈ fin) := by
  induction us generalizing st with
  | nil => exact ⟨false, rfl, by simp, fun _ => ⟨st.fin, inv.good, inv.fin_nodup, fun _ h => h,
      by simp⟩⟩
  | cons u us ih =>
    obtain ⟨b, st1, h1, h2, h3⟩ := dfsVisitor_spec hadj (n + 1) u st (hus u (by simp)) inv (by omega)
      (fun v hv hvf => absurd (hgrey v hv) hvf) (hgrey u)
    cases b with
    | true => exact ⟨true, by simp [dfsAll, h1], h2, by simp⟩
    | false =>
      obtain ⟨p, q⟩ := h3 rfl
      obtain ⟨b, g1, g2, g3⟩ := ih (fun v hv => hus v (.tail _ hv)) st1 p.inv (fun x hx => by
        by_cases h : x ∈ st1.fin
        · exact h
        · have := (p.grey x).mp ⟨hx, h⟩
          exact absurd (hgrey x this.1) this.2)
      refine ⟨b, by simp [dfsAll, h1, g1], g2, fun hb => ?_⟩
      obtain ⟨fin, k1, k2, k3, k4⟩ := g3 hb
      refine ⟨fin, k1, k2, fun x hx => k3 x (p.fmono x hx), fun x hx => ?_⟩
      rcases List.mem_cons.mp hx with rfl | hx
      · exact k3 _ q
      · exact k4 x hx

/-- A well ordered finish list has no cycles. -/
theorem FinGood.acyclic {adj : Nat → List Nat} {fin : List Nat} (h : FinGood adj fin)
    (hn : fin.Nodup) {x : Nat} (hx : x ∈ fin) : ¬ Recursive (adjRel adj) x := by
  rintro ⟨y, hxy, hyx⟩
  obtain ⟨B, A, rfl⟩ := List.append_of_mem hx
  have hA : ∀ a b, a ∈ A → b ∈ adj a → b ∈ A := by
    intro a b ha hb
    obtain ⟨A1, A2, rfl⟩ := List.append_of_mem ha
    have := h (B ++ x :: A1) a A2 (by simp) b hb
    simp [this]
  have h1 : y ∈ A := h B x A rfl y hxy
  have h2 : x ∈ A := hyx.closed (S := (· ∈ A)) hA h1
  have := (List.nodup_append.mp hn).2.1
  exact (List.nodup_cons.mp this).1 h2

/-- `is_cyclic_directed` terminates and decides whether some node is recursive. -/
theorem isCyclic_spec (n : Nat) (adj : Nat → List Nat) (hadj : ∀ u v, v ∈ adj u → u < n ∧ v < n) :
    ∃ b, isCyclic n adj = some b ∧ (b = true ↔ ∃ x, Recursive (adjRel adj) x) := by
  obtain ⟨b, h1, h2, h3⟩ := dfsAll_spec (fun u v h => (hadj u v h).2) (List.range n)
    (fun u hu => List.mem_range.mp hu) ⟨[], []⟩
    ⟨by simp, by simp, by simp, by simp, by intro B x A h; simp at h⟩ (by simp)
  refine ⟨b, h1, h2, ?_⟩
  rintro ⟨x, hx⟩
  cases b with
  | true => rfl
  | false =>
    obtain ⟨fin, k1, k2, _, k4⟩ := h3 rfl
    have hxn : x < n := by
      obtain ⟨y, hy, _⟩ := hx
      exact (hadj _ _ hy).1
    exact absurd hx (k1.acyclic k2 (k4 x (List.mem_range.mpr hxn)))

/-! ### `Topo` -/

/-- Induction along the edges of a finite acyclic graph. -/
theorem acyclic_induction {E : Nat → Nat → Prop} {n : Nat} (hE : ∀ a b, E a b → b < n)
    (hac : ∀ v, ¬ Recursive E v) {P : Nat → Prop} (h : ∀ v, (∀ w, E v w → P w) → P v) (v : Nat) :
    P v := by
  classical
  let cnt (v : Nat) : Nat := ((List.range n).filter (fun x => decide (∃ w, E v w ∧ Reach E w x))).length
  have main : ∀ k v, cnt v < k → P v := by
    intro k
    induction k with
    | zero => intro v hv; omega
    | succ k ih =>
      intro v hv
      apply h
      intro w hw
      apply ih
      have hlt : cnt w < cnt v := by
        have hsub : w :: ((List.range n).filter (fun x => decide (∃ y, E w y ∧ Reach E y x))) ⊆
            (List.range n).filter (fun x => decide (∃ y, E v y ∧ Reach E y x)) := by
          intro x hx
          rcases List.mem_cons.mp hx with rfl | hx
          · simp only [List.mem_filter, List.mem_range, decide_eq_true_eq]
            exact ⟨hE _ _ hw, x, hw, .refl x⟩
          · simp only [List.mem_filter, List.mem_range, decide_eq_true_eq] at hx ⊢
            obtain ⟨hx1, y, h1, h2⟩ := hx
            exact ⟨hx1, w, hw, .step h1 h2⟩
        have hnd : (w :: ((List.range n).filter
            (fun x => decide (∃ y, E w y ∧ Reach E y x)))).Nodup := by
          refine List.nodup_cons.mpr ⟨fun hm => ?_, List.nodup_range.filter _⟩
          simp only [List.mem_filter, List.mem_range, decide_eq_true_eq] at hm
          exact hac w hm.2
        have := (List.subperm_of_subset hnd hsub).length_le
        simp only [List.length_cons] at this
        exact this
      omega
  exact main (cnt v + 1) v (by omega)

theorem mem_topoPush {radj : Nat → List Nat} {ordered succs tovisit : List Nat} {x : Nat} :
    x ∈ topoPush radj ordered succs tovisit ↔
      (x ∈ succs ∧ ∀ b ∈ radj x, b ∈ ordered) ∨ x ∈ tovisit := by
  induction succs generalizing tovisit with
  | nil => simp [topoPush]
  | cons s ss ih =>
    rw [topoPush, ih]
    by_cases hs : ∀ b ∈ radj s, b ∈ ordered
    · have : (radj s).all (fun b => ordered.contains b) = true := by simpa using hs
      simp only [this, if_true, List.mem_cons]
      constructor
      · rintro (⟨h1, h2⟩ | rfl | h)
        · exact .inl ⟨.inr h1, h2⟩
        · exact .inl ⟨.inl rfl, hs⟩
        · exact .inr h
      · rintro (⟨rfl | h1, h2⟩ | h)
        · exact .inr (.inl rfl)
        · exact .inl ⟨h1, h2⟩
        · exact .inr (.inr h)
    · have : (radj s).all (fun b => ordered.contains b) = false := by
        rw [Bool.eq_false_iff]; simpa using hs
      simp only [this, Bool.false_eq_true, if_false, List.mem_cons]
      constructor
      · rintro (⟨h1, h2⟩ | h)
        · exact .inl ⟨.inr h1, h2⟩
        · exact .inr h
      · rintro (⟨rfl | h1, h2⟩ | h)
        · exact absurd h2 hs
        · exact .inl ⟨h1, h2⟩
        · exact .inr h

theorem topoNext_spec (adj radj : Nat → List Nat) (tovisit ordered : List Nat) :
    (topoNext adj radj tovisit ordered = none ∧ ∀ x ∈ tovisit, x ∈ ordered) ∨
    (∃ A nx B, tovisit = A ++ nx :: B ∧ (∀ x ∈ A, x ∈ ordered) ∧ nx ∉ ordered ∧
      topoNext adj radj tovisit ordered =
        some (nx, topoPush radj (nx :: ordered) (adj nx) B, nx :: ordered)) := by
  induction tovisit with
  | nil => left; simp [topoNext]
  | cons s ss ih =>
    by_cases hs : s ∈ ordered
    · simp only [topoNext, List.contains_eq_mem, hs, decide_true, if_true]
      rcases ih with ⟨h1, h2⟩ | ⟨A, nx, B, h1, h2, h3, h4⟩
      · left
        refine ⟨h1, fun x hx => ?_⟩
        rcases List.mem_cons.mp hx with rfl | hx
        · exact hs
        · exact h2 x hx
      · right
        refine ⟨s :: A, nx, B, by simp [h1], fun x hx => ?_, h3, h4⟩
        rcases List.mem_cons.mp hx with rfl | hx
        · exact hs
        · exact h2 x hx
    · right
      exact ⟨[], s, ss, rfl, by simp, hs, by simp [topoNext, hs]⟩

theorem topoCollect_spec (n : Nat) (adj radj : Nat → List Nat)
    (hadj : ∀ u v, v ∈ adj u → v < n) (hrev : ∀ a b, b ∈ radj a ↔ a ∈ adj b)
    (fuel : Nat) (tovisit ordered : List Nat) (hlt : ∀ x ∈ tovisit, x < n) (hon : ordered.Nodup)
    (hol : ∀ x ∈ ordered, x < n) (hf : n < fuel + ordered.length)
    (hready : ∀ x ∈ tovisit, ∀ b ∈ radj x, b ∈ ordered)
    (hall : ∀ x < n, (∀ b ∈ radj x, b ∈ ordered) → x ∈ ordered ∨ x ∈ tovisit) :
    ∃ out, topoCollect adj radj fuel tovisit ordered = some out ∧ out.Nodup ∧
      (∀ x ∈ out, x ∉ ordered ∧ x < n) ∧
      (∀ A x B, out = A ++ x :: B → ∀ b ∈ radj x, b ∈ ordered ∨ b ∈ A) ∧
      (∀ x < n, (∀ b ∈ radj x, b ∈ ordered ∨ b ∈ out) → x ∈ ordered ∨ x ∈ out) := by
  induction fuel generalizing tovisit ordered with
  | zero =>
    have := length_le_of_nodup_lt hon hol
    omega
  | succ fuel ih =>
    rcases topoNext_spec adj radj tovisit ordered with ⟨h1, h2⟩ | ⟨A, nx, B, h1, h2, h3, h4⟩
    · refine ⟨[], by simp [topoCollect, h1], by simp, by simp, by simp, ?_⟩
      intro x hx hb
      rcases hall x hx (fun b hb' => by simpa using hb b hb') with h | h
      · exact .inl h
      · exact .inl (h2 x h)
    · have hnx : nx < n := hlt nx (by simp [h1])
      have hnxr := hready nx (by simp [h1])
      refine Exists.elim (ih (topoPush radj (nx :: ordered) (adj nx) B) (nx :: ordered) ?_
        (List.nodup_cons.mpr ⟨h3, hon⟩) ?_ (by simp only [List.length_cons]; omega) ?_ ?_) ?_
      · intro x hx
        rcases mem_topoPush.mp hx with ⟨h, _⟩ | h
        · exact hadj _ _ h
        · exact hlt x (by simp [h1, h])
      · intro x hx
        rcases List.mem_cons.mp hx with rfl | hx
        · exact hnx
        · exact hol x hx
      · intro x hx b hb
        rcases mem_topoPush.mp hx with ⟨_, h⟩ | h
        · exact h b hb
        · exact .tail _ (hready x (by simp [h1, h]) b hb)
      · intro x hx hb
        by_cases hxnx : nx ∈ radj x
        · exact .inr (mem_topoPush.mpr (.inl ⟨(hrev x nx).mp hxnx, hb⟩))
        · have hb' : ∀ b ∈ radj x, b ∈ ordered := by
            intro b hb'
            rcases List.mem_cons.mp (hb b hb') with rfl | h
            · exact absurd hb' hxnx
            · exact h
          rcases hall x hx hb' with h | h
          · exact .inl (.tail _ h)
          · rw [h1] at h
            rcases List.mem_append.mp h with h | h
            · exact .inl (.tail _ (h2 x h))
            · rcases List.mem_cons.mp h with rfl | h
              · exact .inl (by simp)
              · exact .inr (mem_topoPush.mpr (.inr h))
      · rintro out ⟨e, k1, k2, k3, k4⟩
        refine ⟨nx :: out, by simp [topoCollect, h4, e], ?_, ?_, ?_, ?_⟩
        · exact List.nodup_cons.mpr ⟨fun h => (k2 nx h).1 (by simp), k1⟩
        · intro x hx
          rcases List.mem_cons.mp hx with rfl | hx
          · exact ⟨h3, hnx⟩
          · exact ⟨fun h => (k2 x hx).1 (.tail _ h), (k2 x hx).2⟩
        · intro A' x B' hs b hb
          cases A' with
          | nil =>
            simp only [List.nil_append, List.cons.injEq] at hs
            obtain ⟨rfl, _⟩ := hs
            exact .inl (hnxr b hb)
          | cons a A' =>
            simp only [List.cons_append, List.cons.injEq] at hs
            obtain ⟨rfl, hs⟩ := hs
            rcases k3 A' x B' hs b hb with h | h
            · rcases List.mem_cons.mp h with rfl | h
              · exact .inr (by simp)
              · exact .inl h
            · exact .inr (.tail _ h)
        · intro x hx hb
          rcases k4 x hx (fun b hb' => by
            rcases hb b hb' with h | h
            · exact .inl (.tail _ h)
            · rcases List.mem_cons.mp h with rfl | h
              · exact .inl (by simp)
              · exact .inr h) with h | h
          · rcases List.mem_cons.mp h with rfl | h
            · exact .inr (by simp)
            · exact .inl h
          · exact .inr (.tail _ h)

/-- On an acyclic graph `Topo` terminates and returns every node exactly once, after all of its
predecessors. -/
theorem topoOrder_spec (n : Nat) (adj radj : Nat → List Nat)
    (hadj : ∀ u v, v ∈ adj u → u < n ∧ v < n) (hrev : ∀ a b, b ∈ radj a ↔ a ∈ adj b)
    (hac : ∀ v, ¬ Recursive (adjRel radj) v) :
    ∃ out, topoOrder n adj radj = some out ∧ out.Nodup ∧ (∀ x, x ∈ out ↔ x < n) ∧
      ∀ A x B, out = A ++ x :: B → ∀ b ∈ radj x, b ∈ A := by
  obtain ⟨out, h1, h2, h3, h4, h5⟩ := topoCollect_spec n adj radj (fun u v h => (hadj u v h).2) hrev
    (n + 1) ((List.range n).filter (fun a => (radj a).isEmpty)).reverse [] (by
      intro x hx
      simp only [List.mem_reverse, List.mem_filter, List.mem_range] at hx
      exact hx.1) (by simp) (by simp) (by omega)
    (by
      intro x hx b hb
      simp only [List.mem_reverse, List.mem_filter, List.isEmpty_iff] at hx
      simp [hx.2] at hb)
    (by
      intro x hx hb
      right
      simp only [List.mem_reverse, List.mem_filter, List.mem_range, List.isEmpty_iff]
      refine ⟨hx, List.eq_nil_iff_forall_not_mem.mpr fun b hb' => ?_⟩
      simpa using hb b hb')
  refine ⟨out, h1, h2, fun x => ⟨fun h => (h3 x h).2, fun hx => ?_⟩, ?_⟩
  · have hrl : ∀ a b, adjRel radj a b → b < n := fun a b h => (hadj b a ((hrev a b).mp h)).1
    have main := acyclic_induction (P := fun v => v < n → v ∈ out) hrl hac (fun v ih hv => by
      rcases h5 v hv (fun b hb => .inr (ih b hb (hrl v b hb))) with h | h
      · simp at h
      · exact h) x
    exact main hx
  · intro A x B hs b hb
    simpa using h4 A x B hs b hb

end CallStack
