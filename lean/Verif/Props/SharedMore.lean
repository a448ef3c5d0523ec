import Verif.Props.SharedChange
import Verif.Props.Change

/-!
Property C120, continued: versions of a program that use more stack, if several functions may have the same names.
-/

namespace CallStack

/-- A list without repetitions below `n` adds up to at most what the numbers below `n` do. -/
theorem sum_nodup_le {us : List Nat} {n : Nat} (d : Nat → Nat) (hn : us.Nodup) (hlt : ∀ u ∈ us, u < n) :
    (us.map d).sum ≤ ((List.range n).map d).sum := by
  obtain ⟨l, h1, h2⟩ : us.Subperm (List.range n) :=
    List.subperm_of_subset hn fun u hu => List.mem_range.mpr (hlt u hu)
  rw [← (h1.map d).sum_nat]
  clear h1 hn hlt
  generalize List.range n = r at h2
  induction h2 with
  | slnil => simp
  | cons a _ ih => simp only [List.map_cons, List.sum_cons]; omega
  | cons_cons a _ ih => simp only [List.map_cons, List.sum_cons]; omega

theorem weight_add {loc loc' : Nat → Local} {us : List Nat} (h : ∀ u ∈ us, (loc u).bytes ≤ (loc' u).bytes) :
    weight loc' us = weight loc us + (us.map fun u => (loc' u).bytes - (loc u).bytes).sum := by
  induction us with
  | nil => simp [weight]
  | cons u us ih =>
    have h1 := ih fun w hw => h w (List.mem_cons_of_mem _ hw)
    have h2 := h u List.mem_cons_self
    simp only [weight, List.map_cons, List.sum_cons] at h1 ⊢
    omega

section run

variable {demangle demangle' : Str → Str} {ord ord' : HashOrder} {search : TagSearch} {p p' : Program} {elf : Elf}
  {g g' : Graph} {cycles cycles' : List (List Nat)}

/-- **C120** Two versions of the program with the same bodies, where no function uses less in the second one: no maximum
is smaller in the second version, and none is larger by more than all differences together. The same maxima are exact
if the same usages are known and the same recursive functions use stack. -/
theorem C120_frames (shape : p.SameShape p')
    (alike : p.NamesAlike) (defs : p.DefinesOnce) (decls : p.DeclaresOnce) (addressed : p.Addressed)
    (one : p.OneVoid) (safe : p.OrderSafe) (sizes : p.SizesU64)
    (sizes' : p'.SizesU64) (fits : elf.Fits32)
    (h : finalGraph demangle ord search p elf none = .ok (g, cycles))
    (h' : finalGraph demangle' ord' search p' elf none = .ok (g', cycles'))
    (bodies : ∀ u, p.SameBody p' u)
    (more : ∀ u < p.defined.length, (g.locOf u).bytes ≤ (g'.locOf u).bytes) :
    ∃ chosen, p.Chosen chosen ∧ ∀ i < p.defined.length, ∀ m, g.maxOf? i = some m →
      ∃ m', g'.maxOf? i = some m' ∧ m.bytes ≤ m'.bytes ∧
        m'.bytes ≤ m.bytes +
          ((List.range p.defined.length).map fun u => (g'.locOf u).bytes - (g.locOf u).bytes).sum ∧
        ((∀ u, Reach (p.MayCallShared search elf chosen) i u → ((g'.locOf u).Known ↔ (g.locOf u).Known) ∧
          (Recursive (p.MayCallShared search elf chosen) u → ((g'.locOf u).bytes = 0 ↔ (g.locOf u).bytes = 0))) →
          (m'.IsExact ↔ m.IsExact)) := by
  obtain ⟨c, hc, hf⟩ := C119_figures alike defs decls addressed safe sizes fits h
  obtain ⟨c', hc', hf'⟩ := C119_figures (shape.namesAlike alike) (shape.definesOnce defs)
    (by unfold Program.DeclaresOnce; rw [shape.declares]; exact decls)
    (by unfold Program.Addressed; rw [shape.defined]; exact addressed) (shape.orderSafe bodies safe) sizes' fits h'
  obtain rfl := chosen_unique one hc (shape.chosen hc')
  rw [shape.defined] at hf'
  refine ⟨c, hc, fun i hi m hm => ?_⟩
  have hE : p'.MayCallShared search elf c = p.MayCallShared search elf c := by
    funext u w
    exact propext (shape.mayCallShared (fun j _ => bodies j) w)
  have hL : ∀ u, p'.MayLeaveShared search elf u ↔ p.MayLeaveShared search elf u :=
    fun u => shape.mayLeaveShared fun j _ => bodies j
  obtain ⟨a1, a2, a3⟩ := hf i hi
  obtain ⟨b1, b2, b3⟩ := hf' i hi
  obtain ⟨m', hm'⟩ := b2.mpr (by
    obtain ⟨x, hx⟩ := a2.mp ⟨m, hm⟩
    exact ⟨x, shape.framed.mpr hx⟩)
  obtain ⟨⟨⟨us, u1, u2⟩, u3⟩, u4⟩ := a3 m hm
  obtain ⟨⟨⟨us', v1, v2⟩, v3⟩, v4⟩ := b3 m' hm'
  rw [hE] at v1 v3 v4
  have hlt : ∀ {us}, GroupChain (p.MayCallShared search elf c) i us → ∀ u ∈ us, u < p.defined.length :=
    fun hus u hu => Program.MayCallShared.reach_lt hi (hus.1 u hu)
  refine ⟨m', hm', ?_, ?_, fun hsame => ?_⟩
  · have k1 := weight_le fun u hu => more u (hlt u1 u hu)
    have k2 := v3 us u1
    omega
  · have k1 := weight_add fun u hu => more u (hlt v1 u hu)
    have k2 := sum_nodup_le (fun u => (g'.locOf u).bytes - (g.locOf u).bytes) (groupChain_nodup v1) (hlt v1)
    have k3 := u3 us' v1
    omega
  · rw [v4, u4]
    refine forall_congr' fun u => imp_congr_right fun hu => ?_
    obtain ⟨h1, h2⟩ := hsame u hu
    rw [hL, h1]
    exact and_congr_right fun _ => and_congr_right fun _ => forall_congr' h2

/-- **C120** On a target without machine code analysis, if the compiler reports frame sizes for the same functions in
both versions, and no smaller one in the second, then no maximum is smaller in the second version, and the same maxima
are exact as far as no recursive function is reached. -/
theorem C120_reported {s' : List (Str × Nat)} (other : p.target.isThumb = false)
    (alike : p.NamesAlike) (defs : p.DefinesOnce) (decls : p.DeclaresOnce) (addressed : p.Addressed)
    (one : p.OneVoid) (safe : p.OrderSafe) (sizes : p.SizesU64) (sizes' : { p with stackSizes := s' }.SizesU64)
    (fits : elf.Fits32) (h : finalGraph demangle ord search p elf none = .ok (g, cycles))
    (h' : finalGraph demangle' ord' search { p with stackSizes := s' } elf none = .ok (g', cycles'))
    (names : ∀ n, (∃ k, { p with stackSizes := s' }.Reported n k) ↔ ∃ k, p.Reported n k)
    (more : ∀ n k k', p.Reported n k → { p with stackSizes := s' }.Reported n k' → k ≤ k') :
    ∃ chosen, p.Chosen chosen ∧ ∀ i < p.defined.length, ∀ m, g.maxOf? i = some m →
      ∃ m', g'.maxOf? i = some m' ∧ m.bytes ≤ m'.bytes ∧
        ((∀ u, Reach (p.MayCallShared search elf chosen) i u → ¬ Recursive (p.MayCallShared search elf chosen) u) →
          (m'.IsExact ↔ m.IsExact)) := by
  have shape : p.SameShape { p with stackSizes := s' } :=
    ⟨rfl, rfl, rfl, rfl, by
      generalize p.defines = l
      induction l with
      | nil => exact .nil
      | cons a l ih => exact .cons ⟨rfl, rfl⟩ ih, names⟩
  have bodies : ∀ u, p.SameBody { p with stackSizes := s' } u := fun u s => Iff.rfl
  have safe' : { p with stackSizes := s' }.OrderSafe := shape.orderSafe bodies safe
  obtain ⟨c, hc, hf⟩ := C119_figures alike defs decls addressed safe sizes fits h
  obtain ⟨c', hc', hf'⟩ := C119_figures (p := { p with stackSizes := s' }) alike defs decls addressed safe' sizes' fits h'
  have hunrep : ∀ {n}, (∀ k, ¬ { p with stackSizes := s' }.Reported n k) ↔ ∀ k, ¬ p.Reported n k := by
    intro n
    rw [← not_exists, ← not_exists, names]
  -- the figures that the compiler reports
  have hfr : ∀ {u k k'}, p.Frame u k → { p with stackSizes := s' }.Frame u k' → k ≤ k' := by
    rintro u k k' ⟨a, s, pre, n, post, h1, h2, h3, h4, h5⟩ ⟨a', s2, pre', n', post', k1, k2, k3, k4, k5⟩
    rw [show ({ p with stackSizes := s' } : Program).defined = p.defined from rfl, h1] at k1
    cases k1
    have hnn : n = n' := by
      rw [h2] at k2
      rcases List.append_eq_append_iff.mp k2 with ⟨as, e1, e2⟩ | ⟨as, e1, e2⟩
      · cases as with
        | nil => simpa using (List.cons.inj e2).1
        | cons x as =>
          obtain ⟨rfl, _⟩ := List.cons.inj e2
          rcases k5 n (by rw [e1]; simp) with e | e
          · exact absurd e h3
          · exact absurd h4 (hunrep.mp e k)
      · cases as with
        | nil => simpa using (List.cons.inj e2).1.symm
        | cons x as =>
          obtain ⟨rfl, _⟩ := List.cons.inj e2
          rcases h5 n' (by rw [e1]; simp) with e | e
          · exact absurd e k3
          · exact absurd k4 (hunrep.mpr e k')
    subst hnn
    exact more n k k' h4 k4
  have hloc : ∀ u < p.defined.length, (g.locOf u).bytes ≤ (g'.locOf u).bytes ∧
      ((g'.locOf u).Known ↔ (g.locOf u).Known) := by
    intro u hu
    by_cases hx : ∃ k, p.Frame u k
    · obtain ⟨k', hk'⟩ := shape.framed.mpr hx
      obtain ⟨k, hk⟩ := hx
      rw [((hf u hu).1 (.exact k)).mp (.compiler (llvm := some k) (.inl other) hk),
        ((hf' u hu).1 (.exact k')).mp (.compiler (llvm := some k') (.inl other) hk')]
      exact ⟨hfr hk hk', Iff.rfl⟩
    · have hx' := fun y => hx (shape.framed.mp y)
      rw [((hf u hu).1 .unknown).mp (.compiler (llvm := none) (.inl other) (not_exists.mp hx)),
        ((hf' u hu).1 .unknown).mp (.compiler (llvm := none) (.inl other) (not_exists.mp hx'))]
      exact ⟨Nat.le_refl _, Iff.rfl⟩
  obtain ⟨c2, hc2, hall⟩ := C120_frames shape alike defs decls addressed one safe sizes sizes' fits h h' bodies
    (fun u hu => (hloc u hu).1)
  refine ⟨c2, hc2, fun i hi m hm => ?_⟩
  obtain ⟨m', k1, k2, _, k4⟩ := hall i hi m hm
  exact ⟨m', k1, k2, fun hno => k4 fun u hu =>
    ⟨(hloc u (Program.MayCallShared.reach_lt hi hu)).2, fun hr => absurd hr (hno u hu)⟩⟩

end run

/-- The hypotheses of `C120_reported` are met: `main` uses 80 bytes more, and so does its maximum. -/
example (search : TagSearch) :
    (∀ n, (∃ k, exIrTwinsMore.Reported n k) ↔ ∃ k, exIrTwins.Reported n k) ∧
    (∃ g cs, finalGraph id sameOrder search exIrTwins ⟨[], none⟩ none = .ok (g, cs) ∧
      g.maxOf? 0 = some (.exact 48)) ∧
    ∃ g cs, finalGraph id sameOrder search exIrTwinsMore ⟨[], none⟩ none = .ok (g, cs) ∧
      g.maxOf? 0 = some (.exact 128) :=
  ⟨exIrTwins_more.reported, finalGraph_eval (p := exIrTwins) rfl search ⟨[], none⟩ none (fun g _ => g.maxOf? 0 = _)
    (by decide +kernel), finalGraph_eval (p := exIrTwinsMore) rfl search ⟨[], none⟩ none (fun g _ => g.maxOf? 0 = _)
    (by decide +kernel)⟩

end CallStack
