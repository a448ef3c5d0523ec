import Verif.Props.Change

/-!
Property C76, exactly: which figures the order of the hash map of signatures can lead to, and when it does not matter.
-/

namespace CallStack

/-- The maximum of the `i`-th live function, if `chosen` is taken for the type that stands for any type. -/
def Program.MaxIs (p : Program) (search : TagSearch) (elf : Elf) (chosen : Option Str) (loc : Nat → Local) (i : Nat)
    (m : Max) : Prop :=
  Heaviest (p.MayCall search elf chosen) loc i m.bytes ∧
  (m.IsExact ↔ ∀ u, Reach (p.MayCall search elf chosen) i u →
    (loc u).Known ∧ ¬ p.MayLeave search elf u ∧
    (Recursive (p.MayCall search elf chosen) u → (loc u).bytes = 0))

theorem Program.MaxIs.unique {p : Program} {search : TagSearch} {elf : Elf} {c : Option Str} {loc : Nat → Local}
    {i : Nat} {m m' : Max} (h : p.MaxIs search elf c loc i m) (h' : p.MaxIs search elf c loc i m') : m = m' := by
  have h1 := h.1.unique h'.1
  have h2 := h.2.trans h'.2.symm
  cases m <;> cases m' <;> simp_all [Max.bytes, Max.IsExact]

theorem Program.MaxIs.congr {p : Program} {search : TagSearch} {elf : Elf} {c : Option Str} {loc loc' : Nat → Local}
    {i : Nat} {m : Max} (hl : ∀ u, Reach (p.MayCall search elf c) i u → loc' u = loc u)
    (h : p.MaxIs search elf c loc i m) : p.MaxIs search elf c loc' i m := by
  obtain ⟨⟨⟨us, h1, h2⟩, h3⟩, h4⟩ := h
  have hw : ∀ {us}, GroupChain (p.MayCall search elf c) i us → weight loc' us = weight loc us :=
    fun hus => weight_congr fun u hu => hl u (hus.1 u hu)
  refine ⟨⟨⟨us, h1, (hw h1).trans h2⟩, fun vs hv => by rw [hw hv]; exact h3 vs hv⟩, h4.trans ?_⟩
  exact forall_congr' fun u => imp_congr_right fun hu => by rw [hl u hu]

/-- The order that starts at the `n`-th entry and goes round. -/
def HashOrder.from (n : Nat) : HashOrder :=
  ⟨fun _ _ l => l.drop n ++ l.take n, fun _ _ l => by
    have := List.perm_append_comm (l₁ := l.drop n) (l₂ := l.take n)
    rwa [List.take_append_drop] at this⟩

section

variable {demangle : Str → Str} {ord : HashOrder} {search : TagSearch} {p : Program} {elf : Elf}
  {cs ext : List Str} {st0 stIr st : Build} {g : Graph}

/-- Every choice is made for some order. -/
theorem RunFacts.realised (h : RunFacts demangle ord search p elf cs ext st0 stIr st g)
    (defs : p.DefinesOnce) (decls : p.DeclaresOnce) {c : Option Str} (hc : p.Chosen c) :
    ∃ ord', voidOf ord' st = c := by
  have hv := h.chosen defs decls
  cases hc with
  | @core v h0 hr hp =>
    obtain ⟨j, sig, hj, hf⟩ := hr
    obtain ⟨ind, he⟩ := (h.registered defs decls sig).mpr ⟨j, hj⟩
    obtain ⟨n, hn, hg⟩ := List.getElem_of_mem he
    refine ⟨.from n, ?_⟩
    have hfirst : ((HashOrder.from n).perm _ 0 st.indirects).filterMap (fun e => maybeVoid e.1) =
        v :: ((st.indirects.drop (n + 1) ++ st.indirects.take n).filterMap fun e => maybeVoid e.1) := by
      have : (HashOrder.from n).perm _ 0 st.indirects =
          (sig, ind) :: (st.indirects.drop (n + 1) ++ st.indirects.take n) := by
        change st.indirects.drop n ++ st.indirects.take n = _
        rw [List.drop_eq_getElem_cons hn, hg]
        rfl
      rw [this, List.filterMap_cons, (maybeVoid_iff sig v).mpr hf]
    have hno : ¬ c!"fmt::Void" ∈ ((HashOrder.from n).perm _ 0 st.indirects).filterMap (fun e => maybeVoid e.1) := by
      intro hm
      obtain ⟨e, h1, h2⟩ := List.mem_filterMap.mp hm
      obtain ⟨j', hj'⟩ := (h.registered defs decls e.1).mp ⟨_, ((HashOrder.from n).isPerm _ _ _).mem_iff.mp h1⟩
      exact h0 ⟨j', e.1, hj', (maybeVoid_iff _ _).mp h2⟩
    unfold voidOf oneTrueVoid
    rw [if_neg (by rwa [List.contains_iff_mem]), hfirst,
      List.find?_cons_of_pos (p := fun v => startsWith v c!"core::fmt::Void")
      ((startsWith_iff _ _).mpr hp)]
  | known h0 =>
    refine ⟨ord, ?_⟩
    generalize voidOf ord st = a at hv
    cases hv with
    | known => rfl
    | core h1 | only h1 | none h1 => exact absurd h0 h1
  | only h0 h1 h2 h3 =>
    refine ⟨ord, ?_⟩
    generalize voidOf ord st = a at hv
    cases hv with
    | known h4 => exact absurd h4 h0
    | core _ h4 h5 => exact absurd h5 (h1 _ h4)
    | only _ _ h4 => rw [h3 _ h4]
    | none _ _ h4 =>
      obtain ⟨w, h5, h6⟩ := h4 _ h2
      exact absurd (h3 w h5) h6
  | none h0 h1 h2 =>
    refine ⟨ord, ?_⟩
    generalize voidOf ord st = a at hv
    cases hv with
    | known h4 => exact absurd h4 h0
    | core _ h4 h5 => exact absurd h5 (h1 _ h4)
    | only _ _ h4 h5 =>
      obtain ⟨w, h6, h7⟩ := h2 _ h4
      exact absurd (h5 w h6) h7
    | none => rfl

/-- The state from which the graph is completed does not depend on the order. -/
theorem callGraph_state {ord' : HashOrder} {st' : Build} {g' : Graph}
    (h : callGraph demangle ord search p elf = .ok (st, g))
    (h' : callGraph demangle ord' search p elf = .ok (st', g')) : st' = st := by
  unfold callGraph at h h'
  split at h
  · simp at h
  · split at h
    · simp at h
    · split at h'
      · simp_all
      · split at h'
        · simp_all
        · simp_all

end

/-- **C76** Whatever the tool may choose as the type that stands for any type, it does so for some order of the hash
map of signatures, and then prints the figures that belong to this choice. (`C85_figures` says that it prints no
others.) -/
theorem C76_every_choice {demangle : Str → Str} {search : TagSearch} {p : Program} {elf : Elf} (once : p.NamesOnce)
    (defs : p.DefinesOnce) (decls : p.DeclaresOnce) (addressed : p.Addressed) (safe : p.OrderSafe)
    (sizes : p.SizesU64) (fits : elf.Fits32)
    (ends : ∀ ord, ∃ g cycles, finalGraph demangle ord search p elf none = .ok (g, cycles)) {c : Option Str}
    (hc : p.Chosen c) :
    ∃ ord g cycles, finalGraph demangle ord search p elf none = .ok (g, cycles) ∧
      ∀ i < p.defined.length, p.LocalIs search elf i (g.locOf i) ∧
        ((∃ m, g.maxOf? i = some m) ↔ ∃ j k, p.Frame j k) ∧
        ∀ m, g.maxOf? i = some m → p.MaxIs search elf c g.locOf i m := by
  obtain ⟨g0, cyc0, h0⟩ := ends sameOrder
  obtain ⟨st, ga, a1, _⟩ := finalGraph_facts h0
  obtain ⟨_, _, _, _, r⟩ := callGraph_facts once a1
  obtain ⟨ord, rfl⟩ := r.realised defs decls hc
  obtain ⟨g, cycles, h1⟩ := ends ord
  obtain ⟨st', gb, b1, b2⟩ := finalGraph_facts h1
  obtain rfl := callGraph_state a1 b1
  obtain ⟨_, _, _, _, r'⟩ := callGraph_facts once b1
  exact ⟨ord, g, cycles, h1, (r'.figures once defs decls addressed safe sizes fits h1 b1 b2).2⟩

/-- **C76** The exact condition: the order of the hash map of signatures does not matter for the maxima exactly if all
types that may be chosen lead to the same maxima. (`loc` are the local usages, that do not depend on it. If the
compiler reports no frame, no maxima are printed.) -/
theorem C76_figures_iff {demangle : Str → Str} {search : TagSearch} {p : Program} {elf : Elf} (once : p.NamesOnce)
    (defs : p.DefinesOnce) (decls : p.DeclaresOnce) (addressed : p.Addressed) (safe : p.OrderSafe)
    (sizes : p.SizesU64) (fits : elf.Fits32) (frames : ∃ i k, p.Frame i k)
    (ends : ∀ ord, ∃ g cycles, finalGraph demangle ord search p elf none = .ok (g, cycles)) {loc : Nat → Local}
    (hloc : ∀ i < p.defined.length, p.LocalIs search elf i (loc i)) :
    (∀ ord ord' g g' cycles cycles', finalGraph demangle ord search p elf none = .ok (g, cycles) →
      finalGraph demangle ord' search p elf none = .ok (g', cycles') →
      ∀ i < p.defined.length, g'.maxOf? i = g.maxOf? i) ↔
    ∀ c c', p.Chosen c → p.Chosen c' → ∀ i < p.defined.length, ∀ m,
      p.MaxIs search elf c loc i m → p.MaxIs search elf c' loc i m := by
  have hl : ∀ {ord g cycles}, finalGraph demangle ord search p elf none = .ok (g, cycles) →
      ∀ i < p.defined.length, p.LocalIs search elf i (g.locOf i) → loc i = g.locOf i := by
    intro ord g cycles h i hi h1
    obtain ⟨st, g0, c1, _⟩ := finalGraph_facts h
    obtain ⟨cs, ext, st0, stIr, r⟩ := callGraph_facts once c1
    have hlt : i < cs.length := by rw [r.live_length]; exact hi
    rw [(r.localIs_iff once hlt _).mp h1, (r.localIs_iff once hlt _).mp (hloc i hi)]
  have hmax : ∀ {ord g cycles c}, finalGraph demangle ord search p elf none = .ok (g, cycles) →
      (∀ i < p.defined.length, p.LocalIs search elf i (g.locOf i) ∧
        ((∃ m, g.maxOf? i = some m) ↔ ∃ j k, p.Frame j k) ∧
        ∀ m, g.maxOf? i = some m → p.MaxIs search elf c g.locOf i m) →
      ∀ i < p.defined.length, ∃ m, g.maxOf? i = some m ∧ p.MaxIs search elf c loc i m := by
    intro ord g cycles c h h1 i hi
    obtain ⟨_, h2, h3⟩ := h1 i hi
    obtain ⟨m, hm⟩ := h2.mpr frames
    refine ⟨m, hm, (h3 m hm).congr fun u hu => ?_⟩
    have hlt := Program.MayCall.reach_lt hi hu
    exact hl h u hlt (h1 u hlt).1
  constructor
  · intro hsame c c' hc hc' i hi m hm
    obtain ⟨ord, g, cycles, h1, h2⟩ := C76_every_choice once defs decls addressed safe sizes fits ends hc
    obtain ⟨ord', g', cycles', h1', h2'⟩ := C76_every_choice once defs decls addressed safe sizes fits ends hc'
    obtain ⟨m1, k1, k2⟩ := hmax h1 h2 i hi
    obtain ⟨m2, l1, l2⟩ := hmax h1' h2' i hi
    have := hsame ord ord' g g' cycles cycles' h1 h1' i hi
    rw [k1, l1] at this
    obtain rfl := Option.some.inj this
    rwa [hm.unique k2]
  · intro hall ord ord' g g' cycles cycles' h h' i hi
    obtain ⟨c, hc, h2⟩ := C85_figures once defs decls addressed safe sizes fits h
    obtain ⟨c', hc', h2'⟩ := C85_figures once defs decls addressed safe sizes fits h'
    obtain ⟨m1, k1, k2⟩ := hmax h h2 i hi
    obtain ⟨m2, l1, l2⟩ := hmax h' h2' i hi
    rw [k1, l1, (hall c c' hc hc' i hi m1 k2).unique l2]

/-- The program of `C76_void_order_matters` meets all conditions, and two types may be chosen. The condition of
`C76_figures_iff` is then violated: the two choices lead to different maxima. -/
example (search : TagSearch) :
    exTwoVoids.Chosen (some c!"core::fmt::Void") ∧ exTwoVoids.Chosen (some c!"core::fmt::Void.5") ∧
    ¬ ∀ c c', exTwoVoids.Chosen c → exTwoVoids.Chosen c' → ∀ i < 4, ∀ m,
      exTwoVoids.MaxIs search ⟨[], none⟩ c (fun i => .exact ([8, 16, 16, 400].getD i 0)) i m →
      exTwoVoids.MaxIs search ⟨[], none⟩ c' (fun i => .exact ([8, 16, 16, 400].getD i 0)) i m := by
  have once : exTwoVoids.NamesOnce := namesOnce_of (by decide)
  have hsigs : ∀ j sig, exTwoVoids.TakenAs j sig →
      sig = exSig ∨ ∃ v, sig = exFmtSig (.alias v) ∧
        (v = c!"core::fmt::Void" ∨ v = c!"core::fmt::Void.5" ∨ v = c!"Foo") := by
    rintro j sig (⟨_, _, pre, post, d, _, _, _, hd, rfl, _⟩ | ⟨_, _, _, pre, post, d, _, _, _, hd, _⟩)
    · simp only [exTwoVoids, List.mem_cons, List.not_mem_nil, or_false] at hd
      rcases hd with rfl | rfl | rfl | rfl
      · exact .inl rfl
      · exact .inr ⟨_, rfl, .inl rfl⟩
      · exact .inr ⟨_, rfl, .inr (.inl rfl)⟩
      · exact .inr ⟨_, rfl, .inr (.inr rfl)⟩
    · simp [exTwoVoids] at hd
  have hno : ¬ exTwoVoids.Receiver c!"fmt::Void" := by
    rintro ⟨j, sig, h1, h2, _⟩
    rcases hsigs j sig h1 with rfl | ⟨v, rfl, rfl | rfl | rfl⟩ <;> simp [exSig, exFmtSig] at h2
  have h1 : exTwoVoids.Chosen (some c!"core::fmt::Void") :=
    .core hno ⟨1, exFmtSig (.alias c!"core::fmt::Void"), .inl ⟨_, _, [], [],
      ⟨c!"a", exFmtSig (.alias c!"core::fmt::Void"), []⟩, rfl, rfl, by rw [← isTag_iff]; decide,
      by simp [exTwoVoids], rfl, by simp⟩, rfl, rfl⟩ (by decide)
  have h2 : exTwoVoids.Chosen (some c!"core::fmt::Void.5") :=
    .core hno ⟨2, exFmtSig (.alias c!"core::fmt::Void.5"), .inl ⟨_, _, [], [],
      ⟨c!"b", exFmtSig (.alias c!"core::fmt::Void.5"), []⟩, rfl, rfl, by rw [← isTag_iff]; decide,
      by simp [exTwoVoids], rfl, by simp⟩, rfl, rfl⟩ (by decide)
  have hstmt : ∀ i s, exTwoVoids.Contains i s →
      s = .indirectCall (exFmtSig (.alias c!"core::fmt::Void")) := by
    rintro i s ⟨d, hd, _, hs⟩
    simp only [exTwoVoids, List.mem_cons, List.not_mem_nil, or_false] at hd
    rcases hd with rfl | rfl | rfl | rfl <;> simp at hs
    exact hs
  have sizes : exTwoVoids.SizesU64 := by
    intro n k hn
    simp only [Program.Reported, exTwoVoids, mget] at hn
    split_ifs at hn <;> simp only [Option.some.injEq] at hn <;> omega
  have fits : (⟨[], none⟩ : Elf).Fits32 := by
    intro a b hh
    simp at hh
  have safe : exTwoVoids.OrderSafe := by
    refine orderSafe_of ⟨fun r _ => .inr ⟨fun i hc => ?_, fun _ i hc => ?_⟩, .inr fun i hc => ?_⟩ <;>
      exact absurd (hstmt _ _ hc) (by simp)
  have ends : ∀ ord, ∃ g cycles, finalGraph id ord search exTwoVoids ⟨[], none⟩ none = .ok (g, cycles) := by
    intro ord
    have hcg : ∃ out, callGraph id sameOrder linearSearch exTwoVoids ⟨[], none⟩ = .ok out := by
      have hok : (callGraph id sameOrder linearSearch exTwoVoids ⟨[], none⟩).isOk = true := by decide +kernel
      cases h : callGraph id sameOrder linearSearch exTwoVoids ⟨[], none⟩ with
      | ok out => exact ⟨out, rfl⟩
      | error e => rw [h] at hok; simp [Except.isOk, Except.toBool] at hok
    obtain ⟨k1, k2, k3, _⟩ := (C75_graph_iff once).mp hcg
    obtain ⟨text, ht⟩ := C75_run_ends_with_output (demangle := id) (ord := ord) (search := search) (elf := ⟨[], none⟩)
      (b := fun _ => 400) once sizes fits k1 k2 k3 (fun h => by simp [exTwoVoids, Target.isThumb] at h)
      (by
        refine ⟨?_, ?_, ?_, noHash_of (by decide +kernel), noHash_of (by decide +kernel)⟩
        · intro i f _ _ h
          simp [exTwoVoids] at h
        · intro i f h
          have := hstmt _ _ h
          simp at this
        · rintro j sig (⟨d, hd, _, rfl⟩ | ⟨d, hd, _⟩)
          · simp only [exTwoVoids, List.mem_cons, List.not_mem_nil, or_false] at hd
            rcases hd with rfl | rfl | rfl | rfl <;> exact noHash_of (by decide +kernel)
          · simp [exTwoVoids] at hd)
      (by
        rintro i k hi (⟨_, _, _, n, _, _, _, _, hn, _⟩ | ⟨h, _⟩)
        · simp only [Program.Reported, exTwoVoids, mget] at hn
          split_ifs at hn <;> simp only [Option.some.injEq] at hn <;> omega
        · simp [exTwoVoids, Target.isThumb] at h) (by decide) none .dot
    unfold runText at ht
    cases h : finalGraph id ord search exTwoVoids ⟨[], none⟩ none with
    | ok out => exact ⟨out.1, out.2, rfl⟩
    | error e => rw [h] at ht; simp at ht
  obtain ⟨_, _, _, ⟨g, cyc, ha, hm⟩, g', cyc', hb, hm'⟩ := C76_void_order_matters search
  obtain ⟨ga, cyca, ha', hloc⟩ := finalGraph_eval_order (p := exTwoVoids) rfl sameOrder search ⟨[], none⟩ none
    (fun g _ => (List.range 4).map g.locOf = [.exact 8, .exact 16, .exact 16, .exact 400]) (by decide +kernel)
  have hl : ∀ i < 4, ga.locOf i = .exact ([8, 16, 16, 400].getD i 0) := by
    intro i hi
    simp only [List.range_succ_eq_map, List.range_zero, List.map_cons, List.map_nil, List.cons.injEq] at hloc
    obtain ⟨k0, k1, k2, k3, _⟩ := hloc
    match i, hi with
    | 0, _ => exact k0
    | 1, _ => exact k1
    | 2, _ => exact k2
    | 3, _ => exact k3
  refine ⟨h1, h2, fun hall => ?_⟩
  have hd : exTwoVoids.DefinesOnce := by unfold Program.DefinesOnce; decide
  have he : exTwoVoids.DeclaresOnce := by unfold Program.DeclaresOnce; decide
  have hf : exTwoVoids.Addressed := by unfold Program.Addressed; decide
  obtain ⟨_, _, hfig⟩ := C85_figures once hd he hf safe sizes fits ha'
  obtain ⟨_, _, hframe⟩ := C85_figures once hd he hf safe sizes fits ha
  have := (C76_figures_iff once hd he hf safe sizes fits ((hframe 0 (by decide)).2.1.mp ⟨_, hm⟩)
    ends (loc := fun i => .exact ([8, 16, 16, 400].getD i 0))
    fun i hi => hl i hi ▸ (hfig i hi).1).mpr hall _ _ _ _ _ _ ha hb 0 (by decide)
  rw [hm, hm'] at this
  simp at this

end CallStack
