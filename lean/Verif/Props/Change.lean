import Verif.Proof.Change
import Verif.Proof.LogShown
import Verif.Props.Figures
import Verif.Props.LogEnd

/-!
How the figures change when the program changes: only what can be reached matters, and a change of the frame of one
function changes no maximum by more than that.
-/

namespace CallStack

/-- What `C85` says of a run. -/
def FigureOf (search : TagSearch) (p : Program) (elf : Elf) (g : Graph) (chosen : Option Str) (i : Nat) : Prop :=
    p.LocalIs search elf i (g.locOf i) ∧
    ((∃ m, g.maxOf? i = some m) ↔ ∃ j k, p.Frame j k) ∧
    ∀ m, g.maxOf? i = some m →
      Heaviest (p.MayCall search elf chosen) g.locOf i m.bytes ∧
      (m.IsExact ↔ ∀ u, Reach (p.MayCall search elf chosen) i u →
        (g.locOf u).Known ∧ ¬ p.MayLeave search elf u ∧
        (Recursive (p.MayCall search elf chosen) u → (g.locOf u).bytes = 0))

theorem Program.SameShape.namesOnce {p p' : Program} (h : p.SameShape p') (once : p.NamesOnce) : p'.NamesOnce := by
  intro n i j hi hj
  exact once n i j (h.live.mp hi) (h.live.mp hj)

theorem Program.SameShape.definesOnce {p p' : Program} (h : p.SameShape p') (defs : p.DefinesOnce) :
    p'.DefinesOnce := by
  unfold Program.DefinesOnce at *
  have : p'.defines.map (·.name) = p.defines.map (·.name) := by
    have := h.defines
    clear defs
    generalize p.defines = l at this
    generalize p'.defines = l' at this
    induction this with
    | nil => rfl
    | cons h1 _ ih => simp [h1.1, ih]
  rw [this]
  exact defs


/-- The figures of both versions, relative to the same chosen type, and that a local usage is determined by body
and frame. -/
theorem figures_pair {demangle demangle' : Str → Str} {ord ord' : HashOrder} {search : TagSearch}
    {p p' : Program} {elf : Elf} {g g' : Graph} {cycles cycles' : List (List Nat)} (shape : p.SameShape p')
    (once : p.NamesOnce) (defs : p.DefinesOnce) (decls : p.DeclaresOnce) (addressed : p.Addressed)
    (one : p.OneVoid) (safe : p.OrderSafe) (safe' : p'.OrderSafe) (sizes : p.SizesU64)
    (sizes' : p'.SizesU64) (fits : elf.Fits32)
    (h : finalGraph demangle ord search p elf none = .ok (g, cycles))
    (h' : finalGraph demangle' ord' search p' elf none = .ok (g', cycles')) :
    ∃ chosen, p.Chosen chosen ∧ (∀ i < p.defined.length, FigureOf search p elf g chosen i) ∧ 
      (∀ i < p'.defined.length, FigureOf search p' elf g' chosen i) ∧
      ∀ i < p.defined.length, p.SameBody p' i → p.SameFrame p' i → g'.locOf i = g.locOf i := by
  obtain ⟨c, h1, h2⟩ := C85_figures once defs decls addressed safe sizes fits h
  obtain ⟨c', h3, h4⟩ := C85_figures (shape.namesOnce once) (shape.definesOnce defs)
    (by unfold Program.DeclaresOnce; rw [shape.declares]; exact decls)
    (by unfold Program.Addressed; rw [shape.defined]; exact addressed) safe' sizes' fits h'
  obtain rfl := chosen_unique one h1 (shape.chosen h3)
  refine ⟨c, h1, h2, h4, fun i hi hb hf => ?_⟩
  obtain ⟨st, g0, c1, _⟩ := finalGraph_facts h
  obtain ⟨cs, ext, st0, stIr, r⟩ := callGraph_facts once c1
  have hlt : i < cs.length := by rw [r.live_length]; exact hi
  have a := (h2 i hi).1
  have b := shape.localIs hb hf (h4 i (by rw [shape.defined]; exact hi)).1
  rw [(r.localIs_iff once hlt _).mp a, (r.localIs_iff once hlt _).mp b]

/-- The maxima agree if everything that can be reached does. -/
theorem pair_max {search : TagSearch} {p p' : Program} {elf : Elf} {g g' : Graph} {c : Option Str}
    (shape : p.SameShape p') {i : Nat} (hf : FigureOf search p elf g c i)
    (hf' : FigureOf search p' elf g' c i)
    (hE : ∀ u, Reach (p.MayCall search elf c) i u →
      ∀ w, p'.MayCall search elf c u w ↔ p.MayCall search elf c u w)
    (hl : ∀ u, Reach (p.MayCall search elf c) i u → g'.locOf u = g.locOf u)
    (hL : ∀ u, Reach (p.MayCall search elf c) i u → (p'.MayLeave search elf u ↔ p.MayLeave search elf u)) :
    g'.maxOf? i = g.maxOf? i := by
  obtain ⟨a1, a2, a3⟩ := hf
  obtain ⟨b1, b2, b3⟩ := hf'
  have hshown : (∃ m, g'.maxOf? i = some m) ↔ ∃ m, g.maxOf? i = some m := by
    rw [a2, b2]
    simp only [shape.framed]
  cases hm : g.maxOf? i with
  | none =>
    cases hm' : g'.maxOf? i with
    | none => rfl
    | some m' =>
      obtain ⟨m, h1⟩ := hshown.mp ⟨m', hm'⟩
      rw [hm] at h1
      cases h1
  | some m =>
    obtain ⟨m', hm'⟩ := hshown.mpr ⟨m, hm⟩
    rw [hm']
    obtain ⟨⟨⟨us, u1, u2⟩, u3⟩, u4⟩ := a3 m hm
    obtain ⟨⟨⟨us', v1, v2⟩, v3⟩, v4⟩ := b3 m' hm'
    have hw : ∀ {us}, GroupChain (p.MayCall search elf c) i us → weight g'.locOf us = weight g.locOf us :=
      fun hus => weight_congr fun u hu => hl u (hus.1 u hu)
    have v1' := (groupChain_congr hE).mp v1
    have k1 := u3 us' v1'
    have k2 := v3 us ((groupChain_congr hE).mpr u1)
    rw [hw v1'] at v2
    rw [hw u1] at k2
    have hb : m'.bytes = m.bytes := by omega
    have hx : m'.IsExact ↔ m.IsExact := by
      rw [u4, v4]
      refine forall_congr' fun u => ?_
      rw [reach_congr hE (.refl i)]
      refine imp_congr_right fun hu => ?_
      rw [hL u hu, hl u hu]
      have : Recursive (p'.MayCall search elf c) u ↔ Recursive (p.MayCall search elf c) u := by
        unfold Recursive
        refine exists_congr fun w => ?_
        rw [hE u hu]
        refine and_congr_right fun h1 => ?_
        exact reach_congr hE (hu.trans (.step h1 (.refl w))) u
      rw [this]
    cases m <;> cases m' <;> simp_all [Max.bytes, Max.IsExact]

/-- A chain from a function that is not recursive can be made to contain it. -/
theorem heaviest_with_root {E : Nat → Nat → Prop} {i : Nat} (hr : ¬ Recursive E i) {us : List Nat}
    (h : GroupChain E i us) :
    ∃ vs, GroupChain E i vs ∧ i ∈ vs ∧ ∀ loc : Nat → Local, weight loc us ≤ weight loc vs := by
  by_cases hm : i ∈ us
  · exact ⟨us, h, hm, fun _ => Nat.le_refl _⟩
  · refine ⟨i :: us, ⟨?_, List.pairwise_cons.mpr ⟨fun u hu => ⟨h.1 u hu, fun hb => ?_⟩, h.2⟩⟩,
      List.mem_cons_self, fun loc => ?_⟩
    · intro u hu
      rcases List.mem_cons.mp hu with rfl | hu
      · exact .refl _
      · exact h.1 u hu
    · have h1 := h.1 u hu
      cases h1 with
      | refl => exact hm hu
      | step h2 h3 => exact hr ⟨_, h2, h3.trans hb⟩
    · simp [weight]

theorem weight_root {loc loc' : Nat → Local} {j : Nat} {us : List Nat} (hn : us.Nodup) (hj : j ∈ us)
    (h : ∀ u ∈ us, u ≠ j → loc' u = loc u) :
    weight loc' us + (loc j).bytes = weight loc us + (loc' j).bytes := by
  induction us with
  | nil => simp at hj
  | cons u us ih =>
    rw [List.nodup_cons] at hn
    simp only [weight, List.map_cons, List.sum_cons] at ih ⊢
    by_cases hu : u = j
    · subst hu
      have := weight_congr (us := us) (loc := loc) (loc' := loc') fun w hw =>
        h w (List.mem_cons_of_mem _ hw) (fun e => hn.1 (e ▸ hw))
      simp only [weight] at this
      omega
    · have h1 := ih hn.2 ((List.mem_cons.mp hj).resolve_left (fun e => hu e.symm))
        (fun w hw => h w (List.mem_cons_of_mem _ hw))
      rw [h u List.mem_cons_self hu]
      omega

/-- **C105** The figures of a function depend only on the bodies and frame sizes of the functions that can be
reached from it: if these are the same in another version of the program, however different the rest is, then local
usage and maximum are the same. -/
theorem C105_local {demangle demangle' : Str → Str} {ord ord' : HashOrder} {search : TagSearch}
    {p p' : Program} {elf : Elf} {g g' : Graph} {cycles cycles' : List (List Nat)} (shape : p.SameShape p')
    (once : p.NamesOnce) (defs : p.DefinesOnce) (decls : p.DeclaresOnce) (addressed : p.Addressed)
    (one : p.OneVoid) (safe : p.OrderSafe) (safe' : p'.OrderSafe) (sizes : p.SizesU64)
    (sizes' : p'.SizesU64) (fits : elf.Fits32)
    (h : finalGraph demangle ord search p elf none = .ok (g, cycles))
    (h' : finalGraph demangle' ord' search p' elf none = .ok (g', cycles')) {i : Nat} (hi : i < p.defined.length)
    (same : ∀ chosen, p.Chosen chosen → ∀ u, Reach (p.MayCall search elf chosen) i u →
      p.SameBody p' u ∧ p.SameFrame p' u) :
    g'.locOf i = g.locOf i ∧ g'.maxOf? i = g.maxOf? i := by
  obtain ⟨c, hc, hf, hf', hloc⟩ := figures_pair shape once defs decls addressed one safe safe' sizes sizes' fits h h'
  have same := same c hc
  have hE : ∀ u, Reach (p.MayCall search elf c) i u → ∀ w, p'.MayCall search elf c u w ↔ p.MayCall search elf c u w :=
    fun u hu w => shape.mayCall (same u hu).1
  have hlt : ∀ u, Reach (p.MayCall search elf c) i u → u < p.defined.length :=
    fun u hu => Program.MayCall.reach_lt hi hu
  have hl : ∀ u, Reach (p.MayCall search elf c) i u → g'.locOf u = g.locOf u :=
    fun u hu => hloc u (hlt u hu) (same u hu).1 (same u hu).2
  refine ⟨hl i (.refl i), ?_⟩
  exact pair_max shape (hf i hi) (hf' i (by rw [shape.defined]; exact hi)) hE hl
    (fun u hu => shape.mayLeave (same u hu).1)

/-- **C105** Two versions of the program that differ in the frame of one function `j`, that uses more in the second
version: no maximum is smaller in the second version and none is larger by more than the difference. The maximum of
`j` itself is larger by exactly the difference unless `j` is recursive. A maximum that is exact stays exact if `j` is
not recursive and its usage is known in the second version as well, and conversely. -/
theorem C105_one_frame {demangle demangle' : Str → Str} {ord ord' : HashOrder} {search : TagSearch}
    {p p' : Program} {elf : Elf} {g g' : Graph} {cycles cycles' : List (List Nat)} (shape : p.SameShape p')
    (once : p.NamesOnce) (defs : p.DefinesOnce) (decls : p.DeclaresOnce) (addressed : p.Addressed)
    (one : p.OneVoid) (safe : p.OrderSafe) (safe' : p'.OrderSafe) (sizes : p.SizesU64)
    (sizes' : p'.SizesU64) (fits : elf.Fits32)
    (h : finalGraph demangle ord search p elf none = .ok (g, cycles))
    (h' : finalGraph demangle' ord' search p' elf none = .ok (g', cycles')) {j : Nat}
    (bodies : ∀ u, p.SameBody p' u) (frames : ∀ u, u ≠ j → p.SameFrame p' u)
    (more : (g.locOf j).bytes ≤ (g'.locOf j).bytes) :
    ∃ chosen, p.Chosen chosen ∧ ∀ i < p.defined.length, ∀ m, g.maxOf? i = some m →
      ∃ m', g'.maxOf? i = some m' ∧ m.bytes ≤ m'.bytes ∧
        m'.bytes ≤ m.bytes + ((g'.locOf j).bytes - (g.locOf j).bytes) ∧
        (¬ Recursive (p.MayCall search elf chosen) j → i = j →
          m'.bytes = m.bytes + ((g'.locOf j).bytes - (g.locOf j).bytes)) ∧
        (¬ Recursive (p.MayCall search elf chosen) j → ((g'.locOf j).Known ↔ (g.locOf j).Known) →
          (m'.IsExact ↔ m.IsExact)) := by
  obtain ⟨c, hc, hf, hf', hloc⟩ := figures_pair shape once defs decls addressed one safe safe' sizes sizes' fits h h'
  refine ⟨c, hc, fun i hi m hm => ?_⟩
  have hE : p'.MayCall search elf c = p.MayCall search elf c := by
    funext u w
    exact propext (shape.mayCall (bodies u))
  have hL : ∀ u, p'.MayLeave search elf u ↔ p.MayLeave search elf u := fun u => shape.mayLeave (bodies u)
  obtain ⟨a1, a2, a3⟩ := hf i hi
  obtain ⟨b1, b2, b3⟩ := hf' i (by rw [shape.defined]; exact hi)
  obtain ⟨m', hm'⟩ := b2.mpr (by
    obtain ⟨x, hx⟩ := a2.mp ⟨m, hm⟩
    exact ⟨x, shape.framed.mpr hx⟩)
  obtain ⟨⟨⟨us, u1, u2⟩, u3⟩, u4⟩ := a3 m hm
  obtain ⟨⟨⟨us', v1, v2⟩, v3⟩, v4⟩ := b3 m' hm'
  rw [hE] at v1 v3 v4
  have hall : ∀ u, u < p.defined.length → u ≠ j → g'.locOf u = g.locOf u :=
    fun u hu hj => hloc u hu (bodies u) (frames u hj)
  have hchain : ∀ {us}, GroupChain (p.MayCall search elf c) i us → ∀ u ∈ us, u ≠ j → g'.locOf u = g.locOf u :=
    fun hus u hu hj => hall u (Program.MayCall.reach_lt hi (hus.1 u hu)) hj
  have hle : ∀ {us}, GroupChain (p.MayCall search elf c) i us → ∀ u ∈ us, (g.locOf u).bytes ≤ (g'.locOf u).bytes := by
    intro us hus u hu
    by_cases e : u = j
    · rw [e]; exact more
    · exact Nat.le_of_eq (by rw [hchain hus u hu e])
  have hup : m'.bytes ≤ m.bytes + ((g'.locOf j).bytes - (g.locOf j).bytes) := by
    rw [← v2]
    have k1 := weight_one (loc := g.locOf) (loc' := g'.locOf) (groupChain_nodup v1) (hchain v1)
      (d := (g'.locOf j).bytes - (g.locOf j).bytes) (by omega)
    have k2 := u3 us' v1
    omega
  refine ⟨m', hm', ?_, hup, ?_, ?_⟩
  · have k1 := weight_le (hle u1)
    have k2 := v3 us u1
    omega
  · rintro hr rfl
    refine Nat.le_antisymm hup ?_
    obtain ⟨vs, w1, w2, w3⟩ := heaviest_with_root hr u1
    have k1 := u3 vs w1
    have k2 := v3 vs w1
    have k3 := weight_root (loc := g.locOf) (loc' := g'.locOf) (groupChain_nodup w1) w2 (hchain w1)
    have k4 := w3 g.locOf
    omega
  · intro hr hk
    rw [v4, u4]
    refine forall_congr' fun u => imp_congr_right fun hu => ?_
    rw [hL]
    by_cases e : u = j
    · subst e
      simp [hk, hr]
    · rw [hall u (Program.MayCall.reach_lt hi hu) e]

/-- On targets without machine code analysis the local usage is what the compiler reports. -/
theorem locOf_reported {demangle : Str → Str} {ord : HashOrder} {search : TagSearch} {p : Program}
    {elf : Elf} {g : Graph} {cycles : List (List Nat)} (other : p.target.isThumb = false)
    (once : p.NamesOnce) (defs : p.DefinesOnce) (decls : p.DeclaresOnce) (addressed : p.Addressed)
    (safe : p.OrderSafe) (sizes : p.SizesU64) (fits : elf.Fits32)
    (h : finalGraph demangle ord search p elf none = .ok (g, cycles)) {j k : Nat} (hk : p.Frame j k) :
    g.locOf j = .exact k := by
  obtain ⟨c, h1, h2⟩ := C85_figures once defs decls addressed safe sizes fits h
  obtain ⟨st, g0, c1, _⟩ := finalGraph_facts h
  obtain ⟨cs, ext, st0, stIr, r⟩ := callGraph_facts once c1
  have hj : j < p.defined.length := by
    obtain ⟨a, s, pre, n, post, h3, _⟩ := hk
    exact (List.getElem?_eq_some_iff.mp h3).1
  have hlt : j < cs.length := by rw [r.live_length]; exact hj
  rw [(r.localIs_iff once hlt _).mp (h2 j hj).1, (r.localIs_iff once hlt _).mp (.frame (.inl other) hk)]

/-- **C105** On a target without machine code analysis, if the compiler reports `k` bytes for `j` in one version and
`k'` in the other, where `k ≤ k'`, and the same for all other functions, then no maximum is smaller in the second
version and none is larger by more than `k' - k`; the maximum of `j` itself is larger by exactly `k' - k` unless `j`
is recursive; and if `j` is not recursive then the same maxima are exact. -/
theorem C105_reported {demangle demangle' : Str → Str} {ord ord' : HashOrder} {search : TagSearch}
    {p : Program} {s' : List (Str × Nat)} {elf : Elf} {g g' : Graph} {cycles cycles' : List (List Nat)}
    (other : p.target.isThumb = false)
    (once : p.NamesOnce) (defs : p.DefinesOnce) (decls : p.DeclaresOnce) (addressed : p.Addressed)
    (one : p.OneVoid) (safe : p.OrderSafe) (sizes : p.SizesU64) (sizes' : { p with stackSizes := s' }.SizesU64)
    (fits : elf.Fits32) (h : finalGraph demangle ord search p elf none = .ok (g, cycles))
    (h' : finalGraph demangle' ord' search { p with stackSizes := s' } elf none = .ok (g', cycles'))
    (names : ∀ n, (∃ k, { p with stackSizes := s' }.Reported n k) ↔ ∃ k, p.Reported n k) {j k k' : Nat}
    (hk : p.Frame j k) (hk' : { p with stackSizes := s' }.Frame j k') (more : k ≤ k')
    (rest : ∀ u, u ≠ j → ∀ x, { p with stackSizes := s' }.Frame u x ↔ p.Frame u x) :
    ∃ chosen, p.Chosen chosen ∧ ∀ i < p.defined.length, ∀ m, g.maxOf? i = some m →
      ∃ m', g'.maxOf? i = some m' ∧ m.bytes ≤ m'.bytes ∧ m'.bytes ≤ m.bytes + (k' - k) ∧
        (¬ Recursive (p.MayCall search elf chosen) j → i = j → m'.bytes = m.bytes + (k' - k)) ∧
        (¬ Recursive (p.MayCall search elf chosen) j → (m'.IsExact ↔ m.IsExact)) := by
  have shape : p.SameShape { p with stackSizes := s' } :=
    ⟨rfl, rfl, rfl, rfl, by
      generalize p.defines = l
      induction l with
      | nil => exact .nil
      | cons a l ih => exact .cons ⟨rfl, rfl⟩ ih, names⟩
  have bodies : ∀ u, p.SameBody { p with stackSizes := s' } u := fun u s => Iff.rfl
  have safe' : { p with stackSizes := s' }.OrderSafe := shape.orderSafe bodies safe
  have e := locOf_reported other once defs decls addressed safe sizes fits h hk
  have e' := locOf_reported (p := { p with stackSizes := s' }) other (shape.namesOnce once) (shape.definesOnce defs)
    decls addressed safe' sizes' fits h' hk'
  obtain ⟨c, hc, hall⟩ := C105_one_frame shape once defs decls addressed one safe safe' sizes sizes' fits h h' bodies
    rest (by rw [e, e']; exact more)
  refine ⟨c, hc, fun i hi m hm => ?_⟩
  obtain ⟨m', h1, h2, h3, h4, h5⟩ := hall i hi m hm
  rw [e, e'] at h3 h4 h5
  exact ⟨m', h1, h2, h3, h4, fun hr => h5 hr (by simp [Local.Known])⟩

/-- `main` calls `f`; `h` calls `f` and `main`, and does what else it does. `f` uses `k` bytes. -/
def exChange (k : Nat) (b : List Stmt) : Program :=
  { target := .other
    defined := [(8, ⟨[c!"main"], 4⟩), (16, ⟨[c!"f"], 8⟩), (24, ⟨[c!"h"], 8⟩)]
    undefined := []
    stackSizes := [(c!"main", 8), (c!"f", k), (c!"h", 24)]
    defines := [⟨c!"main", exSig, [.directCall c!"f"]⟩, ⟨c!"f", exSig, []⟩, ⟨c!"h", exSig, b⟩]
    declares := [] }

theorem exChange_facts {k : Nat} {b : List Stmt} (hk : k < 2 ^ 64)
    (hb : ∀ s ∈ b, s = .directCall c!"f" ∨ s = .directCall c!"main" ∨ s = .directCall c!"h") :
    (exChange k b).NamesOnce ∧ (exChange k b).DefinesOnce ∧ (exChange k b).DeclaresOnce ∧
    (exChange k b).Addressed ∧ (exChange k b).OneVoid ∧ (exChange k b).OrderSafe ∧ (exChange k b).SizesU64 := by
  have hstmt : ∀ {i x}, (exChange k b).Contains i x →
      x = .directCall c!"f" ∨ x = .directCall c!"main" ∨ x = .directCall c!"h" := by
    rintro i x ⟨d, h1, _, h2⟩
    simp only [exChange, List.mem_cons, List.not_mem_nil, or_false] at h1
    rcases h1 with rfl | rfl | rfl
    · simp only [List.mem_cons, List.not_mem_nil, or_false] at h2
      exact .inl h2
    · simp at h2
    · exact hb x h2
  have hsig : ∀ j sig, (exChange k b).DefinedSig j sig ∨ (exChange k b).DeclaredSig j sig → sig = exSig := by
    rintro j sig (⟨d, hd, _, rfl⟩ | ⟨d, hd, _⟩)
    · simp only [exChange, List.mem_cons, List.not_mem_nil, or_false] at hd
      rcases hd with rfl | rfl | rfl <;> rfl
    · simp [exChange] at hd
  refine ⟨namesOnce_of (p := exChange k b) (by simp only [exChange]; decide), ?_, ?_, ?_, ?_, ?_, ?_⟩
  · simp only [Program.DefinesOnce, exChange, List.map_cons, List.map_nil]; decide
  · simp [Program.DeclaresOnce, exChange]
  · simp [Program.Addressed, exChange]
  · intro j j' sig sig' v v' h1 _ h2
    rw [hsig j sig h1] at h2
    obtain ⟨⟨_, h2⟩, _⟩ := h2
  · refine orderSafe_of ⟨fun r hr => .inr ⟨fun i h => ?_, fun _ i h => ?_⟩, .inr fun i h => ?_⟩
    · have := hstmt h; simp at this
    · have h3 := hstmt h
      simp only [Stmt.directCall.injEq] at h3
      rcases h3 with rfl | rfl | rfl <;> revert hr <;> decide
    · have := hstmt h; simp at this
  · intro n k' hk'
    have := mget_mem hk'
    simp only [exChange, List.mem_cons, List.not_mem_nil, or_false, Prod.mk.injEq] at this
    omega

theorem exChange_shape (k k' : Nat) (b b' : List Stmt) : (exChange k b).SameShape (exChange k' b') where
  target := rfl
  defined := rfl
  undefined := rfl
  declares := rfl
  defines := .cons ⟨rfl, rfl⟩ (.cons ⟨rfl, rfl⟩ (.cons ⟨rfl, rfl⟩ .nil))
  reported n := by
    have key : ∀ k b, (∃ x, (exChange k b).Reported n x) ↔ n = c!"main" ∨ n = c!"f" ∨ n = c!"h" := by
      intro k b
      constructor
      · rintro ⟨x, hx⟩
        have := mget_mem hx
        simp only [exChange, List.mem_cons, List.not_mem_nil, or_false, Prod.mk.injEq] at this
        tauto
      · rintro (rfl | rfl | rfl)
        · exact ⟨8, rfl⟩
        · exact ⟨k, rfl⟩
        · exact ⟨24, rfl⟩
    rw [key, key]

/-- `f` grows from 16 to 40 bytes: so do `f` and `main`; the maximum of `h`, that calls nothing, stays. Then `h` is
made recursive: `main` is as before. -/
example (search : TagSearch) :
    (∃ g cs, finalGraph id sameOrder search (exChange 16 []) ⟨[], none⟩ none = .ok (g, cs) ∧
      (List.range 3).map g.maxOf? = [some (.exact 24), some (.exact 16), some (.exact 24)]) ∧
    (∃ g cs, finalGraph id sameOrder search (exChange 40 []) ⟨[], none⟩ none = .ok (g, cs) ∧
      (List.range 3).map g.maxOf? = [some (.exact 48), some (.exact 40), some (.exact 24)]) ∧
    (∃ g cs, finalGraph id sameOrder search (exChange 40 [.directCall c!"h", .directCall c!"main"]) ⟨[], none⟩ none =
        .ok (g, cs) ∧
      (List.range 3).map g.maxOf? = [some (.exact 48), some (.exact 40), some (.lowerBound 72)]) :=
  ⟨finalGraph_eval rfl search _ none (fun g _ => (List.range 3).map g.maxOf? = _) (by decide +kernel),
   finalGraph_eval rfl search _ none (fun g _ => (List.range 3).map g.maxOf? = _) (by decide +kernel),
   finalGraph_eval rfl search _ none (fun g _ => (List.range 3).map g.maxOf? = _) (by decide +kernel)⟩

/-- Whatever `h` calls, the figures of `main` are the same: the hypotheses of `C105_local` are met. -/
example (search : TagSearch) (ord : HashOrder) {b : List Stmt}
    (hb : ∀ s ∈ b, s = .directCall c!"f" ∨ s = .directCall c!"main" ∨ s = .directCall c!"h") {g' : Graph}
    {cs' : List (List Nat)} (h' : finalGraph id ord search (exChange 16 b) ⟨[], none⟩ none = .ok (g', cs')) :
    g'.maxOf? 0 = some (.exact 24) := by
  obtain ⟨a1, a2, a3, a4, a5, a6, a7⟩ := exChange_facts (k := 16) (b := []) (by decide) (by simp)
  obtain ⟨_, _, _, _, _, b6, b7⟩ := exChange_facts (k := 16) (b := b) (by decide) hb
  obtain ⟨g, cs, h, hm⟩ := finalGraph_eval (p := exChange 16 []) rfl search ⟨[], none⟩ none
    (fun g _ => g.maxOf? 0 = some (.exact 24)) (by decide +kernel)
  have live : ∀ {n j}, (exChange 16 []).LiveAt n j →
      (j = 0 ∧ n = c!"main") ∨ (j = 1 ∧ n = c!"f") ∨ (j = 2 ∧ n = c!"h") := by
    rintro n j ⟨a, s, h1, h2, _⟩
    have hlt : j < 3 := (List.getElem?_eq_some_iff.mp h1).1
    match j, hlt with
    | 0, _ | 1, _ | 2, _ =>
      simp only [exChange, List.getElem?_cons_zero, List.getElem?_cons_succ, Option.some.injEq,
        Prod.mk.injEq] at h1
      obtain ⟨_, rfl⟩ := h1
      simp only [List.mem_cons, List.not_mem_nil, or_false] at h2
      subst h2
      simp
  have hcont : ∀ {i b x}, (exChange 16 b).Contains i x → i = 0 ∨ i = 1 → i = 0 ∧ x = .directCall c!"f" := by
    rintro i b x ⟨d, h1, h2, h3⟩ hi
    replace h2 := live ((exChange_shape 16 16 [] b).live.mp h2)
    simp only [exChange, List.mem_cons, List.not_mem_nil, or_false] at h1
    rcases h1 with rfl | rfl | rfl
    · simp only [List.mem_cons, List.not_mem_nil, or_false] at h3
      refine ⟨?_, h3⟩
      rcases h2 with ⟨h2, _⟩ | ⟨_, h2⟩ | ⟨_, h2⟩
      · exact h2
      · simp at h2
      · simp at h2
    · simp at h3
    · rcases h2 with ⟨_, h2⟩ | ⟨_, h2⟩ | ⟨h2, _⟩
      · simp at h2
      · simp at h2
      · omega
  have hreach : ∀ {c v u}, Reach ((exChange 16 []).MayCall search ⟨[], none⟩ c) v u → v = 0 ∨ v = 1 → u = 0 ∨ u = 1 := by
    intro c v u hr
    induction hr with
    | refl => exact id
    | step h1 _ ih =>
      intro hv
      refine ih ?_
      rcases h1 with ⟨s, h1, h2⟩ | ⟨h1, _⟩ | ⟨_, ⟨_, _, h1, _⟩, _⟩
      · obtain ⟨_, rfl⟩ := hcont h1 hv
        cases h2 with
        | direct _ h2 => rcases live h2 with ⟨_, h3⟩ | ⟨h3, _⟩ | ⟨_, h3⟩ <;> simp_all
        | copy _ h2 => simp at h2
        | fill _ h2 => simp at h2
      · simp [exChange, Target.isThumb] at h1
      · simpa using (hcont h1 hv).2
  have := C105_local (exChange_shape 16 16 [] b) a1 a2 a3 a4 a5 a6 b6 a7 b7 (by simp [Elf.Fits32]) h h' (i := 0)
    (by simp [exChange]) (fun c hc u hu => ⟨fun s => ?_, fun k => ?_⟩)
  · rw [this.2, hm]
  · have hu' := hreach hu (.inl rfl)
    constructor
    · intro hs
      obtain ⟨rfl, rfl⟩ := hcont hs hu'
      exact ⟨_, List.mem_cons_self, ⟨_, _, rfl, List.mem_cons_self, by rw [← isTag_iff]; decide⟩, by simp⟩
    · intro hs
      obtain ⟨rfl, rfl⟩ := hcont hs hu'
      exact ⟨_, List.mem_cons_self, ⟨_, _, rfl, List.mem_cons_self, by rw [← isTag_iff]; decide⟩, by simp⟩
  · exact Iff.rfl

end CallStack
