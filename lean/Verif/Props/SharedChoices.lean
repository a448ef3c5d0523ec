import Verif.Props.SharedChange
import Verif.Props.SharedTotal
import Verif.Props.Choices

/-!
Property C120, exactly: which figures the order of the hash map of signatures can lead to, and when it does not matter, if
several functions may have the same names.
-/

namespace CallStack

/-- The maximum of the node of the `i`-th live function, if `chosen` is taken for the type that stands for any type. -/
def Program.MaxShared (p : Program) (search : TagSearch) (elf : Elf) (chosen : Option Str) (loc : Nat → Local) (i : Nat)
    (m : Max) : Prop :=
  Heaviest (p.MayCallShared search elf chosen) loc i m.bytes ∧
  (m.IsExact ↔ ∀ u, Reach (p.MayCallShared search elf chosen) i u →
    (loc u).Known ∧ ¬ p.MayLeaveShared search elf u ∧
    (Recursive (p.MayCallShared search elf chosen) u → (loc u).bytes = 0))

theorem Program.MaxShared.unique {p : Program} {search : TagSearch} {elf : Elf} {c : Option Str} {loc : Nat → Local}
    {i : Nat} {m m' : Max} (h : p.MaxShared search elf c loc i m) (h' : p.MaxShared search elf c loc i m') : m = m' :=
  Max.ext_iff.mpr ⟨h.1.unique h'.1, h.2.trans h'.2.symm⟩

theorem Program.MaxShared.congr {p : Program} {search : TagSearch} {elf : Elf} {c : Option Str} {loc loc' : Nat → Local}
    {i : Nat} {m : Max} (hl : ∀ u, Reach (p.MayCallShared search elf c) i u → loc' u = loc u)
    (h : p.MaxShared search elf c loc i m) : p.MaxShared search elf c loc' i m := by
  obtain ⟨⟨⟨us, h1, h2⟩, h3⟩, h4⟩ := h
  have hw : ∀ {us}, GroupChain (p.MayCallShared search elf c) i us → weight loc' us = weight loc us :=
    fun hus => weight_congr fun u hu => hl u (hus.1 u hu)
  refine ⟨⟨⟨us, h1, (hw h1).trans h2⟩, fun vs hv => by rw [hw hv]; exact h3 vs hv⟩, h4.trans ?_⟩
  exact forall_congr' fun u => imp_congr_right fun hu => by rw [hl u hu]

section

variable {demangle : Str → Str} {ord : HashOrder} {search : TagSearch} {p : Program} {elf : Elf}
  {cs : List Str} {st0 stIr st : Build} {g : Graph}

/-- Every choice is made for some order. -/
theorem SharedFacts.realised (h : SharedFacts demangle ord search p elf cs st0 stIr st g)
    (defs : p.DefinesOnce) (decls : p.DeclaresOnce) {c : Option Str} (hc : p.Chosen c) :
    ∃ ord', voidOf ord' st = c := by
  have hv := h.chosen defs decls
  cases hc with
  | @core v h0 hr hp =>
    obtain ⟨j, sig, hj, hf⟩ := hr
    obtain ⟨ind, he⟩ := (h.registered defs decls sig).mpr ⟨j, hj⟩
    rw [← h.machine.indirects] at he
    obtain ⟨n, hn, hg⟩ := List.getElem_of_mem he
    refine ⟨.from n, ?_⟩
    have hfirst : ((HashOrder.from n).perm _ 0 st.indirects).filterMap (fun e => maybeVoid e.1) =
        v :: ((st.indirects.drop (n + 1) ++ st.indirects.take n).filterMap fun e => maybeVoid e.1) := by
      have : (HashOrder.from n).perm _ 0 st.indirects =
          (sig, ind) :: (st.indirects.drop (n + 1) ++ st.indirects.take n) := by
        change st.indirects.drop n ++ st.indirects.take n = _
        rw [List.drop_eq_getElem_cons hn, hg]
        rfl
      rw [this, List.filterMap_cons, (maybeVoid_iff sig v).mpr hf]
    have hno : ¬ c!"fmt::Void" ∈ ((HashOrder.from n).perm _ 0 st.indirects).filterMap (fun e => maybeVoid e.1) := by
      intro hm
      obtain ⟨e, h1, h2⟩ := List.mem_filterMap.mp hm
      obtain ⟨j', hj'⟩ := (h.registered defs decls e.1).mp ⟨_, h.machine.indirects ▸ ((HashOrder.from n).isPerm _ _ _).mem_iff.mp h1⟩
      exact h0 ⟨j', e.1, hj', (maybeVoid_iff _ _).mp h2⟩
    unfold voidOf oneTrueVoid
    rw [if_neg (by rwa [List.contains_iff_mem]), hfirst,
      List.find?_cons_of_pos (p := fun v => startsWith v c!"core::fmt::Void")
      ((startsWith_iff _ _).mpr hp)]
  | known h0 =>
    refine ⟨ord, ?_⟩
    generalize voidOf ord st = a at hv
    cases hv with
    | known => rfl
    | core h1 | only h1 | none h1 => exact absurd h0 h1
  | only h0 h1 h2 h3 =>
    refine ⟨ord, ?_⟩
    generalize voidOf ord st = a at hv
    cases hv with
    | known h4 => exact absurd h4 h0
    | core _ h4 h5 => exact absurd h5 (h1 _ h4)
    | only _ _ h4 => rw [h3 _ h4]
    | none _ _ h4 =>
      obtain ⟨w, h5, h6⟩ := h4 _ h2
      exact absurd (h3 w h5) h6
  | none h0 h1 h2 =>
    refine ⟨ord, ?_⟩
    generalize voidOf ord st = a at hv
    cases hv with
    | known h4 => exact absurd h4 h0
    | core _ h4 h5 => exact absurd h5 (h1 _ h4)
    | only _ _ h4 h5 =>
      obtain ⟨w, h6, h7⟩ := h2 _ h4
      exact absurd (h5 w h6) h7
    | none => rfl

end

/-- **C120** Whatever the tool may choose as the type that stands for any type, it does so for some order of the hash
map of signatures, and then prints the figures that belong to this choice. (`C119_figures` says that it prints no
others.) -/
theorem C120_every_choice {demangle : Str → Str} {search : TagSearch} {p : Program} {elf : Elf} (alike : p.NamesAlike)
    (defs : p.DefinesOnce) (decls : p.DeclaresOnce) (addressed : p.Addressed) (safe : p.OrderSafe)
    (sizes : p.SizesU64) (fits : elf.Fits32)
    (ends : ∀ ord, ∃ g cycles, finalGraph demangle ord search p elf none = .ok (g, cycles)) {c : Option Str}
    (hc : p.Chosen c) :
    ∃ ord g cycles, finalGraph demangle ord search p elf none = .ok (g, cycles) ∧
      ∀ i < p.defined.length, (∀ l, p.LocalShared search elf i l ↔ g.locOf i = l) ∧
        ((∃ m, g.maxOf? i = some m) ↔ ∃ j k, p.Frame j k) ∧
        ∀ m, g.maxOf? i = some m → p.MaxShared search elf c g.locOf i m := by
  obtain ⟨g0, cyc0, h0⟩ := ends sameOrder
  obtain ⟨st, ga, a1, _⟩ := finalGraph_facts h0
  obtain ⟨_, _, _, r⟩ := callGraph_shared a1
  obtain ⟨ord, rfl⟩ := r.realised defs decls hc
  obtain ⟨g, cycles, h1⟩ := ends ord
  obtain ⟨st', gb, b1, b2⟩ := finalGraph_facts h1
  obtain rfl := callGraph_state a1 b1
  obtain ⟨_, _, _, r'⟩ := callGraph_shared b1
  exact ⟨ord, g, cycles, h1, (SharedFacts.figures alike defs decls addressed safe sizes fits h1 b1 b2 r').2⟩

/-- **C120** The exact condition: the order of the hash map of signatures does not matter for the maxima exactly if all
types that may be chosen lead to the same maxima. (`loc` are the local usages, that do not depend on it. If the
compiler reports no frame, no maxima are printed.) -/
theorem C120_orders_iff {demangle : Str → Str} {search : TagSearch} {p : Program} {elf : Elf} (alike : p.NamesAlike)
    (defs : p.DefinesOnce) (decls : p.DeclaresOnce) (addressed : p.Addressed) (safe : p.OrderSafe)
    (sizes : p.SizesU64) (fits : elf.Fits32) (frames : ∃ i k, p.Frame i k)
    (ends : ∀ ord, ∃ g cycles, finalGraph demangle ord search p elf none = .ok (g, cycles)) {loc : Nat → Local}
    (hloc : ∀ i < p.defined.length, p.LocalShared search elf i (loc i)) :
    (∀ ord ord' g g' cycles cycles', finalGraph demangle ord search p elf none = .ok (g, cycles) →
      finalGraph demangle ord' search p elf none = .ok (g', cycles') →
      ∀ i < p.defined.length, g'.maxOf? i = g.maxOf? i) ↔
    ∀ c c', p.Chosen c → p.Chosen c' → ∀ i < p.defined.length, ∀ m,
      p.MaxShared search elf c loc i m → p.MaxShared search elf c' loc i m := by
  have hmax : ∀ {g : Graph} {c},
      (∀ i < p.defined.length, (∀ l, p.LocalShared search elf i l ↔ g.locOf i = l) ∧
        ((∃ m, g.maxOf? i = some m) ↔ ∃ j k, p.Frame j k) ∧
        ∀ m, g.maxOf? i = some m → p.MaxShared search elf c g.locOf i m) →
      ∀ i < p.defined.length, ∃ m, g.maxOf? i = some m ∧ p.MaxShared search elf c loc i m := by
    intro g c h1 i hi
    obtain ⟨_, h2, h3⟩ := h1 i hi
    obtain ⟨m, hm⟩ := h2.mpr frames
    refine ⟨m, hm, (h3 m hm).congr fun u hu => ?_⟩
    have hlt := Program.MayCallShared.reach_lt hi hu
    exact (((h1 u hlt).1 _).mp (hloc u hlt)).symm
  constructor
  · intro hsame c c' hc hc' i hi m hm
    obtain ⟨ord, g, cycles, h1, h2⟩ := C120_every_choice alike defs decls addressed safe sizes fits ends hc
    obtain ⟨ord', g', cycles', h1', h2'⟩ := C120_every_choice alike defs decls addressed safe sizes fits ends hc'
    obtain ⟨m1, k1, k2⟩ := hmax h2 i hi
    obtain ⟨m2, l1, l2⟩ := hmax h2' i hi
    have := hsame ord ord' g g' cycles cycles' h1 h1' i hi
    rw [k1, l1] at this
    obtain rfl := Option.some.inj this
    rwa [hm.unique k2]
  · intro hall ord ord' g g' cycles cycles' h h' i hi
    obtain ⟨c, hc, h2⟩ := C119_figures alike defs decls addressed safe sizes fits h
    obtain ⟨c', hc', h2'⟩ := C119_figures alike defs decls addressed safe sizes fits h'
    obtain ⟨m1, k1, k2⟩ := hmax h2 i hi
    obtain ⟨m2, l1, l2⟩ := hmax h2' i hi
    rw [k1, l1, (hall c c' hc hc' i hi m1 k2).unique l2]

/-- The program of `C76_void_order_matters` with another function `f`. -/
def exTwoVoidsTwin : Program := { exTwoVoids with defined := exTwoVoids.defined ++ [(64, ⟨[c!"f"], 8⟩)] }

/-- Two types may be chosen, and they lead to different maxima, as the order decides. -/
example (search : TagSearch) :
    (∃ g cycles, finalGraph id sameOrder search exTwoVoidsTwin ⟨[], none⟩ none = .ok (g, cycles) ∧
      g.maxOf? 0 = some (.exact 408)) ∧
    ∃ g cycles, finalGraph id reverseOrder search exTwoVoidsTwin ⟨[], none⟩ none = .ok (g, cycles) ∧
      g.maxOf? 0 = some (.exact 24) :=
  ⟨finalGraph_eval_order (p := exTwoVoidsTwin) rfl _ search _ none (fun g _ => g.maxOf? 0 = _) (by decide +kernel),
    finalGraph_eval_order (p := exTwoVoidsTwin) rfl _ search _ none (fun g _ => g.maxOf? 0 = _) (by decide +kernel)⟩

/-- The conditions of `C120_every_choice` and `C120_orders_iff` are met by this program. -/
example (search : TagSearch) :
    exTwoVoidsTwin.NamesAlike ∧ ¬ exTwoVoidsTwin.NamesOnce ∧ exTwoVoidsTwin.DefinesOnce ∧ exTwoVoidsTwin.DeclaresOnce ∧
    exTwoVoidsTwin.Addressed ∧ exTwoVoidsTwin.OrderSafe ∧ exTwoVoidsTwin.SizesU64 ∧
    ∀ ord, ∃ g cycles, finalGraph id ord search exTwoVoidsTwin ⟨[], none⟩ none = .ok (g, cycles) := by
  have alike : exTwoVoidsTwin.NamesAlike := by
    have key : ∀ x ∈ exTwoVoidsTwin.defined, ∀ y ∈ exTwoVoidsTwin.defined, ∀ n ∈ x.2.names, n ∈ y.2.names →
        x.2.names = y.2.names := by decide
    intro i j a s b t n hi hj hs ht
    exact key _ (List.mem_of_getElem? hi) _ (List.mem_of_getElem? hj) n hs.1 ht.1
  have hd : exTwoVoidsTwin.DefinesOnce := by unfold Program.DefinesOnce; decide
  have he : exTwoVoidsTwin.DeclaresOnce := by unfold Program.DeclaresOnce; decide
  have hstmt : ∀ i s, exTwoVoidsTwin.Contains i s →
      s = .indirectCall (exFmtSig (.alias c!"core::fmt::Void")) := by
    rintro i s ⟨d, hd, _, hs⟩
    simp only [exTwoVoidsTwin, exTwoVoids, List.mem_cons, List.not_mem_nil, or_false] at hd
    rcases hd with rfl | rfl | rfl | rfl <;> simp at hs
    exact hs
  have hsize : ∀ n k, exTwoVoidsTwin.Reported n k → k ≤ 400 := by
    intro n k hn
    simp only [Program.Reported, exTwoVoidsTwin, exTwoVoids, mget] at hn
    split_ifs at hn <;> simp only [Option.some.injEq] at hn <;> omega
  have hframe : ∀ m k, exTwoVoidsTwin.Frame m k → k ≤ 400 := by
    rintro m k ⟨_, _, _, n, _, _, _, _, h, _⟩
    exact hsize n k h
  have sizes : exTwoVoidsTwin.SizesU64 := fun n k hn => by have := hsize n k hn; omega
  refine ⟨alike, fun h => ?_, hd, he, by unfold Program.Addressed; decide, ?_, sizes, fun ord => ?_⟩
  · have := h c!"f" 3 4 ⟨_, _, rfl, by decide, by rw [← isTag_iff]; decide⟩
      ⟨_, _, rfl, by decide, by rw [← isTag_iff]; decide⟩
    omega
  · refine orderSafe_of ⟨fun r _ => .inr ⟨fun i hc => ?_, fun _ i hc => ?_⟩, .inr fun i hc => ?_⟩ <;>
      exact absurd (hstmt _ _ hc) (by simp)
  obtain ⟨st, h⟩ : ∃ st, irGraph id exTwoVoidsTwin = .ok st := ⟨_, rfl⟩
  obtain ⟨named, hacc, hmem⟩ := C121_ir_iff.mp ⟨st, h⟩
  obtain ⟨text, ht⟩ := C121_output (demangle := id) (ord := ord) (search := search) (elf := ⟨[], none⟩) alike hd he sizes
    (by simp [Elf.Fits32]) named hacc hmem (fun ht => by cases ht)
    (by
      refine ⟨?_, ?_, ?_, noHash_of (by decide +kernel), noHash_of (by decide +kernel)⟩
      · intro i f _ _ h
        simp [exTwoVoidsTwin, exTwoVoids] at h
      · intro i f h
        have := hstmt _ _ h
        simp at this
      · rintro j sig (⟨d, hd, _, rfl⟩ | ⟨d, hd, _⟩)
        · simp only [exTwoVoidsTwin, exTwoVoids, List.mem_cons, List.not_mem_nil, or_false] at hd
          rcases hd with rfl | rfl | rfl | rfl <;> exact noHash_of (by decide +kernel)
        · simp [exTwoVoidsTwin, exTwoVoids] at hd) (b := fun _ => 400) hframe
    (by
      rintro i m k _ (h | ⟨h, _⟩)
      · exact hframe _ _ h
      · cases h) (by decide) none .dot
  unfold runText at ht
  cases h : finalGraph id ord search exTwoVoidsTwin ⟨[], none⟩ none with
  | ok out => exact ⟨out.1, out.2, rfl⟩
  | error e => rw [h] at ht; cases ht

end CallStack
