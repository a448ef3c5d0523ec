import Verif.Proof.HashOrder
import Verif.Props.Total
import Verif.Props.Indirect

/-!
Property C76: the figures that are printed do not depend on the orders of hash maps.
-/

namespace CallStack

theorem finalGraph_steps {demangle : Str → Str} {ord : HashOrder} {search : TagSearch} {p : Program}
    {elf : Elf} {g' : Graph} {cycles : List (List Nat)}
    (h : finalGraph demangle ord search p elf none = .ok (g', cycles)) :
    ∃ (st : Build) (g g1 : Graph), callGraph demangle ord search p elf = .ok (st, g) ∧
      analyzeMax st.hasStackUsageInfo g = .ok (g1, cycles) ∧
      shortenNodes demangle st.ambiguous g1.nodes = .ok g'.nodes ∧ g'.edges = g1.edges := by
  unfold finalGraph at h
  split at h
  · simp at h
  · rename_i st g hc
    simp only [applyStart] at h
    split at h
    · simp at h
    · rename_i g1 cyc ha
      split at h
      · simp at h
      · rename_i nodes hs
        simp only [Except.ok.injEq, Prod.mk.injEq] at h
        obtain ⟨rfl, rfl⟩ := h
        exact ⟨st, g, g1, hc, ha, hs, rfl⟩

section runs

variable {demangle : Str → Str} {ord ord' : HashOrder} {search : TagSearch} {p p' : Program}
  {elf : Elf} {cs cs' ext ext' : List Str} {st0 st0' stIr stIr' st st' : Build} {g g' : Graph}

theorem analyzeMax_edges {info : Bool} {g1 : Graph} {cycles : List (List Nat)}
    (hwf : g.WF) (hu : g.LocalsU64)
    (ha : analyzeMax info g = .ok (g1, cycles)) : SameButMax g g1 := by
  cases info with
  | false =>
    simp only [analyzeMax, Bool.not_false, if_true, Except.ok.injEq, Prod.mk.injEq] at ha
    rw [← ha.1]
    exact SameButMax.refl g
  | true => exact (analyzeMax_ok hwf hu ha).1

theorem LiveSame.max_eq {info : Bool} {g1 g1' : Graph} {cycles cycles' : List (List Nat)}
    (h : RunFacts demangle ord search p elf cs ext st0 stIr st g) (hu : g.LocalsU64)
    (h' : RunFacts demangle ord' search p' elf cs' ext' st0' stIr' st' g') (hu' : g'.LocalsU64)
    (same : LiveSame cs.length g.Calls g.locOf g'.Calls g'.locOf)
    (ha : analyzeMax info g = .ok (g1, cycles)) (ha' : analyzeMax info g' = .ok (g1', cycles')) {i : Nat}
    (hi : i < cs.length) (hl : i < g.nodes.length) (hl' : i < g'.nodes.length) :
    g1'.maxOf? i = g1.maxOf? i := by
  cases info with
  | false =>
    simp only [analyzeMax, Bool.not_false, if_true, Except.ok.injEq, Prod.mk.injEq] at ha ha'
    rw [← ha.1, ← ha'.1]
    have e1 := h.max_none (List.getElem?_eq_getElem hl)
    have e2 := h'.max_none (List.getElem?_eq_getElem hl')
    unfold Graph.maxOf?
    rw [List.getElem?_eq_getElem hl, List.getElem?_eq_getElem hl']
    simp only
    rw [e1, e2]
  | true =>
    obtain ⟨_, h2, _⟩ := analyzeMax_ok h.wf hu ha
    obtain ⟨_, h2', _⟩ := analyzeMax_ok h'.wf hu' ha'
    obtain ⟨m, k1, _, k3⟩ := h2 i hl
    obtain ⟨m', k1', _, k3'⟩ := h2' i hl'
    rw [k1, k1', MaxSpec.unique (same.maxSpec hi k3) k3']

end runs

/-- Two runs that both end. -/
theorem same_figures {demangle : Str → Str} {ord ord' : HashOrder} {search : TagSearch}
    {p p' : Program} {elf : Elf} {g g' : Graph} {cycles cycles' : List (List Nat)}
    (same : p.Reordered p') (once : p.NamesOnce) (defines : p.DefinesOnce) (declares : p.DeclaresOnce)
    (safe : p.OrderSafe) (one : p.OneVoid) (sizes : p.SizesU64) (fits : elf.Fits32)
    (h : finalGraph demangle ord search p elf none = .ok (g, cycles))
    (h' : finalGraph demangle ord' search p' elf none = .ok (g', cycles')) :
    (∀ i < p.defined.length, g.nodes[i]? ≠ none ∧ g'.nodes[i]? = g.nodes[i]?) ∧
    (∀ i < p.defined.length, ∀ j < p.defined.length, Reach g'.Calls i j ↔ Reach g.Calls i j) := by
  obtain ⟨st, ga, gb, a1, a2, a3, a4⟩ := finalGraph_steps h
  obtain ⟨st', ga', gb', b1, b2, b3, b4⟩ := finalGraph_steps h'
  have once' := same.namesOnce once
  obtain ⟨cs, ext, st0, stIr, r⟩ := callGraph_facts once a1
  obtain ⟨cs', ext', st0', stIr', r'⟩ := callGraph_facts once' b1
  have hu := r.u64 once sizes fits
  have hu' := r'.u64 once' (same.sizesU64 sizes) fits
  have hs := RunFacts.same same once defines declares safe one r r'
  obtain ⟨e1, e2⟩ := same.symOk defines declares r.ir r'.ir
  subst e1 e2
  have hlen : cs'.length = p.defined.length := r.ir.sym.len
  have hinfo : st'.hasStackUsageInfo = st.hasStackUsageInfo := by
    rw [r'.machine.info, r'.ir.ir.info, r.machine.info, r.ir.ir.info]
  have hamb : st'.ambiguous = st.ambiguous := by
    rw [r'.machine.ambiguous, r'.ir.ir.ambiguous, r.machine.ambiguous, r.ir.ir.ambiguous]
  rw [hinfo] at b2
  rw [hamb] at b3
  have sb := analyzeMax_edges r.wf hu a2
  have sb' := analyzeMax_edges r'.wf hu' b2
  constructor
  · intro i hi
    rw [← hlen] at hi
    have hc : (cs' ++ ext)[i]? = some cs'[i] := by
      rw [List.getElem?_append_left hi]; exact List.getElem?_eq_getElem hi
    have hc' : (cs' ++ ext')[i]? = some cs'[i] := by
      rw [List.getElem?_append_left hi]; exact List.getElem?_eq_getElem hi
    obtain ⟨nd, n1, n2, n3, _⟩ := r.node hc
    obtain ⟨nd', n1', n2', n3', _⟩ := r'.node hc'
    have hl := (List.getElem?_eq_some_iff.mp n1).1
    have hl' := (List.getElem?_eq_some_iff.mp n1').1
    have hm := hs.max_eq r hu r' hu' a2 b2 hi hl hl'
    have hloc := hs.loc i hi
    have e1 := sb.at_ i
    have e2 := sb'.at_ i
    obtain ⟨x, hx⟩ : ∃ x, gb.nodes[i]? = some x := ⟨_, List.getElem?_eq_getElem (by rw [sb.length]; exact hl)⟩
    obtain ⟨y, hy⟩ : ∃ y, gb'.nodes[i]? = some y :=
      ⟨_, List.getElem?_eq_getElem (by rw [sb'.length]; exact hl')⟩
    have hxy : y = x := by
      unfold Graph.maxOf? at hm
      unfold Graph.locOf at hloc
      rw [hx, n1] at e1
      rw [hy, n1'] at e2
      rw [n1, n1'] at hloc
      rw [hx, hy] at hm
      simp only [Option.map_some, Option.some.injEq, Node.mk.injEq] at e1 e2 hm hloc
      cases x; cases y; cases nd; cases nd'
      simp_all
    subst hxy
    obtain ⟨b, c1, n, c2, rfl⟩ := (forall₂_at (shortenNodes_iff.mp a3) i).1 _ hx
    obtain ⟨b', d1, n', d2, rfl⟩ := (forall₂_at (shortenNodes_iff.mp b3) i).1 _ hy
    rw [c2, Except.ok.injEq] at d2
    rw [c1, d1, d2]
    simp
  · intro i hi j hj
    have c1 : g.Calls = ga.Calls := by
      funext a b; unfold Graph.Calls; rw [a4, sb.1]
    have c2 : g'.Calls = ga'.Calls := by
      funext a b; unfold Graph.Calls; rw [b4, sb'.1]
    rw [c1, c2]
    rw [← hlen] at hi hj
    exact (hs.reach_iff hi hj)

/-- If the call graph can be built with one order it can be built with any. -/
theorem Program.Reordered.callGraph_ok {demangle : Str → Str} {ord ord' : HashOrder}
    {search : TagSearch} {p p' : Program} {elf : Elf} (same : p.Reordered p') (once : p.NamesOnce)
    (safe : p.OrderSafe) (h : ∃ out, callGraph demangle ord search p elf = .ok out) :
    ∃ out, callGraph demangle ord' search p' elf = .ok out := by
  obtain ⟨⟨st, g⟩, h⟩ := h
  have once' := same.namesOnce once
  obtain ⟨cs, ext, st0, stIr, r⟩ := callGraph_facts once h
  obtain ⟨named, hacc⟩ := C69_no_abort_only_if once r.irOk
  have hir : ∃ st', irGraph demangle p' = .ok st' := by
    refine C69_no_abort_if_partial once' ?_ ?_ ?_
    · rw [same.defined]; exact named
    · intro i s hc
      have := hacc i s ((same.contains i s).mp hc)
      unfold Program.Acceptable at this ⊢
      simp only [same.target, same.liveAt, same.undefined]
      exact this
    · rintro ⟨i', hc⟩ ⟨i, hb⟩
      rw [same.contains] at hb hc
      rcases safe i' _ _ hc .memcmp with ⟨j, hj⟩ | ⟨_, hu⟩ | hno
      · refine Or.inl ⟨j, (same.liveAt _ _).mpr ?_⟩
        obtain ⟨a, s, pre, post, h1, h2, h3, _⟩ := hj
        exact ⟨a, s, h1, by rw [h2]; simp, h3⟩
      · exact Or.inr (by rw [same.undefined]; exact (hu rfl).2)
      · exact absurd (Or.inl rfl) (hno i _ hb)
  cases ht : p.target.isThumb with
  | false =>
    obtain ⟨stIr', hir⟩ := hir
    refine ⟨(stIr', addIndirects ord' stIr'), ?_⟩
    unfold callGraph machinePass
    simp only [hir, same.target, ht, Bool.false_eq_true, if_false]
  | true =>
    cases hx : elf.text with
    | none =>
      obtain ⟨stIr', hir⟩ := hir
      refine ⟨(stIr', addIndirects ord' stIr'), ?_⟩
      unfold callGraph machinePass
      simp only [hir, same.target, ht, if_true, hx]
    | some x =>
      obtain ⟨stext, text⟩ := x
      refine (C74_machine_abort_iff once' (by rw [same.target]; exact ht) hx).mpr ⟨hir, ?_⟩
      intro i hi
      rw [same.defined] at hi
      have := ((C74_machine_abort_iff once ht hx).mp ⟨_, h⟩).2 i hi
      have hframe : ∀ o, p'.FrameOpt i o ↔ p.FrameOpt i o := by
        intro o
        cases o <;> simp only [Program.FrameOpt, Program.Frame, Program.Reported,
          same.stackSizes, same.defined]
      unfold Program.CodeOk Program.Decoded Program.StartsAt at this ⊢
      simp only [same.defined, same.principal, same.contains, same.target, hframe]
      exact this

/-- **C76** The result does not depend on the order in which the hash maps of the definitions, the
declarations and the signatures are iterated: if the tool ends with output for one order then it does for
every other, with the same node, that is the same name, local usage and max, for every live function, and
the same live functions can be reached from each. Partial: one type at most starts with
`core::fmt::Void`, see `C76_void_order_matters`, and the memory routines are found under the names the
tool knows, see `C40_order_matters`. -/
theorem C76_order_irrelevant_partial {demangle : Str → Str} {ord : HashOrder} {search : TagSearch}
    {p p' : Program} {elf : Elf} {g : Graph} {cycles : List (List Nat)}
    (same : p.Reordered p') (once : p.NamesOnce) (defines : p.DefinesOnce) (declares : p.DeclaresOnce)
    (safe : p.OrderSafe) (one : p.OneVoid) (sizes : p.SizesU64) (fits : elf.Fits32)
    (unknown : NoHash demangle c!"?")
    (h : finalGraph demangle ord search p elf none = .ok (g, cycles)) (ord' : HashOrder) :
    ∃ g' cycles', finalGraph demangle ord' search p' elf none = .ok (g', cycles') ∧
      (∀ i < p.defined.length, g.nodes[i]? ≠ none ∧ g'.nodes[i]? = g.nodes[i]?) ∧
      ∀ i < p.defined.length, ∀ j < p.defined.length, Reach g'.Calls i j ↔ Reach g.Calls i j := by
  suffices hs : ∃ out, finalGraph demangle ord' search p' elf none = .ok out by
    obtain ⟨⟨g', cycles'⟩, h'⟩ := hs
    exact ⟨g', cycles', h', same_figures same once defines declares safe one sizes fits h h'⟩
  obtain ⟨st, ga, gb, a1, a2, a3, a4⟩ := finalGraph_steps h
  have once' := same.namesOnce once
  obtain ⟨cs, ext, st0, stIr, r⟩ := callGraph_facts once a1
  obtain ⟨⟨st', ga'⟩, b1⟩ := same.callGraph_ok (ord' := ord') once safe ⟨_, a1⟩
  obtain ⟨cs', ext', st0', stIr', r'⟩ := callGraph_facts once' b1
  have hu := r.u64 once sizes fits
  have hu' := r'.u64 once' (same.sizesU64 sizes) fits
  have hs := RunFacts.same same once defines declares safe one r r'
  have hnames := fun nd' => RunFacts.same_names same defines declares one r r' (nd' := nd')
  obtain ⟨e1, e2⟩ := same.symOk defines declares r.ir r'.ir
  subst e1 e2
  have hinfo : st'.hasStackUsageInfo = st.hasStackUsageInfo := by
    rw [r'.machine.info, r'.ir.ir.info, r.machine.info, r.ir.ir.info]
  have hamb : st'.ambiguous = st.ambiguous := by
    rw [r'.machine.ambiguous, r'.ir.ir.ambiguous, r.machine.ambiguous, r.ir.ir.ambiguous]
  have sb := analyzeMax_edges r.wf hu a2
  have hana : ∃ gb' cyc, analyzeMax st'.hasStackUsageInfo ga' = .ok (gb', cyc) := by
    rw [hinfo]
    cases hi : st.hasStackUsageInfo with
    | false => exact ⟨ga', [], by simp [analyzeMax]⟩
    | true =>
      rw [hi] at a2
      rcases analyzeMax_spec r'.wf hu' with ⟨_, hov⟩ | ⟨gb', cyc, e, _⟩
      · refine absurd hov (hs.not_overflows ?_ (analyzeMax_ok r.wf hu a2).2.1)
        have := r.len.1
        have := r.len.2
        rw [List.length_append] at *
        omega
      · exact ⟨gb', cyc, e⟩
  obtain ⟨gb', cyc, b2⟩ := hana
  have sb' := analyzeMax_edges r'.wf hu' b2
  have hex : ∀ nd ∈ gb'.nodes, ∃ nd', ∃ name,
      shortenName demangle st'.ambiguous nd.name = .ok name ∧ nd' = { nd with name } := by
    intro nd hnd
    suffices hh : ∃ name, shortenName demangle st'.ambiguous nd.name = .ok name by
      obtain ⟨name, hh⟩ := hh
      exact ⟨_, name, hh, rfl⟩
    have lift : ∀ {g g1 : Graph}, SameButMax g g1 → ∀ x ∈ g1.nodes, ∃ y ∈ g.nodes, y.name = x.name := by
      intro g g1 hsame x hx
      obtain ⟨k, hk⟩ := List.getElem?_of_mem hx
      have h1 := hsame.at_ k
      rw [hk] at h1
      cases hk0 : g.nodes[k]? with
      | none => rw [hk0] at h1; simp at h1
      | some y =>
        rw [hk0] at h1
        simp only [Option.map_some, Option.some.injEq, Node.mk.injEq] at h1
        exact ⟨y, List.mem_of_getElem? hk0, h1.1.symm⟩
    obtain ⟨x, hx, hxn⟩ := lift sb' nd hnd
    rw [← hxn]
    rcases hnames x hx with h1 | ⟨y, hy, hyn⟩
    · rw [h1]
      exact ⟨_, C19_no_hash demangle _ unknown⟩
    · obtain ⟨z, hz, hzn⟩ := lift sb.symm y hy
      obtain ⟨k, hk⟩ := List.getElem?_of_mem hz
      obtain ⟨b, _, n, c2, _⟩ := (forall₂_at (shortenNodes_iff.mp a3) k).1 _ hk
      rw [hzn, hyn] at c2
      rw [hamb]
      exact ⟨n, c2⟩
  obtain ⟨nodes, hn⟩ := forall₂_of_at hex
  refine ⟨({ gb' with nodes }, cyc), ?_⟩
  unfold finalGraph
  simp only [b1, applyStart, b2, shortenNodes_iff.mpr hn]

/-- Iteration of hash maps in the reverse order. -/
def reverseOrder : HashOrder := ⟨fun _ _ l => l.reverse, fun _ _ l => List.reverse_perm l⟩

/-- Evaluation of the printed graph for any order. -/
theorem finalGraph_eval_order {p : Program} (ht : p.target.isThumb = false) (ord : HashOrder)
    (search : TagSearch) (elf : Elf)
    (start : Option Str) (P : Graph → List (List Nat) → Prop) [∀ g cs, Decidable (P g cs)]
    (h : (match finalGraph id ord linearSearch p ⟨[], none⟩ start with
      | .ok (g, cs) => decide (P g cs)
      | .error _ => false) = true) :
    ∃ g cs, finalGraph id ord search p elf start = .ok (g, cs) ∧ P g cs := by
  rw [finalGraph_other ht search linearSearch elf ⟨[], none⟩]
  split at h
  · rename_i g cs hg
    exact ⟨g, cs, hg, by simpa using h⟩
  · simp at h

/-- `main` calls a formatting function for `core::fmt::Void`; the functions `a` and `b` have this type
under two names, as after linking several modules, and `f` formats another type. -/
def exTwoVoids : Program :=
  { target := .other
    defined := [(8, ⟨[c!"main"], 4⟩), (16, ⟨[c!"a"], 8⟩), (24, ⟨[c!"b"], 8⟩), (32, ⟨[c!"f"], 8⟩)]
    undefined := []
    stackSizes := [(c!"main", 8), (c!"a", 16), (c!"b", 16), (c!"f", 400)]
    defines := [⟨c!"main", exSig, [.indirectCall (exFmtSig (.alias c!"core::fmt::Void"))]⟩,
      ⟨c!"a", exFmtSig (.alias c!"core::fmt::Void"), []⟩,
      ⟨c!"b", exFmtSig (.alias c!"core::fmt::Void.5"), []⟩,
      ⟨c!"f", exFmtSig (.alias c!"Foo"), []⟩]
    declares := [] }

/-- **C76** is false in general: with two such types the order of a hash map decides which of them is
taken for the type of formatted values, and so whether `main` is printed with a max of 408 or of 24. -/
theorem C76_void_order_matters (search : TagSearch) :
    exTwoVoids.NamesOnce ∧ exTwoVoids.DefinesOnce ∧ exTwoVoids.DeclaresOnce ∧
    (∃ g cycles, finalGraph id sameOrder search exTwoVoids ⟨[], none⟩ none = .ok (g, cycles) ∧
      g.maxOf? 0 = some (.exact 408)) ∧
    ∃ g cycles, finalGraph id reverseOrder search exTwoVoids ⟨[], none⟩ none = .ok (g, cycles) ∧
      g.maxOf? 0 = some (.exact 24) :=
  ⟨namesOnce_of (by decide), by unfold Program.DefinesOnce; decide,
    by unfold Program.DeclaresOnce; decide,
    finalGraph_eval_order rfl _ search _ none (fun g _ => g.maxOf? 0 = _) (by decide +kernel),
    finalGraph_eval_order rfl _ search _ none (fun g _ => g.maxOf? 0 = _) (by decide +kernel)⟩

/-- The same without the second name. -/
def exOneVoid : Program :=
  { exTwoVoids with
    defines := [⟨c!"main", exSig, [.indirectCall (exFmtSig (.alias c!"core::fmt::Void"))]⟩,
      ⟨c!"a", exFmtSig (.alias c!"core::fmt::Void"), []⟩,
      ⟨c!"b", exFmtSig (.alias c!"core::fmt::Void"), []⟩,
      ⟨c!"f", exFmtSig (.alias c!"Foo"), []⟩] }

/-- All orders of its hash maps give the same figures, in particular the max of 408. -/
example (search : TagSearch) (ord : HashOrder) (p' : Program) (same : exOneVoid.Reordered p') :
    ∃ g cycles, finalGraph id ord search p' ⟨[], none⟩ none = .ok (g, cycles) ∧
      g.maxOf? 0 = some (.exact 408) := by
  obtain ⟨g0, cycles0, h0, h1⟩ := finalGraph_eval_order (p := exOneVoid) rfl sameOrder search ⟨[], none⟩ none
    (fun g _ => g.maxOf? 0 = some (.exact 408)) (by decide +kernel)
  have hstmt : ∀ i s, exOneVoid.Contains i s →
      s = .indirectCall (exFmtSig (.alias c!"core::fmt::Void")) := by
    rintro i s ⟨d, hd, _, hs⟩
    simp only [exOneVoid, List.mem_cons, List.not_mem_nil, or_false] at hd
    rcases hd with rfl | rfl | rfl | rfl <;> simp at hs
    exact hs
  have hsig : ∀ j sig v, exOneVoid.DefinedSig j sig ∨ exOneVoid.DeclaredSig j sig → sig.Formats v →
      c!"core::fmt::Void" <+: v → v = c!"core::fmt::Void" := by
    rintro j sig v (⟨d, hd, _, rfl⟩ | ⟨d, hd, _⟩) ⟨h2, _⟩ h3
    · simp only [exOneVoid, List.mem_cons, List.not_mem_nil, or_false] at hd
      rcases hd with rfl | rfl | rfl | rfl <;> simp [exSig, exFmtSig] at h2
      · exact h2.symm
      · exact h2.symm
      · rw [← h2] at h3
        exact absurd h3 (by decide)
    · simp [exOneVoid, exTwoVoids] at hd
  refine Exists.elim (C76_order_irrelevant_partial same (namesOnce_of (by decide))
    (by unfold Program.DefinesOnce; decide) (by unfold Program.DeclaresOnce; decide) ?_ ?_ ?_ ?_
    (noHash_of (by decide +kernel)) h0 ord) ?_
  rotate_left 4
  · rintro g ⟨cycles, h, h2, _⟩
    refine ⟨g, cycles, h, ?_⟩
    unfold Graph.maxOf? at h1 ⊢
    rw [(h2 0 (by decide)).2]
    exact h1
  · refine orderSafe_of ⟨fun r _ => Or.inr ⟨fun i hc => ?_, fun _ i hc => ?_⟩, Or.inr fun i hc => ?_⟩ <;>
      exact absurd (hstmt _ _ hc) (by simp)
  · intro j j' sig sig' v v' h2 h3 h4 h5 h6 h7
    rw [hsig _ _ _ h2 h4 h6, hsig _ _ _ h3 h5 h7]
  · intro n k hn
    simp only [Program.Reported, exOneVoid, exTwoVoids, mget] at hn
    split_ifs at hn <;> simp only [Option.some.injEq] at hn <;> omega
  · intro a b hh
    simp at hh

end CallStack
