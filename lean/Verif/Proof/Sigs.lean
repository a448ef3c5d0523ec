import Verif.Proof.Final

/-!
Which signatures are registered for the live functions, and the fictitious nodes of the call graph.
-/

namespace CallStack

theorem isFmtSig_iff (sig : FnSig) : isFmtSig sig = true ↔ sig.FmtShape := by
  unfold isFmtSig FnSig.FmtShape
  split
  · rename_i t fmt out h1 h2
    rw [h1, h2]
    simp
  · rename_i h
    constructor
    · simp
    · rintro ⟨⟨t, h1⟩, h2⟩
      exact absurd h2 (h _ _ _ h1)

theorem isFormatter_fmt {void : Option Str} {sig : FnSig} (h : isFormatter void sig = true) :
    sig.FmtShape := by
  unfold isFormatter at h
  split at h
  · simp at h
  · unfold FnSig.FmtShape
    split at h
    · rename_i v _ t fmt out h1 h2
      rw [h1, h2]
      simp only [Bool.and_eq_true, beq_iff_eq] at h
      simp [h]
    · simp at h

theorem getDefine_some {ds : List Define} {n : Str} {d : Define} (h : getDefine ds n = some d) :
    d ∈ ds ∧ d.name = n := by
  unfold getDefine at h
  exact ⟨List.mem_of_find?_eq_some h, by simpa using List.find?_some h⟩

theorem getDefine_ne {ds : List Define} {d : Define} (h : d ∈ ds) : getDefine ds d.name ≠ none := by
  unfold getDefine
  intro hn
  simpa using List.find?_eq_none.mp hn d h

theorem firstDefine_some {p : Program} {j : Nat} {e : Nat × Sym} {d : Define}
    (he : p.defined[j]? = some e) (h : firstDefine p.defines (realNames e.2) = some d) :
    p.DefinedSig j d.sig := by
  unfold firstDefine at h
  have hm := List.mem_of_head? h
  obtain ⟨n, h1, h2⟩ := List.mem_filterMap.mp hm
  obtain ⟨h3, h4⟩ := getDefine_some h2
  exact ⟨d, h3, (liveAt_iff p _ j).mpr ⟨e, he, h4 ▸ h1⟩, rfl⟩

theorem firstDefine_none {p : Program} {j : Nat} {e : Nat × Sym} (he : p.defined[j]? = some e) :
    firstDefine p.defines (realNames e.2) = none ↔ ∀ sig, ¬ p.DefinedSig j sig := by
  unfold firstDefine
  rw [List.head?_eq_none_iff, List.filterMap_eq_nil_iff]
  constructor
  · rintro h sig ⟨d, h1, h2, _⟩
    obtain ⟨e', h3, h4⟩ := (liveAt_iff p _ j).mp h2
    rw [he] at h3
    have := Option.some.inj h3
    subst this
    exact getDefine_ne h1 (h _ h4)
  · intro h n hn
    cases hg : getDefine p.defines n with
    | none => rfl
    | some d =>
      obtain ⟨h3, h4⟩ := getDefine_some hg
      exact absurd ⟨d, h3, (liveAt_iff p _ j).mpr ⟨e, he, h4 ▸ hn⟩, rfl⟩ (h d.sig)

theorem firstDeclared_some {p : Program} {j : Nat} {e : Nat × Sym} {sig : FnSig}
    (he : p.defined[j]? = some e) (h : firstDeclared p.declares (realNames e.2) = some sig) :
    p.DeclaredSig j sig := by
  unfold firstDeclared at h
  have hm := List.mem_of_head? h
  obtain ⟨n, h1, h2⟩ := List.mem_filterMap.mp hm
  obtain ⟨d, h3, h4⟩ := Option.bind_eq_some_iff.mp h2
  unfold getDeclare at h3
  have h5 : d.name = n := by simpa using List.find?_some h3
  exact ⟨d, List.mem_of_find?_eq_some h3, (liveAt_iff p _ j).mpr ⟨e, he, h5 ▸ h1⟩, h4⟩

theorem getDeclare_of_mem {p : Program} (once : p.DeclaresOnce) {d : Declare} (h : d ∈ p.declares) :
    getDeclare p.declares d.name = some d := by
  unfold getDeclare
  cases hf : p.declares.find? (fun d' => d'.name = d.name) with
  | none => simpa using List.find?_eq_none.mp hf d h
  | some d' =>
    have h1 : d'.name = d.name := by simpa using List.find?_some hf
    rw [List.inj_on_of_nodup_map once (List.mem_of_find?_eq_some hf) h h1]

theorem firstDeclared_none {p : Program} (once : p.DeclaresOnce) {j : Nat} {e : Nat × Sym}
    (he : p.defined[j]? = some e) :
    firstDeclared p.declares (realNames e.2) = none ↔ ∀ sig, ¬ p.DeclaredSig j sig := by
  constructor
  · rintro h sig ⟨d, h1, h2, h5⟩
    unfold firstDeclared at h
    rw [List.head?_eq_none_iff, List.filterMap_eq_nil_iff] at h
    obtain ⟨e', h3, h4⟩ := (liveAt_iff p _ j).mp h2
    rw [he] at h3
    have := Option.some.inj h3
    subst this
    have := h _ h4
    rw [getDeclare_of_mem once h1] at this
    simp [h5] at this
  · intro h
    cases hg : firstDeclared p.declares (realNames e.2) with
    | none => rfl
    | some sig => exact absurd (firstDeclared_some he hg) (h sig)

/-- The signature under which a function is registered. -/
theorem symSig_some {p : Program} {j : Nat} {e : Nat × Sym} {sig : FnSig}
    (he : p.defined[j]? = some e) (h : symSig p (realNames e.2) = some sig) :
    p.DefinedSig j sig ∨ ((∀ sig', ¬ p.DefinedSig j sig') ∧ p.DeclaredSig j sig) := by
  unfold symSig at h
  split at h
  · rename_i d hd
    have := Option.some.inj h
    subst this
    exact Or.inl (firstDefine_some he hd)
  · rename_i hd
    exact Or.inr ⟨(firstDefine_none he).mp hd, firstDeclared_some he h⟩

theorem symSig_none {p : Program} (once : p.DeclaresOnce) {j : Nat} {e : Nat × Sym}
    (he : p.defined[j]? = some e) :
    symSig p (realNames e.2) = none ↔ ∀ sig, ¬ p.DefinedSig j sig ∧ ¬ p.DeclaredSig j sig := by
  unfold symSig
  constructor
  · intro h
    split at h
    · simp at h
    · rename_i hd
      exact fun sig => ⟨(firstDefine_none he).mp hd sig, (firstDeclared_none once he).mp h sig⟩
  · intro h
    rw [(firstDefine_none he).mpr (fun sig => (h sig).1)]
    exact (firstDeclared_none once he).mpr (fun sig => (h sig).2)

theorem DefinedSig.live {p : Program} {j : Nat} {sig : FnSig} (h : p.DefinedSig j sig) :
    ∃ e, p.defined[j]? = some e := by
  obtain ⟨d, _, ⟨a, s, h1, _⟩, _⟩ := h
  exact ⟨_, h1⟩

theorem DeclaredSig.live {p : Program} {j : Nat} {sig : FnSig} (h : p.DeclaredSig j sig) :
    ∃ e, p.defined[j]? = some e := by
  obtain ⟨d, _, ⟨a, s, h1, _⟩, _⟩ := h
  exact ⟨_, h1⟩

/-- A function with a single type is registered under it. -/
theorem symSig_typed {p : Program} (once : p.DeclaresOnce) {j : Nat} {sig : FnSig}
    (h : p.TypedAs j sig) : ∃ e, p.defined[j]? = some e ∧ symSig p (realNames e.2) = some sig := by
  have hlive : ∃ e, p.defined[j]? = some e := by
    rcases h with ⟨h, _⟩ | ⟨_, h, _⟩
    · exact DefinedSig.live h
    · exact DeclaredSig.live h
  obtain ⟨e, he⟩ := hlive
  refine ⟨e, he, ?_⟩
  cases hs : symSig p (realNames e.2) with
  | none =>
    have := (symSig_none once he).mp hs sig
    rcases h with ⟨h, _⟩ | ⟨_, h, _⟩
    · exact absurd h this.1
    · exact absurd h this.2
  | some sig' =>
    rcases symSig_some he hs with h1 | ⟨h1, h2⟩
    · rcases h with ⟨_, h⟩ | ⟨h, _⟩
      · rw [h _ h1]
      · exact absurd h1 (h _)
    · rcases h with ⟨h, _⟩ | ⟨_, _, h⟩
      · exact absurd h (h1 _)
      · rw [h _ h2]

section facts

variable {demangle : Str → Str} {ord : HashOrder} {search : TagSearch} {p : Program} {elf : Elf}
  {cs ext : List Str} {st0 stIr st : Build} {g : Graph}

/-- Functions of the formatting traits. -/
theorem RunFacts.fmt (h : RunFacts demangle ord search p elf cs ext st0 stIr st g) (j : Nat) :
    j ∈ st.fmts ↔ ∃ e d, p.defined[j]? = some e ∧
      firstDefine p.defines (realNames e.2) = some d ∧ d.sig.FmtShape := by
  rw [h.machine.fmts, h.ir.ir.fmts, h.ir.sym.fmts]
  simp only [isFmtSig_iff]

/-- Untyped symbols. -/
theorem RunFacts.untyped (h : RunFacts demangle ord search p elf cs ext st0 stIr st g)
    (once : p.DeclaresOnce) : st.hasUntypedSymbols = true ↔
      ∃ j n, p.Untyped j ∧ p.Principal j n ∧ isOutlined n = false := by
  rw [h.machine.untyped, h.ir.ir.untyped, h.ir.sym.untyped]
  constructor
  · rintro ⟨j, e, c, h1, h2, h3, h4⟩
    exact ⟨j, c, ⟨⟨c, h.ir.self c j h2⟩, (symSig_none once h1).mp h3⟩, h.ir.principal.mpr h2, h4⟩
  · rintro ⟨j, n, ⟨⟨m, hm⟩, h1⟩, h2, h3⟩
    obtain ⟨e, he, _⟩ := (liveAt_iff p _ j).mp hm
    exact ⟨j, e, n, he, h.ir.principal.mp h2, (symSig_none once he).mpr h1, h3⟩

/-- A registered signature that is called has a fictitious node. -/
theorem RunFacts.dashed (h : RunFacts demangle ord search p elf cs ext st0 stIr st g) {i j : Nat}
    {e : Nat × Sym} {sig sig' : FnSig} (hc : p.Contains i (.indirectCall sig))
    (he : p.defined[j]? = some e) (hs : symSig p (realNames e.2) = some sig')
    (hl : sig'.looselyEqual sig = true) :
    ∃ void k e', e'.1 = sig' ∧ j ∈ e'.2.callees ∧ i ∈ e'.2.callers ∧
      DashedFor st.hasUntypedSymbols st.fmts void e' g k := by
  obtain ⟨ind, h1, h2⟩ := (h.ir.sym.callee sig' j).mpr ⟨e, he, hs⟩
  obtain ⟨i0, h3, h4⟩ := indirect_mem' h.ir h1
  have hcallers := (h.ir.ir.callers _ h3 i).mpr ⟨sig, hc, hl⟩
  have hcalled := (h.ir.ir.called _ h3).mpr (List.ne_nil_of_mem hcallers)
  obtain ⟨void, out⟩ := h.void
  have hmem : (sig', i0) ∈ ord.perm _ 1 st.indirects := by
    rw [(ord.isPerm _ _ _).mem_iff, h.machine.indirects]
    exact h3
  obtain ⟨k, _, hk⟩ := out.called _ hmem hcalled
  exact ⟨void, k, _, rfl, by rw [h4]; exact h2, hcallers, hk⟩

/-- Every fictitious node belongs to a registered signature that is called. -/
theorem RunFacts.of_dashed (h : RunFacts demangle ord search p elf cs ext st0 stIr st g) {k : Nat}
    {nd : Node} (hk : g.nodes[k]? = some nd) (hd : nd.dashed = true) :
    ∃ void, ∃ e ∈ stIr.indirects, e.2.called = true ∧
      DashedFor st.hasUntypedSymbols st.fmts void e g k := by
  obtain ⟨void, out⟩ := h.void
  obtain ⟨ns, hn⟩ := out.nodes
  have hlt := (List.getElem?_eq_some_iff.mp hk).1
  by_cases h1 : k < (cs ++ ext).length
  · obtain ⟨nd', h2, _, h3, _⟩ := h.node (List.getElem?_eq_getElem h1)
    rw [hk] at h2
    have := Option.some.inj h2
    subst this
    rw [h3] at hd
    simp at hd
  · by_cases h2 : k < st.g.nodes.length
    · have h3 := h.machine.new k (by omega) h2
      rw [hn, List.getElem?_append_left h2, h3] at hk
      have := Option.some.inj hk
      subst this
      simp [questionNode, mkNode] at hd
    · rcases out.new k (by omega) hlt with ⟨e, h3, h4, h5⟩ | ⟨_, h3, _⟩
      · rw [(ord.isPerm _ _ _).mem_iff, h.machine.indirects] at h3
        exact ⟨void, e, h3, h4, h5⟩
      · rw [hk] at h3
        have := Option.some.inj h3
        subst this
        simp [questionNode, mkNode] at hd

end facts

end CallStack
