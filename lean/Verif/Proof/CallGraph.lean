import Verif.Model.Run
import Verif.Proof.Machine

/-!
The call graph before filtering: results of the four passes put together.
-/

namespace CallStack

/-- The pass over the machine code did something. -/
structure MachineRan (search : TagSearch) (p : Program) (elf : Elf) (stIr st : Build) : Prop where
  thumb : p.target.isThumb = true
  facts : ∃ stext text, elf.text = some (stext, text) ∧
    MachineFacts stIr search (p.target == .thumbv7m) (elfTags elf.symtab) stext text p.defined stIr st

/-- Everything known about a successful run up to the unfiltered call graph. -/
structure RunFacts (demangle : Str → Str) (ord : HashOrder) (search : TagSearch) (p : Program)
    (elf : Elf) (cs ext : List Str) (st0 stIr st : Build) (g : Graph) : Prop where
  irOk : irGraph demangle p = .ok stIr
  ir : IrFacts demangle p cs ext st0 stIr
  machine : MachineInv (cs ++ ext).length stIr st
  ran : st = stIr ∨ MachineRan search p elf stIr st
  quiet : p.target.isThumb = false → st = stIr
  void : ∃ void, IndirectOut st.hasUntypedSymbols st.fmts void st.g (ord.perm _ 1 st.indirects) g
  graph : g = addIndirects ord st
  pass : machinePass search p elf stIr = .ok st
  out : IndirectOut st.hasUntypedSymbols st.fmts
    (oneTrueVoid ((ord.perm _ 0 st.indirects).filterMap (fun e => maybeVoid e.1))) st.g
    (ord.perm _ 1 st.indirects) g

theorem irFacts_length {demangle : Str → Str} {p : Program} {cs ext : List Str} {st0 st : Build}
    (h : IrFacts demangle p cs ext st0 st) : st.g.nodes.length = (cs ++ ext).length := by
  rw [h.ir.shape.nodes]
  simp [h.ir.shape.blen]

theorem indirect_mem {demangle : Str → Str} {p : Program} {cs ext : List Str} {st0 st : Build}
    (h : IrFacts demangle p cs ext st0 st) {e : FnSig × Indirect} (he : e ∈ st.indirects) :
    ∃ i0, (e.1, i0) ∈ st0.indirects ∧ i0.callees = e.2.callees := by
  have := List.mem_map_of_mem (f := fun e => (e.1, e.2.callees)) he
  rw [h.ir.sigs] at this
  obtain ⟨e0, h0, h1⟩ := List.mem_map.mp this
  simp only [Prod.mk.injEq] at h1
  refine ⟨e0.2, ?_, h1.2⟩
  rw [← h1.1]
  exact h0

theorem indirect_mem' {demangle : Str → Str} {p : Program} {cs ext : List Str} {st0 st : Build}
    (h : IrFacts demangle p cs ext st0 st) {e : FnSig × Indirect} (he : e ∈ st0.indirects) :
    ∃ i0, (e.1, i0) ∈ st.indirects ∧ i0.callees = e.2.callees := by
  have := List.mem_map_of_mem (f := fun e => (e.1, e.2.callees)) he
  rw [← h.ir.sigs] at this
  obtain ⟨e0, h0, h1⟩ := List.mem_map.mp this
  simp only [Prod.mk.injEq] at h1
  refine ⟨e0.2, ?_, h1.2⟩
  rw [← h1.1]
  exact h0

/-- The callees registered for a signature. -/
theorem callees_iff {demangle : Str → Str} {p : Program} {cs ext : List Str} {st0 st : Build}
    (h : IrFacts demangle p cs ext st0 st) {e : FnSig × Indirect} (he : e ∈ st.indirects) (j : Nat) :
    j ∈ e.2.callees ↔ ∃ s, p.defined[j]? = some s ∧ symSig p (realNames s.2) = some e.1 := by
  obtain ⟨i0, h0, h1⟩ := indirect_mem h he
  rw [← h1, ← h.sym.callee]
  unfold Callee
  constructor
  · intro hj
    exact ⟨i0, h0, hj⟩
  · rintro ⟨i1, h2, h3⟩
    have e1 := mget_of_mem (k := e.1) (v := i0) h.sym.keys h0
    have e2 := mget_of_mem (k := e.1) (v := i1) h.sym.keys h2
    rw [e1] at e2
    rw [Option.some.inj e2]
    exact h3

theorem callGraph_facts {demangle : Str → Str} {ord : HashOrder} {search : TagSearch} {p : Program}
    {elf : Elf} {st : Build} {g : Graph} (once : p.NamesOnce)
    (h : callGraph demangle ord search p elf = .ok (st, g)) :
    ∃ (cs ext : List Str) (st0 stIr : Build),
      RunFacts demangle ord search p elf cs ext st0 stIr st g := by
  unfold callGraph at h
  split at h
  · simp at h
  · rename_i stIr hir
    obtain ⟨cs, ext, st0, ir⟩ := irGraph_facts once hir
    split at h
    · simp at h
    · rename_i st' hm
      simp only [Except.ok.injEq, Prod.mk.injEq] at h
      obtain ⟨rfl, rfl⟩ := h
      have hlen := irFacts_length ir
      have hidx : ∀ (n : Str) (k : Nat), mget n stIr.indices = some k → k < (cs ++ ext).length :=
        fun n k hk => ir.ir.shape.lt hk
      have hwf : ∀ x ∈ stIr.g.edges, x.1 < (cs ++ ext).length ∧ x.2 < (cs ++ ext).length := by
        intro x hx
        have := ir.ir.shape.wf x hx
        refine ⟨?_, this.2⟩
        rw [List.length_append]
        omega
      have init := MachineInv.init hlen hwf ir.ir.shape.seen
      have hmach : MachineInv (cs ++ ext).length stIr st' ∧
          (st' = stIr ∨ MachineRan search p elf stIr st') ∧
          (p.target.isThumb = false → st' = stIr) := by
        unfold machinePass at hm
        split at hm
        · rename_i ht
          split at hm
          · simp only [Except.ok.injEq] at hm
            subst hm
            exact ⟨init, Or.inl rfl, fun _ => rfl⟩
          · rename_i stext text hx
            obtain ⟨i1, i2⟩ := machineLoop_spec hidx p.defined init hm
            exact ⟨i1, Or.inr ⟨ht, stext, text, hx, i2⟩, fun hf => by rw [hf] at ht; simp at ht⟩
        · simp only [Except.ok.injEq] at hm
          subst hm
          exact ⟨init, Or.inl rfl, fun _ => rfl⟩
      refine Exists.elim (p := fun (_ : True) => _) ⟨trivial, ?_⟩ fun _ out =>
        ⟨cs, ext, st0, stIr, hir, ir, hmach.1, hmach.2.1, hmach.2.2, ⟨_, out⟩, rfl, hm, out⟩
      unfold addIndirects
      refine indirectLoop_spec ord _ _ _ (cs ++ ext).length ?_ _ _ 0 hmach.1.len ?_ ?_
      · intro i hi
        rw [hmach.1.fmts, ir.ir.fmts] at hi
        obtain ⟨e, _, h1, _⟩ := (ir.sym.fmts i).mp hi
        have := (List.getElem?_eq_some_iff.mp h1).1
        rw [← ir.sym.len] at this
        rw [List.length_append]
        omega
      · intro x hx
        have h1 := hmach.1.wf x hx
        have h2 := hmach.1.len
        omega
      · intro e he
        rw [(ord.isPerm _ _ _).mem_iff, hmach.1.indirects] at he
        constructor
        · intro i hi
          obtain ⟨sig, h1, _⟩ := (ir.ir.callers e he i).mp hi
          have := ir.ir.callerReal i _ h1
          rw [List.length_append]
          omega
        · intro i hi
          obtain ⟨s, h1, _⟩ := (callees_iff ir he i).mp hi
          have := (List.getElem?_eq_some_iff.mp h1).1
          rw [← ir.sym.len] at this
          rw [List.length_append]
          omega

section facts

variable {demangle : Str → Str} {ord : HashOrder} {search : TagSearch} {p : Program} {elf : Elf}
  {cs ext : List Str} {st0 stIr st : Build} {g : Graph}

theorem RunFacts.edges_ir (h : RunFacts demangle ord search p elf cs ext st0 stIr st g) {x : Nat × Nat}
    (hx : x ∈ stIr.g.edges) : x ∈ g.edges := by
  obtain ⟨es, h1⟩ := h.machine.edges
  obtain ⟨void, out⟩ := h.void
  obtain ⟨es', h2, _⟩ := out.edges
  rw [h2, h1]
  simp [hx]

theorem RunFacts.len (h : RunFacts demangle ord search p elf cs ext st0 stIr st g) :
    (cs ++ ext).length ≤ st.g.nodes.length ∧ st.g.nodes.length ≤ g.nodes.length := by
  obtain ⟨void, out⟩ := h.void
  obtain ⟨ns, h1⟩ := out.nodes
  refine ⟨h.machine.len, ?_⟩
  rw [h1, List.length_append]
  omega

theorem RunFacts.live_length (h : RunFacts demangle ord search p elf cs ext st0 stIr st g) :
    cs.length = p.defined.length := h.ir.sym.len

/-- A node of the graph before the fictitious nodes were added keeps everything but its local usage. -/
theorem RunFacts.node (h : RunFacts demangle ord search p elf cs ext st0 stIr st g) {k : Nat}
    {name : Str} (hk : (cs ++ ext)[k]? = some name) :
    ∃ nd, g.nodes[k]? = some nd ∧ nd.name = name ∧ nd.dashed = false ∧ nd.max = none := by
  have hlt := (List.getElem?_eq_some_iff.mp hk).1
  obtain ⟨nd0, nd, h1, h2, h3⟩ := h.machine.old k hlt
  obtain ⟨void, out⟩ := h.void
  obtain ⟨ns, hn⟩ := out.nodes
  have h0 : nd0.name = name ∧ nd0.dashed = false ∧ nd0.max = none := by
    rw [h.ir.ir.shape.nodes, h.ir.sym.nodes] at h1
    by_cases hc : k < cs.length
    · rw [List.getElem?_append_left (by simpa using hc)] at h1
      rw [List.getElem?_append_left hc] at hk
      rw [List.getElem?_map, hk] at h1
      simp only [Option.map_some, Option.some.injEq] at h1
      subst h1
      exact ⟨rfl, rfl, rfl⟩
    · rw [List.getElem?_append_right (by simpa using hc)] at h1
      rw [List.getElem?_append_right (by omega)] at hk
      rw [List.length_map, List.getElem?_map, hk] at h1
      simp only [Option.map_some, Option.some.injEq] at h1
      subst h1
      exact ⟨rfl, rfl, rfl⟩
  refine ⟨nd, ?_, ?_⟩
  · rw [hn, List.getElem?_append_left (List.getElem?_eq_some_iff.mp h2).1]
    exact h2
  · rw [h3]
    exact h0

/-- The local usage of nodes that are no live functions is unknown. -/
theorem RunFacts.ext_unknown (h : RunFacts demangle ord search p elf cs ext st0 stIr st g) {k : Nat}
    {name : Str} (hk : (cs ++ ext)[k]? = some name) (hc : cs.length ≤ k) :
    g.nodes[k]? = some (mkNode name none false) := by
  have hlt := (List.getElem?_eq_some_iff.mp hk).1
  have h1 : stIr.g.nodes[k]? = some (mkNode name none false) := by
    rw [h.ir.ir.shape.nodes, h.ir.sym.nodes, List.getElem?_append_right (by simpa using hc)]
    rw [List.getElem?_append_right hc] at hk
    rw [List.length_map, List.getElem?_map, hk]
    rfl
  have h2 : st.g.nodes[k]? = some (mkNode name none false) := by
    rcases h.ran with hr | hr
    · rw [hr]; exact h1
    · obtain ⟨stext, text, _, f⟩ := hr.facts
      rw [f.other k (List.getElem?_eq_some_iff.mp h1).1 ?_]
      · exact h1
      · intro e he c i hno
        obtain ⟨first, rest, hn1, hn2, hn3⟩ := hno
        rw [h.ir.ir.aliases] at hn2
        obtain ⟨i', e', h4, h5, h6⟩ := h.ir.sym.aliases_some first c hn2
        have hi' := (List.getElem?_eq_some_iff.mp h5).1
        have : (cs ++ ext)[i']? = some c := by
          rw [List.getElem?_append_left hi']; exact h5
        rw [h.ir.ir.shape.idx] at hn3
        have := h.ir.ir.shape.idx.inj hn3 this
        omega
  obtain ⟨void, out⟩ := h.void
  obtain ⟨ns, hn⟩ := out.nodes
  rw [hn, List.getElem?_append_left (List.getElem?_eq_some_iff.mp h2).1]
  exact h2

end facts

theorem RunFacts.info_iff {demangle : Str → Str} {ord : HashOrder} {search : TagSearch} {p : Program} {elf : Elf}
    {cs ext : List Str} {st0 stIr st : Build} {g : Graph}
    (r : RunFacts demangle ord search p elf cs ext st0 stIr st g) :
    st.hasStackUsageInfo = true ↔ ∃ i k, p.Frame i k := by
  rw [r.machine.info, r.ir.ir.info, r.ir.sym.info]
  constructor
  · rintro ⟨c, hc, hs⟩
    obtain ⟨i, hi⟩ := List.getElem?_of_mem hc
    obtain ⟨k, hk⟩ := Option.isSome_iff_exists.mp hs
    have hlt : i < p.defined.length := by
      rw [← r.ir.sym.len]
      exact (List.getElem?_eq_some_iff.mp hi).1
    have he := List.getElem?_eq_getElem hlt
    exact ⟨i, k, (frame_iff he (r.ir.sym.canon i _ c he hi) k).mpr hk⟩
  · rintro ⟨i, k, hf⟩
    obtain ⟨a, s, _, _, _, he, _⟩ := id hf
    have hlt : i < cs.length := by
      rw [r.ir.sym.len]
      exact (List.getElem?_eq_some_iff.mp he).1
    have hi := List.getElem?_eq_getElem hlt
    refine ⟨cs[i], List.mem_of_getElem? hi, ?_⟩
    rw [(frame_iff he (r.ir.sym.canon i _ _ he hi) k).mp hf]
    rfl

end CallStack
