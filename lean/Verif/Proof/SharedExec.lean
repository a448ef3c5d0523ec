import Verif.Proof.SharedLocal
import Verif.Proof.Exec

/-! Lemmas for C116: executions of programs with functions of the same names. -/

namespace CallStack

theorem Reach.chain_mem {E : Nat → Nat → Prop} {v u : Nat} (h : Reach E v u) : ∃ l, CallChain E v l ∧ u ∈ l := by
  induction h with
  | refl a => exact ⟨[a], .single a, by simp⟩
  | @step a b c e _ ih =>
    obtain ⟨l, h1, h2⟩ := ih
    exact ⟨a :: l, .call e h1, List.mem_cons_of_mem _ h2⟩

theorem ActivePath.map {E F : Nat → Nat → Prop} {L : Nat → Nat} {i : Nat} {l : List Nat} (h : ActivePath E i l) :
    (∀ u w, u ∈ l → E u w → F (L u) (L w)) → ActivePath F (L i) (l.map L) := by
  induction h with
  | entry => exact fun _ => .entry
  | @call u w l _ hw ih =>
    intro hEF
    exact .call (ih fun a b ha => hEF a b (List.mem_cons_of_mem _ ha)) (hEF u w (by simp) hw)

section loop

variable {m : Nat} {st0 : Build} {search : TagSearch} {v7 : Bool} {tags : List (Nat × Tag)} {stext : Nat}
  {text : List Nat}

/-- The figure of a node with a single function is chosen once. -/
theorem machineLoop_alone (hidx : ∀ (n : Str) (k : Nat), mget n st0.indices = some k → k < m) {i : Nat} (him : i < m)
    {c : Str} {e : Nat × Sym} (hno : NodeOf st0 e c i) {r : ThumbState}
    (han : Analyzed search v7 tags stext text e r) (es : List (Nat × Sym)) : ∀ {j : Nat}, es[j]? = some e →
    (∀ k e' c', es[k]? = some e' → NodeOf st0 e' c' i → k = j) → ∀ {st st' : Build}, MachineInv m st0 st →
      machineLoop search v7 tags stext text st es = .ok st' →
      ∃ nd nd', st.g.nodes[i]? = some nd ∧ st'.g.nodes[i]? = some nd' ∧
        overrideLocal nd.loc r.stack r.modifiesSp (st0.asmFns.contains c) (isOutlined c) = .ok nd'.loc := by
  induction es with
  | nil =>
    intro j he
    simp at he
  | cons e' es ih =>
    intro j he alone st st' inv h
    unfold machineLoop at h
    split at h
    · simp at h
    · rename_i st1 h1
      obtain ⟨inv1, c', i', r', hno', han', hu⟩ := machineStep_spec inv hidx h1
      cases j with
      | zero =>
        simp only [List.getElem?_cons_zero, Option.some.injEq] at he
        subst he
        obtain ⟨rfl, rfl⟩ := hno.unique hno'
        obtain rfl := han.unique han'
        obtain ⟨nd0, nd1, h2, h3, h4⟩ := hu.loc
        rw [inv.asmFns] at h4
        refine ⟨nd0, nd1, h2, ?_, h4⟩
        rw [← h3]
        refine (machineLoop_spec hidx es inv1 h).2.other i (List.getElem?_eq_some_iff.mp h3).1 ?_
        intro e2 he2 c2 i2 hno2 hii
        subst hii
        obtain ⟨k, hk⟩ := List.getElem?_of_mem he2
        have := alone (k + 1) e2 c2 (by simpa using hk) hno2
        omega
      | succ j =>
        have hne : i' ≠ i := by
          rintro rfl
          have := alone 0 e' c' (by simp) hno'
          omega
        obtain ⟨nd0, nd1, h2, h3, h4⟩ := ih (by simpa using he) (fun k e'' c'' hk hn => by
          have := alone (k + 1) e'' c'' (by simpa using hk) hn
          omega) inv1 h
        refine ⟨nd0, nd1, ?_, h3, h4⟩
        rw [← h2]
        exact (hu.other i (fun h => hne h.symm) (Nat.lt_of_lt_of_le him inv.len)).symm

end loop

section

variable {demangle : Str → Str} {ord : HashOrder} {search : TagSearch} {p : Program} {elf : Elf}
  {cs : List Str} {st0 stIr st : Build} {g g' : Graph} {cycles : List (List Nat)}

/-- What an exact max says of chains of edges. -/
theorem SharedFacts.exact (f : SharedFacts demangle ord search p elf cs st0 stIr st g) (sizes : p.SizesU64)
    (fits : elf.Fits32) (h2 : FinalFacts st.hasStackUsageInfo g g' cycles) {m n : Nat}
    (hmax : g'.maxOf? m = some (.exact n)) {l : List Nat} (hl : CallChain g.Calls m l) :
    (∀ u ∈ l, (g.locOf u).Known) ∧ weight g.locOf l ≤ n := by
  have hu := f.u64 sizes fits
  obtain ⟨hcalls, hlocs⟩ := h2.calls f.wf hu
  obtain ⟨g1, ha, he, hloc, hmx⟩ := h2.analysis
  have hcalls1 : g1.Calls = g.Calls := by
    rw [← hcalls]
    funext a b
    simp [Graph.Calls, he]
  have hlocs1 : g1.locOf = g.locOf := by
    funext a
    rw [← hloc, hlocs]
  cases hinfo : st.hasStackUsageInfo with
  | false =>
    rw [hinfo] at ha
    unfold analyzeMax at ha
    simp only [Bool.not_false, if_true, Except.ok.injEq, Prod.mk.injEq] at ha
    obtain ⟨rfl, _⟩ := ha
    rw [hmx] at hmax
    unfold Graph.maxOf? at hmax
    cases hn : g.nodes[m]? with
    | none => rw [hn] at hmax; simp at hmax
    | some nd =>
      rw [hn] at hmax
      simp only at hmax
      rw [f.max_none hn] at hmax
      simp at hmax
  | true =>
    rw [hinfo] at ha
    rw [hmx] at hmax
    have := C01_exact_max_sound f.wf hu ha hmax (l := l) (by rw [hcalls1]; exact hl)
    rw [hlocs1] at this
    exact this

/-- A call through a register without LLVM-IR leads to an unknown node. -/
theorem SharedFacts.question (f : SharedFacts demangle ord search p elf cs st0 stIr st g) (alike : p.NamesAlike)
    (ht : p.target.isThumb = true) {i address size : Nat} {r : ThumbState} (hd : p.Decoded search elf i address size r)
    (hind : r.indirect = true) (hno : p.NoIr i) :
    ∃ a k, p.LastOf i a ∧ g.Calls a k ∧ g.locOf k = .unknown := by
  obtain ⟨ai, si, stext, text, hi, hx, _⟩ := decoded_iff.mp hd
  obtain ⟨han, rfl, rfl⟩ := analyzed_of hi hx hd
  obtain ⟨_, mf⟩ := f.loop stext text ht hx
  obtain ⟨c, a, r', hn, han', _, hq⟩ := mf.complete _ (List.mem_of_getElem? hi)
  obtain rfl := han.unique han'
  obtain ⟨hc, hla⟩ := f.nodeOf alike hi hn
  obtain ⟨c', hc', _, hcm⟩ := f.canon_at hi
  rw [hc] at hc'
  cases hc'
  have hnd : c ∉ stIr.defined := by
    intro hm
    obtain ⟨d, hd, hal⟩ := f.ir.defined c hm
    obtain ⟨i', e', h1, h2, h3⟩ := f.sym.aliases_some d.name c hal
    obtain ⟨h4, _⟩ := canonicalOf_spec (f.sym.canon i' e' c h1 h2)
    have := alike i' i e'.1 e'.2 ai si c h1 hi ((mem_realNames _ _).mp h4) ((mem_realNames _ _).mp hcm)
    have h5 := (mem_realNames _ _).mp h3
    exact hno d hd ⟨ai, si, hi, this ▸ h5.1, h5.2⟩
  obtain ⟨k, _, h3, h4⟩ := hq hnd hind
  refine ⟨a, k, hla, f.edge_machine h4, ?_⟩
  obtain ⟨ns, hns⟩ := f.out.nodes
  unfold Graph.locOf
  rw [hns, List.getElem?_append_left (List.getElem?_eq_some_iff.mp h3).1, h3]
  rfl

/-- The policy of C50 for a function that has its names for itself. -/
theorem SharedFacts.policy (f : SharedFacts demangle ord search p elf cs st0 stIr st g) (alike : p.NamesAlike)
    (ht : p.target.isThumb = true) {i address size : Nat} {r : ThumbState} (hd : p.Decoded search elf i address size r)
    (alone : p.Alone i) :
    p.LastOf i i ∧ ∃ llvm name asm, p.FrameOpt i llvm ∧ p.Principal i name ∧
      LocalPolicy (r.modifiesSp = true) asm (OutlinedName name) llvm r.stack (g.locOf i) := by
  obtain ⟨ai, si, stext, text, hi, hx, _⟩ := decoded_iff.mp hd
  obtain ⟨han, rfl, rfl⟩ := analyzed_of hi hx hd
  obtain ⟨hloop, mf⟩ := f.loop stext text ht hx
  obtain ⟨c, a, r', hn, _⟩ := mf.complete _ (List.mem_of_getElem? hi)
  obtain ⟨hc, hla⟩ := f.nodeOf alike hi hn
  obtain rfl : a = i := by
    obtain ⟨_, _, _, t, e1, e2, e3, _⟩ := hla
    exact alone a _ _ _ _ e1 e2 e3
  obtain ⟨c', hc', hcan, _⟩ := f.canon_at hi
  rw [hc] at hc'
  cases hc'
  obtain ⟨m', hm', hl'⟩ := f.lookup alike hi hc
  obtain rfl := Program.LastOf.unique hl' hla
  have hmlt := f.ir.lt c m' (f.ir.indices _ _ hm')
  obtain ⟨nd, nd', h1, h2, h3⟩ := machineLoop_alone f.ir.lt hmlt hn han p.defined hi (fun k e' c' hk hn' => by
    obtain ⟨_, h4⟩ := f.nodeOf alike hk hn'
    obtain ⟨_, _, _, _, e1, e2, e3, _⟩ := h4
    exact alone k _ _ _ _ e2 e1 e3.symm) (MachineInv.init rfl f.ir.wf f.ir.seen) hloop
  have hnode : nd = mkNode c (mget c p.stackSizes) false := by
    obtain ⟨ext, he⟩ := f.ir.nodes
    have h0 : (cs.map (fun c => mkNode c (mget c p.stackSizes) false))[m']? =
        some (mkNode c (mget c p.stackSizes) false) := by
      rw [List.getElem?_map, hc]
      rfl
    rw [he, f.sym.nodes, List.getElem?_append_left (List.getElem?_eq_some_iff.mp h0).1, h0] at h1
    exact (Option.some.inj h1).symm
  have hloc : nd.loc = match mget c p.stackSizes with | some n => .exact n | none => .unknown := by
    rw [hnode]
    rfl
  rw [hloc] at h3
  have h6 := (C50_override_policy _ _ _ _ _ _).mp h3
  have hg : g.locOf m' = nd'.loc := by
    obtain ⟨ns, hns⟩ := f.out.nodes
    unfold Graph.locOf
    rw [hns, List.getElem?_append_left (List.getElem?_eq_some_iff.mp h2).1, h2]
  rw [isOutlined_iff, ← hg] at h6
  refine ⟨hla, mget c p.stackSizes, c, _, ?_, (principal_iff hi hcan c).mpr rfl, h6⟩
  cases hm : mget c p.stackSizes with
  | none =>
    intro k hk
    rw [(frame_iff hi hcan k).mp hk] at hm
    simp at hm
  | some k => exact (frame_iff hi hcan k).mpr hm

/-- A known local usage bounds what an activation of any function of the names takes. -/
theorem SharedFacts.runs (f : SharedFacts demangle ord search p elf cs st0 stIr st g) (alike : p.NamesAlike)
    (ht : p.target.isThumb = true) {code : Nat → Nat × List CodeItem} {i m : Nat}
    (hc : p.HasCode search elf i (code i).1 (code i).2) (tame : TameCode (code i).2) (trust : p.FrameHolds code i)
    (settled : p.Settled code i) (hl : p.LastOf i m) (hk : (g.locOf m).Known) {pos : Nat} {d : Int}
    (hrun : CodeRuns (code i).2 pos d) : d ≤ (g.locOf m).bytes := by
  have hd := hc.decoded
  have hfit : CodeFits (p.target == .thumbv7m) (elfTags elf.symtab) (code i).1 (code i).2 := by
    obtain ⟨_, _, _, _, _, _, _, _, hm, _, _, _, _, hf⟩ := hc
    exact markers_iff.mp hm ▸ hf
  have hres := C44_instruction_sequence_partial (search := search) hfit
  have hours : ∀ k, (codeFacts (code i).2).stack = some k → d ≤ k := fun k hs =>
    C93_figure_bounds_executions_partial hfit tame hres hs hrun
  have hinside : (codeFacts (code i).2).stack = none → BranchesInside (code i).2 := by
    intro hs
    by_contra hno
    have := ((C46_stack_sum_partial hfit hres).1 _).mpr ⟨fun pos i off h1 h2 h3 => hno
      ⟨pos, i, off, h1, h2, h3⟩, rfl⟩
    rw [hs] at this
    simp at this
  rcases settled with alone | ⟨strict, hframe⟩
  · obtain ⟨hi, llvm, name, asm, hf, hpr, hpol⟩ := f.policy alike ht hd alone
    obtain rfl := Program.LastOf.unique hi hl
    have hzero : (codeFacts (code i).2).modifiesSp = false → d ≤ 0 := fun hs =>
      C93_untouched_partial hfit tame hres hs hrun
    generalize hs : (codeFacts (code i).2).stack = ours at hpol hours hinside
    generalize hlo : g.locOf i = l at hpol hk ⊢
    cases hpol with
    | ours k _ => exact hours k rfl
    | zero h0 => exact hzero (by simpa using h0)
    | giveUp _ => exact hk.elim
    | only n _ => exact trust n hf (.inl (hinside rfl)) pos d hrun
    | agree n _ => exact hours n rfl
    | asm n k _ _ _ => exact hours k rfl
    | outlinedZero k _ _ _ _ => exact hours k rfl
    | outlined n k _ _ _ _ ho _ => exact trust n hf (.inr ⟨name, hpr, ho⟩) pos d hrun
  · cases hs : (codeFacts (code i).2).stack with
    | some k =>
      rw [f.uses alike hl strict (.inl ⟨ht, _, _, _, hd, hs⟩)]
      exact hours k hs
    | none =>
      obtain ⟨k, hfk⟩ := hframe (hinside hs)
      rw [f.uses alike hl strict (.inr hfk)]
      exact trust k hfk (.inl (hinside hs)) pos d hrun

/-- The local usage of a function that is not the last one of its names is the figure of the compiler. -/
theorem SharedFacts.shadowed_loc (f : SharedFacts demangle ord search p elf cs st0 stIr st g) (alike : p.NamesAlike)
    {i m : Nat} (hl : p.LastOf i m) (hne : i ≠ m) :
    (∀ k, p.Frame i k → g.locOf i = .exact k) ∧ ((∀ k, ¬ p.Frame i k) → g.locOf i = .unknown) := by
  obtain ⟨ai, si, am, sm, hi, hm, hnames, hlast⟩ := id hl
  obtain ⟨c, hc, hcan, _⟩ := f.canon_at hi
  have hnode : stIr.g.nodes[i]? = some (mkNode c (mget c p.stackSizes) false) := by
    obtain ⟨ext, he⟩ := f.ir.nodes
    have h0 : (cs.map (fun c => mkNode c (mget c p.stackSizes) false))[i]? =
        some (mkNode c (mget c p.stackSizes) false) := by
      rw [List.getElem?_map, hc]
      rfl
    rw [he, f.sym.nodes, List.getElem?_append_left (List.getElem?_eq_some_iff.mp h0).1, h0]
  have hst : st.g.nodes[i]? = some (mkNode c (mget c p.stackSizes) false) := by
    rw [← hnode]
    by_cases ht : p.target.isThumb = true
    · cases hx : elf.text with
      | none =>
        have := f.pass
        unfold machinePass at this
        rw [if_pos ht, hx] at this
        cases this
        rfl
      | some x =>
        obtain ⟨stext, text⟩ := x
        refine (f.loop stext text ht hx).2.other i (List.getElem?_eq_some_iff.mp hnode).1 ?_
        rintro e he c' i' hno rfl
        obtain ⟨j, hj⟩ := List.getElem?_of_mem he
        obtain ⟨_, hlj⟩ := f.nodeOf alike hj hno
        obtain ⟨_, sj, _, s', e1, e2, e3, e4⟩ := hlj
        rw [hi] at e2
        cases e2
        have hlt : i' < m := by
          rcases Nat.lt_trichotomy i' m with h4 | h4 | h4
          · exact h4
          · exact absurd h4 hne
          · exact absurd rfl (hlast i' _ _ h4 hi)
        exact e4 m _ _ hlt hm (by rw [hnames, e3])
    · have := f.pass
      unfold machinePass at this
      rw [if_neg ht] at this
      cases this
      rfl
  have hg : g.locOf i = (mkNode c (mget c p.stackSizes) false).loc := by
    obtain ⟨ns, hns⟩ := f.out.nodes
    unfold Graph.locOf
    rw [hns, List.getElem?_append_left (List.getElem?_eq_some_iff.mp hst).1, hst]
  constructor
  · intro k hk
    rw [hg, (frame_iff hi hcan k).mp hk]
    rfl
  · intro hk
    cases hs : mget c p.stackSizes with
    | none =>
      rw [hg, hs]
      rfl
    | some k => exact absurd ((frame_iff hi hcan k).mpr hs) (hk k)

end

end CallStack
