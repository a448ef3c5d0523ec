import Verif.Proof.Shared
import Verif.Proof.Calls
import Verif.Spec.Shared
import Verif.Spec.Dropped
import Verif.Props.Indirect
import Verif.Props.Machine

/-! Lemmas for C115: local usages of functions with the same names. -/

namespace CallStack

/-- Without inline assembly and outlining, a known figure stays and a figure of the code is taken. -/
theorem override_plain {l l' : Local} {s : Option Nat} {sp : Bool} (h : overrideLocal l s sp false false = .ok l') :
    (∀ n, l = .exact n → l' = .exact n) ∧ ∀ k, s = some k → l' = .exact k := by
  unfold overrideLocal at h
  split at h
  · cases h
  · split at h
    · rename_i n
      unfold overrideExact at h
      cases s with
      | none =>
        simp only at h
        split at h
        · cases h
        · cases h
          exact ⟨fun m hm => hm, fun k hk => by cases hk⟩
      | some k =>
        by_cases hnk : n = k
        · subst hnk
          simp only [Bool.false_eq_true, and_false, if_false, if_true] at h
          split at h
          · cases h
          · cases h
            exact ⟨fun m hm => hm, fun k hk => by cases hk; rfl⟩
        · simp [hnk] at h
    · split at h
      · rename_i stack
        cases h
        exact ⟨(fun n hn => by cases hn), fun k hk => by cases hk; rfl⟩
      · exact ⟨(fun n hn => by cases hn), fun k hk => by cases hk⟩

section loop

variable {m : Nat} {st0 : Build} {search : TagSearch} {v7 : Bool} {tags : List (Nat × Tag)} {stext : Nat}
  {text : List Nat}

/-- Where figures come from. -/
theorem machineLoop_locs (hidx : ∀ (n : Str) (k : Nat), mget n st0.indices = some k → k < m) {P : Nat → Prop}
    (h0 : P 0) (es : List (Nat × Sym))
    (hP : ∀ e ∈ es, ∀ r k, Analyzed search v7 tags stext text e r → r.stack = some k → P k) :
    ∀ {st st' : Build}, MachineInv m st0 st → machineLoop search v7 tags stext text st es = .ok st' →
      (∀ (k : Nat) (nd : Node) (n : Nat), st.g.nodes[k]? = some nd → nd.loc = .exact n → P n) →
      ∀ (k : Nat) (nd : Node) (n : Nat), st'.g.nodes[k]? = some nd → nd.loc = .exact n → P n := by
  induction es with
  | nil =>
    intro st st' inv h hst
    simp only [machineLoop, Except.ok.injEq] at h
    exact h ▸ hst
  | cons e es ih =>
    intro st st' inv h hst
    unfold machineLoop at h
    split at h
    · simp at h
    · rename_i st1 h1
      obtain ⟨inv1, c, i, r, hno, han, hu⟩ := machineStep_spec inv hidx h1
      refine ih (fun e he => hP e (List.mem_cons_of_mem _ he)) inv1 h ?_
      intro k nd n hk hn
      by_cases hki : k = i
      · subst hki
        obtain ⟨nd0, nd1, h2, h3, h4⟩ := hu.loc
        rw [hk] at h3
        cases h3
        rw [hn] at h4
        rcases overrideLocal_exact h4 with h5 | h5 | h5
        · exact hst k nd0 n h2 h5
        · exact hP e List.mem_cons_self r n han h5
        · exact h5 ▸ h0
      · by_cases hlt : k < st.g.nodes.length
        · rw [hu.other k hki hlt] at hk
          exact hst k nd n hk hn
        · have := inv1.new k (by have := inv.len; omega) (List.getElem?_eq_some_iff.mp hk).1
          rw [hk] at this
          cases this
          cases hn

/-- Figures of functions that are compared do not change. -/
theorem machineLoop_fixed (hidx : ∀ (n : Str) (k : Nat), mget n st0.indices = some k → k < m) {i : Nat} (him : i < m)
    (es : List (Nat × Sym))
    (plain : ∀ e ∈ es, ∀ c, NodeOf st0 e c i → st0.asmFns.contains c = false ∧ isOutlined c = false) :
    ∀ {st st' : Build}, MachineInv m st0 st → machineLoop search v7 tags stext text st es = .ok st' →
      ∀ (nd : Node) (n : Nat), st.g.nodes[i]? = some nd → nd.loc = .exact n →
      ∃ nd', st'.g.nodes[i]? = some nd' ∧ nd'.loc = .exact n := by
  induction es with
  | nil =>
    intro st st' inv h nd n hnd hn
    simp only [machineLoop, Except.ok.injEq] at h
    exact h ▸ ⟨nd, hnd, hn⟩
  | cons e es ih =>
    intro st st' inv h nd n hnd hn
    unfold machineLoop at h
    split at h
    · simp at h
    · rename_i st1 h1
      obtain ⟨inv1, c, j, r, hno, han, hu⟩ := machineStep_spec inv hidx h1
      obtain ⟨nd1, hnd1, hn1⟩ : ∃ nd1, st1.g.nodes[i]? = some nd1 ∧ nd1.loc = .exact n := by
        by_cases hji : j = i
        · subst hji
          obtain ⟨nd0, nd1, h2, h3, h4⟩ := hu.loc
          rw [hnd] at h2
          cases h2
          obtain ⟨h5, h6⟩ := plain e List.mem_cons_self c hno
          rw [inv.asmFns, h5, h6] at h4
          exact ⟨nd1, h3, (override_plain h4).1 n hn⟩
        · refine ⟨nd, ?_, hn⟩
          rw [hu.other i (fun h => hji h.symm) (List.getElem?_eq_some_iff.mp hnd).1]
          exact hnd
      exact ih (fun e he => plain e (List.mem_cons_of_mem _ he)) inv1 h nd1 n hnd1 hn1

/-- The figure found in the code of any function of a node is the figure of the node. -/
theorem machineLoop_figure (hidx : ∀ (n : Str) (k : Nat), mget n st0.indices = some k → k < m) {i : Nat} (him : i < m)
    (es : List (Nat × Sym))
    (plain : ∀ e ∈ es, ∀ c, NodeOf st0 e c i → st0.asmFns.contains c = false ∧ isOutlined c = false)
    {e : Nat × Sym} (he : e ∈ es) {c : Str} (hno : NodeOf st0 e c i) {r : ThumbState}
    (han : Analyzed search v7 tags stext text e r) {k : Nat} (hk : r.stack = some k) :
    ∀ {st st' : Build}, MachineInv m st0 st → machineLoop search v7 tags stext text st es = .ok st' →
      ∃ nd', st'.g.nodes[i]? = some nd' ∧ nd'.loc = .exact k := by
  induction es with
  | nil => cases he
  | cons e' es ih =>
    intro st st' inv h
    unfold machineLoop at h
    split at h
    · simp at h
    · rename_i st1 h1
      obtain ⟨inv1, c', j, r', hno', han', hu⟩ := machineStep_spec inv hidx h1
      have plain' : ∀ e ∈ es, ∀ c, NodeOf st0 e c i → st0.asmFns.contains c = false ∧ isOutlined c = false :=
        fun e he => plain e (List.mem_cons_of_mem _ he)
      rcases List.mem_cons.mp he with rfl | he
      · obtain ⟨rfl, rfl⟩ := hno.unique hno'
        obtain rfl := han.unique han'
        obtain ⟨nd0, nd1, h2, h3, h4⟩ := hu.loc
        obtain ⟨h5, h6⟩ := plain e List.mem_cons_self c hno
        rw [inv.asmFns, h5, h6] at h4
        exact machineLoop_fixed hidx him es plain' inv1 h nd1 k h3 ((override_plain h4).2 k hk)
      · exact ih plain' he inv1 h

end loop

section

variable {demangle : Str → Str} {ord : HashOrder} {search : TagSearch} {p : Program} {elf : Elf}
  {cs : List Str} {st0 stIr st : Build} {g : Graph}

theorem SharedFacts.ir_node (f : SharedFacts demangle ord search p elf cs st0 stIr st g) {k : Nat} {nd : Node}
    (h : stIr.g.nodes[k]? = some nd) : nd.max = none ∧ ∀ n, nd.loc = .exact n → ∃ name, p.Reported name n := by
  obtain ⟨ext, he⟩ := f.ir.nodes
  rw [he, f.sym.nodes] at h
  have hmem := List.mem_of_getElem? h
  rcases List.mem_append.mp hmem with hm | hm
  · obtain ⟨c, _, rfl⟩ := List.mem_map.mp hm
    refine ⟨rfl, fun n hn => ⟨c, ?_⟩⟩
    unfold mkNode at hn
    unfold Program.Reported
    cases hs : mget c p.stackSizes with
    | none => rw [hs] at hn; cases hn
    | some v => rw [hs] at hn; cases hn; rfl
  · obtain ⟨c, _, rfl⟩ := List.mem_map.mp hm
    exact ⟨rfl, fun n hn => by cases hn⟩

theorem SharedFacts.max_none (f : SharedFacts demangle ord search p elf cs st0 stIr st g) {k : Nat} {nd : Node}
    (hk : g.nodes[k]? = some nd) : nd.max = none := by
  have hlt := (List.getElem?_eq_some_iff.mp hk).1
  obtain ⟨ns, hn⟩ := f.out.nodes
  by_cases h2 : k < st.g.nodes.length
  · rw [hn, List.getElem?_append_left h2] at hk
    by_cases h1 : k < stIr.g.nodes.length
    · obtain ⟨nd0, nd1, h3, h4, h5⟩ := f.machine.old k h1
      rw [hk] at h4
      cases h4
      rw [h5]
      exact (f.ir_node h3).1
    · rw [f.machine.new k (by omega) h2] at hk
      cases hk
      rfl
  · rcases f.out.new k (by omega) hlt with ⟨e, _, _, hd⟩ | ⟨_, h3, _⟩
    · rw [hd.node] at hk
      cases hk
      rfl
    · rw [h3] at hk
      cases hk
      rfl

theorem SharedFacts.u64 (f : SharedFacts demangle ord search p elf cs st0 stIr st g) (sizes : p.SizesU64)
    (fits : elf.Fits32) : g.LocalsU64 := by
  intro k
  obtain ⟨ns, hn⟩ := f.out.nodes
  have hst : ∀ (k : Nat) (nd : Node) (n : Nat), st.g.nodes[k]? = some nd → nd.loc = .exact n → n < 2 ^ 64 := by
    have hir : ∀ (k : Nat) (nd : Node) (n : Nat), stIr.g.nodes[k]? = some nd → nd.loc = .exact n → n < 2 ^ 64 := by
      intro k nd n h1 h2
      obtain ⟨name, h3⟩ := (f.ir_node h1).2 n h2
      exact sizes _ _ h3
    by_cases ht : p.target.isThumb = true
    · cases hx : elf.text with
      | none =>
        have := f.pass
        unfold machinePass at this
        rw [if_pos ht, hx] at this
        cases this
        exact hir
      | some x =>
        obtain ⟨stext, text⟩ := x
        exact machineLoop_locs (P := (· < 2 ^ 64)) f.ir.lt (by decide) p.defined
          (fun e he r k han hk => han.stack_lt (fits _ _ hx) hk) (MachineInv.init rfl f.ir.wf f.ir.seen)
          (f.loop stext text ht hx).1 hir
    · have := f.pass
      unfold machinePass at this
      rw [if_neg ht] at this
      cases this
      exact hir
  unfold Graph.locOf
  cases hnd : g.nodes[k]? with
  | none => decide
  | some nd =>
    simp only
    cases hl : nd.loc with
    | unknown => decide
    | exact n =>
      simp only [Local.bytes]
      by_cases h2 : k < st.g.nodes.length
      · rw [hn, List.getElem?_append_left h2] at hnd
        exact hst k nd n hnd hl
      · rcases f.out.new k (by omega) (List.getElem?_eq_some_iff.mp hnd).1 with ⟨e, _, _, hd⟩ | ⟨_, h3, _⟩
        · rw [hd.node] at hnd
          cases hnd
          cases hl
          decide
        · rw [h3] at hnd
          cases hnd
          cases hl

/-- The name of the node of a function. -/
theorem SharedFacts.canon_at (f : SharedFacts demangle ord search p elf cs st0 stIr st g) {i : Nat} {e : Nat × Sym}
    (he : p.defined[i]? = some e) :
    ∃ c, cs[i]? = some c ∧ canonicalOf p.stackSizes (realNames e.2) = .ok c ∧ c ∈ realNames e.2 := by
  have hlt : i < cs.length := by rw [f.sym.len]; exact (List.getElem?_eq_some_iff.mp he).1
  have hc := List.getElem?_eq_getElem hlt
  have := f.sym.canon i e _ he hc
  exact ⟨_, hc, this, (canonicalOf_spec this).1⟩

/-- The node that a name leads to. -/
theorem SharedFacts.lookup (f : SharedFacts demangle ord search p elf cs st0 stIr st g) (alike : p.NamesAlike)
    {i : Nat} {e : Nat × Sym} (he : p.defined[i]? = some e) {c : Str} (hc : cs[i]? = some c) :
    ∃ m, mget c st0.indices = some m ∧ p.LastOf i m := by
  obtain ⟨m, hm⟩ := Option.ne_none_iff_exists'.mp (f.sym.indices_ne c (List.mem_of_getElem? hc))
  refine ⟨m, hm, ?_⟩
  have hcm := f.sym.indices_some c m hm
  obtain ⟨hlt, hlast⟩ := f.last c m hm
  have hm' : m < p.defined.length := by rw [← f.sym.len]; exact (List.getElem?_eq_some_iff.mp hcm).1
  have hem := List.getElem?_eq_getElem hm'
  have hcan := canonicalOf_spec (f.sym.canon i e c he hc)
  have hcan' := canonicalOf_spec (f.sym.canon m _ c hem hcm)
  have hn := (mem_realNames _ _).mp hcan.1
  have hn' := (mem_realNames _ _).mp hcan'.1
  refine ⟨e.1, e.2, _, _, he, hem, (alike i m e.1 e.2 _ _ c he hem hn hn').symm, ?_⟩
  intro k a u hk hu hnames
  obtain ⟨c', h1, h2, _⟩ := f.canon_at hu
  have : realNames (a, u).2 = realNames e.2 := by unfold realNames; rw [hnames]
  rw [this, f.sym.canon i e c he hc] at h2
  cases h2
  have hnode : st0.g.nodes[k]? = some (mkNode c (mget c p.stackSizes) false) := by
    rw [f.sym.nodes, List.getElem?_map, h1]
    rfl
  exact hlast k _ hk hnode rfl

theorem SharedFacts.alias (f : SharedFacts demangle ord search p elf cs st0 stIr st g) (alike : p.NamesAlike)
    {i : Nat} {e : Nat × Sym} (he : p.defined[i]? = some e) {c n : Str} (hc : cs[i]? = some c)
    (hn : e.2.Named n) : mget n st0.aliases = some c := by
  obtain ⟨c', hc'⟩ := Option.ne_none_iff_exists'.mp
    (f.sym.aliases_ne n i e he ((mem_realNames _ _).mpr hn))
  obtain ⟨j, e', h1, h2, h3⟩ := f.sym.aliases_some n c' hc'
  have hnames := alike i j e.1 e.2 e'.1 e'.2 n he h1 hn ((mem_realNames _ _).mp h3)
  have hr : realNames e'.2 = realNames e.2 := by unfold realNames; rw [hnames]
  have := f.sym.canon j e' c' h1 h2
  rw [hr, f.sym.canon i e c he hc] at this
  cases this
  exact hc'

theorem Program.LastOf.unique {i a b : Nat} (h1 : p.LastOf i a) (h2 : p.LastOf i b) : a = b := by
  obtain ⟨_, s, _, t, e1, e2, e3, e4⟩ := h1
  obtain ⟨_, s', _, t', f1, f2, f3, f4⟩ := h2
  rw [e1] at f1
  cases f1
  rcases Nat.lt_trichotomy a b with h | h | h
  · exact absurd f3 (e4 b _ _ h f2)
  · exact h
  · exact absurd e3 (f4 a _ _ h e2)

/-- The node of the code of a function. -/
theorem SharedFacts.nodeOf (f : SharedFacts demangle ord search p elf cs st0 stIr st g) (alike : p.NamesAlike)
    {i : Nat} {e : Nat × Sym} (he : p.defined[i]? = some e) {c : Str} {m : Nat} (h : NodeOf stIr e c m) :
    cs[i]? = some c ∧ p.LastOf i m := by
  obtain ⟨first, rest, h1, h2, h3⟩ := h
  rw [f.ir.aliases] at h2
  obtain ⟨j, e', h4, h5, h6⟩ := f.sym.aliases_some first c h2
  have hn : e.2.Named first := ⟨by rw [h1]; exact List.mem_cons_self, ((mem_realNames _ _).mp h6).2⟩
  obtain ⟨c', hc', _⟩ := f.canon_at he
  rw [f.alias alike he hc' hn] at h2
  cases h2
  obtain ⟨m', hm', hl⟩ := f.lookup alike he hc'
  rw [f.ir.indices _ _ hm'] at h3
  cases h3
  exact ⟨hc', hl⟩

theorem addressed_inj (addressed : p.Addressed) {i j a : Nat} {s t : Sym} (hi : p.defined[i]? = some (a, s))
    (hj : p.defined[j]? = some (a, t)) : i = j := by
  obtain ⟨hi', e1⟩ := List.getElem?_eq_some_iff.mp hi
  obtain ⟨hj', e2⟩ := List.getElem?_eq_some_iff.mp hj
  rcases Nat.lt_trichotomy i j with h | h | h
  · have := List.pairwise_iff_getElem.mp addressed i j hi' hj' h
    rw [e1, e2] at this
    exact absurd this (Nat.lt_irrefl _)
  · exact h
  · have := List.pairwise_iff_getElem.mp addressed j i hj' hi' h
    rw [e1, e2] at this
    exact absurd this (Nat.lt_irrefl _)

theorem Program.LastOf.live {j m : Nat} (h : p.LastOf j m) (n : Str) : p.LiveAt n j ↔ p.LiveAt n m := by
  obtain ⟨a, s, b, t, h1, h2, h3, _⟩ := h
  constructor
  · rintro ⟨a', s', e1, e2⟩
    rw [h1] at e1
    cases e1
    exact ⟨b, t, h2, ⟨h3 ▸ e2.1, e2.2⟩⟩
  · rintro ⟨a', s', e1, e2⟩
    rw [h2] at e1
    cases e1
    exact ⟨a, s, h1, ⟨h3 ▸ e2.1, e2.2⟩⟩

theorem Program.LastOf.defined {j m : Nat} (h : p.LastOf j m) (s : FnSig) : p.DefinedSig j s ↔ p.DefinedSig m s := by
  unfold Program.DefinedSig
  simp only [h.live]

theorem Program.LastOf.typed {j m : Nat} (h : p.LastOf j m) (s : FnSig) : p.TypedAs j s ↔ p.TypedAs m s := by
  unfold Program.TypedAs Program.DefinedSig Program.DeclaredSig
  simp only [h.live]

theorem SharedFacts.indirect (f : SharedFacts demangle ord search p elf cs st0 stIr st g) (alike : p.NamesAlike)
    (declares : p.DeclaresOnce) {i j : Nat} {sig sig' : FnSig} (hc : p.Contains i (.indirectCall sig))
    (ht : p.TypedAs j sig') (hs : sig'.Compatible sig) (hf : sig'.FmtShape → p.DefinedSig j sig') :
    ∃ a b k, p.LastOf i a ∧ p.LastOf j b ∧ g.Calls a k ∧ g.Calls k b ∧ g.locOf k = .exact 0 := by
  obtain ⟨d, hd, ⟨ai, si, hi, hni⟩, hst⟩ := hc
  obtain ⟨ci, hci, _⟩ := f.canon_at hi
  obtain ⟨a, ha, hla⟩ := f.lookup alike hi hci
  have hmark := f.marked d hd ci a sig (f.alias alike hi hci hni) ha hst
  obtain ⟨ej, hej, _⟩ := symSig_typed declares ht
  obtain ⟨cj, hcj, _⟩ := f.canon_at hej
  obtain ⟨b, hb, hlb⟩ := f.lookup alike hej hcj
  rw [hlb.typed] at ht
  rw [hlb.defined] at hf
  obtain ⟨e, he, h1⟩ := symSig_typed declares ht
  obtain ⟨ind, h2, h3⟩ := (f.sym.callee sig' b).mpr ⟨e, he, h1⟩
  have h4 := List.mem_map_of_mem (f := fun e => (e.1, e.2.callees)) h2
  rw [← f.ir.sigs] at h4
  obtain ⟨e0, h5, h6⟩ := List.mem_map.mp h4
  simp only [Prod.mk.injEq] at h6
  obtain ⟨h7, h8⟩ := hmark e0 h5 (by rw [h6.1]; exact (C39_signatures _ _).mpr hs)
  obtain ⟨k, _, hk⟩ := f.out.called e0 (by rw [(ord.isPerm _ _ _).mem_iff, f.machine.indirects]; exact h5) h7
  refine ⟨a, b, k, hla, hlb, (hk.pred a).mpr h8, (hk.succ b).mpr (.inl ?_), ?_⟩
  · unfold dashedCallees
    split
    · rename_i hfm
      have hshape := isFormatter_fmt hfm
      rw [h6.1] at hshape
      rw [f.machine.fmts, f.ir.fmts, f.sym.fmts]
      have hd := hf hshape
      cases hfd : firstDefine p.defines (realNames e.2) with
      | none => exact absurd hd ((firstDefine_none he).mp hfd sig')
      | some d =>
        refine ⟨e, d, he, hfd, ?_⟩
        rw [isFmtSig_iff]
        rcases ht with ⟨_, h9⟩ | ⟨h9, _⟩
        · rw [h9 _ (firstDefine_some he hfd)]; exact hshape
        · exact absurd hd (h9 _)
    · rw [h6.2]
      exact h3
  · unfold Graph.locOf
    rw [hk.node]
    rfl

/-- Calls are one or two edges between the last functions of the names. -/
theorem SharedFacts.call (f : SharedFacts demangle ord search p elf cs st0 stIr st g) (alike : p.NamesAlike)
    (declares : p.DeclaresOnce) {i j : Nat} (hd : ¬ p.Dropped i j)
    (h : p.Call i j) : ∃ a b, p.LastOf i a ∧ p.LastOf j b ∧
      (g.Calls a b ∨ ∃ k, g.Calls a k ∧ g.Calls k b ∧ g.locOf k = .exact 0) := by
  rcases h with ⟨func, hcon, hint, hlive⟩ | ⟨sig, sig', h1, h2, h3⟩
  · obtain ⟨d, hd', ⟨ai, si, hi, hni⟩, hs⟩ := id hcon
    obtain ⟨aj, sj, hj, hnj⟩ := id hlive
    obtain ⟨c, hc, _⟩ := f.canon_at hi
    obtain ⟨c', hc', hcan', _⟩ := f.canon_at hj
    obtain ⟨a, ha, hla⟩ := f.lookup alike hi hc
    obtain ⟨b, hb, hlb⟩ := f.lookup alike hj hc'
    refine ⟨a, b, hla, hlb, .inl (f.edge_ir ?_)⟩
    refine f.direct d hd' c a func c' b (f.alias alike hi hc hni) ha hs (classify_plain.mpr hint) ?_
      (f.alias alike hj hc' hnj) hb
    intro hm
    obtain rfl : func = c!"memcmp" := by simpa [symbollessIntrinsics] using hm
    have hpr : p.Principal j c!"memcmp" := by
      by_contra h4
      exact hd (.memcmp hcon hlive h4)
    rw [(principal_iff hj hcan' _).mp hpr, hb]
    simp
  · have h4 : ∀ s, p.TypeOf j s → s = sig' := by
      intro s hs
      by_contra h5
      exact hd (.twoTypes h1 h3 h2 hs h5)
    have h5 : p.TypedAs j sig' ∧ (sig'.FmtShape → p.DefinedSig j sig') := by
      rcases h3 with h3 | ⟨h5, h6⟩
      · exact ⟨Or.inl ⟨h3, fun s hs => h4 s (Or.inl hs)⟩, fun _ => h3⟩
      · exact ⟨Or.inr ⟨h5, h6, fun s hs => h4 s (Or.inr ⟨h5, hs⟩)⟩,
          fun hf => absurd (.formatter h1 h2 h5 h6 hf) hd⟩
    obtain ⟨a, b, k, h6, h7, h8⟩ := f.indirect alike declares h1 h5.1 h2 h5.2
    exact ⟨a, b, h6, h7, .inr ⟨k, h8⟩⟩

/-- The same with the calls in the machine code. -/
theorem SharedFacts.calls (f : SharedFacts demangle ord search p elf cs st0 stIr st g) (alike : p.NamesAlike)
    (addressed : p.Addressed) (declares : p.DeclaresOnce) {i j : Nat} (hd : ¬ p.Dropped i j)
    (h : p.AnyCall search elf i j) : ∃ a b, p.LastOf i a ∧ p.LastOf j b ∧
      (g.Calls a b ∨ ∃ k, g.Calls a k ∧ g.Calls k b ∧ g.locOf k = .exact 0) := by
  rcases h with h | ⟨ht, address, size, r, t, hdec, hleave, sj, hj⟩
  · exact f.call alike declares hd h
  · obtain ⟨ai, si, stext, text, hi, hx, _⟩ := decoded_iff.mp hdec
    obtain ⟨han, rfl, rfl⟩ := analyzed_of hi hx hdec
    obtain ⟨_, mf⟩ := f.loop stext text ht hx
    obtain ⟨c, a, r', hno, han', hcalls, _⟩ := mf.complete _ (List.mem_of_getElem? hi)
    obtain rfl := han.unique han'
    obtain ⟨hc, hla⟩ := f.nodeOf alike hi hno
    obtain ⟨b, hres, hedge⟩ := hcalls t (mem_calledAddrs.mpr hleave)
    obtain ⟨name, h1, h2⟩ := hres
    rw [f.ir.addr] at h1
    obtain ⟨j', s', h3, h4⟩ := f.sym.addr_some t name h1
    obtain rfl : j' = j := addressed_inj addressed h3 hj
    obtain ⟨b', hb', hlb⟩ := f.lookup alike h3 h4
    rw [f.ir.indices _ _ hb'] at h2
    cases h2
    exact ⟨a, b, hla, hlb, .inl (f.edge_machine hedge)⟩

/-- The local usage of the last function of the names is what each of them uses. -/
theorem SharedFacts.uses (f : SharedFacts demangle ord search p elf cs st0 stIr st g) (alike : p.NamesAlike)
    {j m k : Nat} (hl : p.LastOf j m) (strict : ¬ p.Lenient j) (hu : p.Uses search elf j k) :
    g.locOf m = .exact k := by
  obtain ⟨aj, sj, am, sm, hj, hm, hnames, hlast⟩ := id hl
  obtain ⟨c, hc, hcan, hcm⟩ := f.canon_at hj
  obtain ⟨m', hm', hl'⟩ := f.lookup alike hj hc
  obtain rfl := Program.LastOf.unique hl hl'
  have hmlt : m < stIr.g.nodes.length := f.ir.lt c m (f.ir.indices _ _ hm')
  have hcsm : cs[m]? = some c := f.sym.indices_some c m hm'
  have hout : isOutlined c = false := by
    rw [Bool.eq_false_iff]
    intro h
    exact strict (.inr ⟨c, (principal_iff hj hcan c).mpr rfl, (isOutlined_iff c).mp h⟩)
  have hasm : stIr.asmFns.contains c = false := by
    rw [Bool.eq_false_iff]
    intro h
    obtain ⟨d, hd, hal, x, hx⟩ := f.ir.asm c (List.contains_iff_mem.mp h)
    obtain ⟨i', e', h1, h2, h3⟩ := f.sym.aliases_some d.name c hal
    obtain ⟨h4, _⟩ := canonicalOf_spec (f.sym.canon i' e' c h1 h2)
    have := alike i' j e'.1 e'.2 aj sj c h1 hj ((mem_realNames _ _).mp h4) ((mem_realNames _ _).mp hcm)
    refine strict (.inl ⟨x, d, hd, ⟨aj, sj, hj, ?_⟩, hx⟩)
    have h5 := (mem_realNames _ _).mp h3
    exact ⟨this ▸ h5.1, h5.2⟩
  have plain : ∀ e ∈ p.defined, ∀ c', NodeOf stIr e c' m → stIr.asmFns.contains c' = false ∧ isOutlined c' = false := by
    intro e he c' hno
    obtain ⟨i', hi'⟩ := List.getElem?_of_mem he
    obtain ⟨h1, h2⟩ := f.nodeOf alike hi' hno
    obtain ⟨_, si, _, sm', e1, e2, e3, _⟩ := h2
    rw [hm] at e2
    cases e2
    have e4 : realNames e.2 = realNames sj := by
      rw [hi'] at e1
      cases e1
      unfold realNames
      rw [← e3, hnames]
    have := f.sym.canon i' e c' hi' h1
    rw [e4, hcan] at this
    cases this
    exact ⟨hasm, hout⟩
  have hstg : ∀ nd, st.g.nodes[m]? = some nd → nd.loc = .exact k → g.locOf m = .exact k := by
    intro nd h1 h2
    obtain ⟨ns, hn⟩ := f.out.nodes
    unfold Graph.locOf
    rw [hn, List.getElem?_append_left (List.getElem?_eq_some_iff.mp h1).1, h1]
    exact h2
  rcases hu with ⟨ht, address, size, r, hdec, hk⟩ | hf
  · obtain ⟨_, _, stext, text, _, hx, _⟩ := decoded_iff.mp hdec
    obtain ⟨han, rfl, rfl⟩ := analyzed_of hj hx hdec
    obtain ⟨hloop, mf⟩ := f.loop stext text ht hx
    obtain ⟨c', a, r', hno, _⟩ := mf.complete _ (List.mem_of_getElem? hj)
    obtain ⟨_, hla⟩ := f.nodeOf alike hj hno
    obtain rfl := Program.LastOf.unique hl hla
    obtain ⟨nd, h1, h2⟩ := machineLoop_figure f.ir.lt hmlt p.defined plain (List.mem_of_getElem? hj) hno han hk
      (MachineInv.init rfl f.ir.wf f.ir.seen) hloop
    exact hstg nd h1 h2
  · have hfk := (frame_iff hj hcan k).mp hf
    have hnode : stIr.g.nodes[m]? = some (mkNode c (some k) false) := by
      obtain ⟨ext, he⟩ := f.ir.nodes
      have h0 : (cs.map (fun c => mkNode c (mget c p.stackSizes) false))[m]? = some (mkNode c (some k) false) := by
        rw [List.getElem?_map, hcsm]
        simp [hfk]
      rw [he, f.sym.nodes, List.getElem?_append_left (List.getElem?_eq_some_iff.mp h0).1]
      exact h0
    have hpass := f.pass
    unfold machinePass at hpass
    split at hpass
    · rename_i ht
      split at hpass
      · cases hpass
        exact hstg _ hnode rfl
      · rename_i stext text hx
        obtain ⟨nd, h1, h2⟩ := machineLoop_fixed f.ir.lt hmlt p.defined plain
          (MachineInv.init rfl f.ir.wf f.ir.seen) hpass _ k hnode rfl
        exact hstg nd h1 h2
    · cases hpass
      exact hstg _ hnode rfl

end

end CallStack
