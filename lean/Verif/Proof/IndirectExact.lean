import Verif.Spec.Indirect
import Verif.Proof.HashOrder
import Verif.Props.Types

/-!
The fictitious nodes described by the program alone.
-/

namespace CallStack

theorem head_filterMap_filter {α β : Type} (q : α → Bool) (f : α → Option β) (l : List α) (b : β) :
    ((l.filter q).filterMap f).head? = some b ↔
      ∃ pre a post, l = pre ++ a :: post ∧ q a = true ∧ f a = some b ∧
        ∀ x ∈ pre, q x = false ∨ f x = none := by
  induction l with
  | nil => simp
  | cons x l ih =>
    have skip : q x = false ∨ f x = none →
        ((∃ pre a post, l = pre ++ a :: post ∧ q a = true ∧ f a = some b ∧
          ∀ x ∈ pre, q x = false ∨ f x = none) ↔
        ∃ pre a post, x :: l = pre ++ a :: post ∧ q a = true ∧ f a = some b ∧
          ∀ x ∈ pre, q x = false ∨ f x = none) := by
      intro hx
      constructor
      · rintro ⟨pre, a, post, h1, h2, h3, h4⟩
        exact ⟨x :: pre, a, post, by rw [h1]; rfl, h2, h3, by simpa using ⟨hx, h4⟩⟩
      · rintro ⟨pre, a, post, h1, h2, h3, h4⟩
        cases pre with
        | nil =>
          simp only [List.nil_append, List.cons.injEq] at h1
          obtain ⟨rfl, rfl⟩ := h1
          rcases hx with hx | hx
          · rw [hx] at h2; simp at h2
          · rw [hx] at h3; simp at h3
        | cons y pre =>
          simp only [List.cons_append, List.cons.injEq] at h1
          exact ⟨pre, a, post, h1.2, h2, h3, fun z hz => h4 z (List.mem_cons_of_mem _ hz)⟩
    by_cases hq : q x = true
    · rw [List.filter_cons_of_pos hq]
      cases hf : f x with
      | none => rw [List.filterMap_cons_none hf, ih]; exact skip (.inr hf)
      | some c =>
        rw [List.filterMap_cons_some hf]
        simp only [List.head?_cons, Option.some.injEq]
        constructor
        · rintro rfl
          exact ⟨[], x, l, rfl, hq, hf, by simp⟩
        · rintro ⟨pre, a, post, h1, h2, h3, h4⟩
          cases pre with
          | nil =>
            simp only [List.nil_append, List.cons.injEq] at h1
            obtain ⟨rfl, rfl⟩ := h1
            rw [hf] at h3
            exact Option.some.inj h3
          | cons y pre =>
            simp only [List.cons_append, List.cons.injEq] at h1
            obtain ⟨rfl, rfl⟩ := h1
            rcases h4 x List.mem_cons_self with h | h
            · rw [hq] at h; simp at h
            · rw [hf] at h; simp at h
    · rw [List.filter_cons_of_neg hq, ih]
      exact skip (.inl (by simpa using hq))

theorem getDefine_of_mem {p : Program} (once : p.DefinesOnce) {d : Define} (h : d ∈ p.defines) :
    getDefine p.defines d.name = some d := by
  cases hf : getDefine p.defines d.name with
  | none => exact absurd hf (getDefine_ne h)
  | some d' =>
    obtain ⟨h1, h2⟩ := getDefine_some hf
    rw [List.inj_on_of_nodup_map once h1 h h2]

theorem firstDefined_iff {p : Program} (once : p.DefinesOnce) {j : Nat} {e : Nat × Sym}
    (he : p.defined[j]? = some e) (sig : FnSig) :
    p.FirstDefined j sig ↔ ∃ d, firstDefine p.defines (realNames e.2) = some d ∧ d.sig = sig := by
  obtain ⟨a, s⟩ := e
  unfold Program.FirstDefined firstDefine realNames
  simp only [head_filterMap_filter, he, Option.some.injEq, Prod.mk.injEq]
  constructor
  · rintro ⟨_, _, pre, post, d, ⟨rfl, rfl⟩, h1, h2, h3, h4, h5⟩
    refine ⟨d, ⟨pre, d.name, post, h1, ?_, getDefine_of_mem once h3, fun n hn => ?_⟩, h4⟩
    · rw [← isTag_iff] at h2; simpa using h2
    · rcases h5 n hn with h | h
      · left; rw [← isTag_iff] at h; simpa using h
      · right
        cases hg : getDefine p.defines n with
        | none => rfl
        | some d' => exact absurd (getDefine_some hg).2 (h d' (getDefine_some hg).1)
  · rintro ⟨d, ⟨pre, n, post, h1, h2, h3, h4⟩, h5⟩
    obtain ⟨h6, rfl⟩ := getDefine_some h3
    refine ⟨a, s, pre, post, d, ⟨rfl, rfl⟩, h1, ?_, h6, h5, fun m hm => ?_⟩
    · rw [← isTag_iff]; simpa using h2
    · rcases h4 m hm with h | h
      · left; rw [← isTag_iff]; simpa using h
      · right
        rintro d' hd' rfl
        exact getDefine_ne hd' h

theorem firstDeclared_iff {p : Program} (once : p.DeclaresOnce) {j : Nat} {e : Nat × Sym}
    (he : p.defined[j]? = some e) (sig : FnSig) :
    p.FirstDeclared j sig ↔ firstDeclared p.declares (realNames e.2) = some sig := by
  obtain ⟨a, s⟩ := e
  have hget : ∀ n d, getDeclare p.declares n = some d → d ∈ p.declares ∧ d.name = n := by
    intro n d h
    unfold getDeclare at h
    exact ⟨List.mem_of_find?_eq_some h, by simpa using List.find?_some h⟩
  unfold Program.FirstDeclared firstDeclared realNames
  simp only [head_filterMap_filter, he, Option.some.injEq, Prod.mk.injEq]
  constructor
  · rintro ⟨_, _, pre, post, d, ⟨rfl, rfl⟩, h1, h2, h3, h4, h5⟩
    refine ⟨pre, d.name, post, h1, ?_, ?_, fun n hn => ?_⟩
    · rw [← isTag_iff] at h2; simpa using h2
    · rw [getDeclare_of_mem once h3]; exact h4
    · rcases h5 n hn with h | h
      · left; rw [← isTag_iff] at h; simpa using h
      · right
        cases hg : getDeclare p.declares n with
        | none => rfl
        | some d' => exact h d' (hget _ _ hg).1 (hget _ _ hg).2
  · rintro ⟨pre, n, post, h1, h2, h3, h4⟩
    obtain ⟨d, h5, h6⟩ := Option.bind_eq_some_iff.mp h3
    obtain ⟨h7, rfl⟩ := hget _ _ h5
    refine ⟨a, s, pre, post, d, ⟨rfl, rfl⟩, h1, ?_, h7, h6, fun m hm => ?_⟩
    · rw [← isTag_iff]; simpa using h2
    · rcases h4 m hm with h | h
      · left; rw [← isTag_iff]; simpa using h
      · right
        rintro d' hd' rfl
        rw [getDeclare_of_mem once hd'] at h
        exact h

/-- The registered signature. -/
theorem takenAs_iff {p : Program} (defs : p.DefinesOnce) (decls : p.DeclaresOnce) (j : Nat) (sig : FnSig) :
    p.TakenAs j sig ↔ ∃ e, p.defined[j]? = some e ∧ symSig p (realNames e.2) = some sig := by
  cases he : p.defined[j]? with
  | none =>
    unfold Program.TakenAs Program.FirstDefined Program.FirstDeclared
    simp [he]
  | some e =>
    unfold Program.TakenAs
    simp only [firstDefined_iff defs he, firstDeclared_iff decls he, Option.some.injEq, exists_eq_left']
    unfold symSig
    cases firstDefine p.defines (realNames e.2) <;> simp

theorem isFormatter_iff (void : Option Str) (sig : FnSig) :
    isFormatter void sig = true ↔ FormatsChosen void sig := by
  unfold isFormatter FormatsChosen FnSig.Formats
  cases void with
  | none => simp
  | some v =>
    simp only [Option.some.injEq, exists_eq_left']
    split
    · rename_i t fmt out h1 h2
      rw [h1, h2]
      simp [and_assoc]
    · rename_i h
      constructor
      · simp
      · rintro ⟨h1, h2⟩
        exact absurd h2 (h _ _ _ h1)

/-- What the chosen type is among the formatted ones. -/
theorem chosen_of {p : Program} {l : List Str} (hl : ∀ v, v ∈ l ↔ p.Receiver v) (hn : l.Nodup) :
    p.Chosen (oneTrueVoid l) := by
  unfold oneTrueVoid
  split
  · rename_i h
    exact .known ((hl _).mp (List.contains_iff_mem.mp h))
  · rename_i h
    have h0 : ¬ p.Receiver c!"fmt::Void" := fun h1 => h (List.contains_iff_mem.mpr ((hl _).mpr h1))
    split
    · rename_i v hv
      have := List.find?_some hv
      rw [startsWith_iff] at this
      exact .core h0 ((hl _).mp (List.mem_of_find?_eq_some hv)) this
    · rename_i hv
      have h1 : ∀ w, p.Receiver w → ¬ c!"core::fmt::Void" <+: w := by
        intro w hw hp
        exact List.find?_eq_none.mp hv w ((hl w).mpr hw) ((startsWith_iff _ _).mpr hp)
      split
      · rename_i v
        refine .only h0 h1 ((hl v).mp List.mem_cons_self) (fun w hw => ?_)
        simpa using (hl w).mpr hw
      · rename_i hne
        refine .none h0 h1 (fun v hr => ?_)
        match l, hne with
        | [], _ => exact absurd ((hl v).mpr hr) (by simp)
        | [a], hne => exact absurd rfl (hne a)
        | a :: b :: l, _ =>
          by_cases hav : a = v
          · subst hav
            refine ⟨b, (hl b).mp (by simp), ?_⟩
            rintro rfl
            simp at hn
          · exact ⟨a, (hl a).mp (by simp), hav⟩

section run

variable {demangle : Str → Str} {ord : HashOrder} {search : TagSearch} {p : Program} {elf : Elf}
  {cs ext : List Str} {st0 stIr st : Build} {g : Graph}

/-- The registered signatures. -/
theorem RunFacts.registered (h : RunFacts demangle ord search p elf cs ext st0 stIr st g)
    (defs : p.DefinesOnce) (decls : p.DeclaresOnce) (sig : FnSig) :
    (∃ i0, (sig, i0) ∈ st.indirects) ↔ ∃ j, p.TakenAs j sig := by
  rw [h.machine.indirects]
  constructor
  · rintro ⟨i0, he⟩
    obtain ⟨i1, h3, h4⟩ := indirect_mem h.ir he
    have h5 := (h.ir.sym.fresh _ h3).2.2
    rw [h4] at h5
    obtain ⟨j, hj⟩ := List.exists_mem_of_ne_nil _ h5
    exact ⟨j, (takenAs_iff defs decls j _).mpr ((callees_iff h.ir he j).mp hj)⟩
  · rintro ⟨j, hj⟩
    obtain ⟨ind, h1, h2⟩ := (h.ir.sym.callee sig j).mpr ((takenAs_iff defs decls j _).mp hj)
    obtain ⟨i0, h3, _⟩ := indirect_mem' h.ir h1
    exact ⟨i0, h3⟩

theorem RunFacts.keys (h : RunFacts demangle ord search p elf cs ext st0 stIr st g) :
    (st.indirects.map (·.1)).Nodup := by
  have h1 := congrArg (List.map (fun (x : FnSig × List Nat) => x.1)) h.sigs_map
  simp only [List.map_map] at h1
  have h2 := h.ir.sym.keys
  rw [show (st.indirects.map (·.1)) = st0.indirects.map (·.1) from h1]
  exact h2

theorem RunFacts.chosen (h : RunFacts demangle ord search p elf cs ext st0 stIr st g)
    (defs : p.DefinesOnce) (decls : p.DeclaresOnce) : p.Chosen (voidOf ord st) := by
  refine chosen_of (fun v => ?_) ?_
  · rw [List.mem_filterMap]
    simp only [(ord.isPerm _ _ _).mem_iff, maybeVoid_iff]
    constructor
    · rintro ⟨e, he, hv⟩
      obtain ⟨j, hj⟩ := (h.registered defs decls e.1).mp ⟨_, he⟩
      exact ⟨j, e.1, hj, hv⟩
    · rintro ⟨j, sig, hj, hv⟩
      obtain ⟨i0, he⟩ := (h.registered defs decls sig).mpr ⟨j, hj⟩
      exact ⟨_, he, hv⟩
  · have hp : ((ord.perm _ 0 st.indirects).map (·.1)).Nodup :=
      (((ord.isPerm _ _ _).map _).nodup_iff).mpr h.keys
    have hm : (ord.perm _ 0 st.indirects).filterMap (fun e => maybeVoid e.1) =
        ((ord.perm _ 0 st.indirects).map (·.1)).filterMap maybeVoid := by
      rw [List.filterMap_map]; rfl
    rw [hm]
    refine hp.filterMap ?_
    intro a a' b h1 h2
    obtain ⟨h3, h4⟩ := (maybeVoid_iff a b).mp h1
    obtain ⟨h5, h6⟩ := (maybeVoid_iff a' b).mp h2
    cases a; cases a'
    simp only at h3 h4 h5 h6
    rw [h3, h4, h5, h6]

theorem labelOf_dashed (void : Option Str) (e : FnSig × Indirect) :
    LabelOf void e.1 (dashedNode void e).name := by
  unfold LabelOf dashedNode labelSig
  simp only [mkNode, ← isFormatter_iff]
  constructor
  · rintro ⟨h1, h2⟩
    have h3 := isFormatter_fmt h1
    obtain ⟨⟨t, hi⟩, ho⟩ := h3
    rw [h1]
    simp only [Bool.true_and]
    have : (void != some c!"fmt::Void") = true := by simpa using h2
    rw [this, if_pos rfl, hi, ho]
    rfl
  · intro h
    rw [if_neg]
    simpa using h

/-- A fictitious node. -/
theorem RunFacts.indirectNode (h : RunFacts demangle ord search p elf cs ext st0 stIr st g)
    (defs : p.DefinesOnce) (decls : p.DeclaresOnce) {e : FnSig × Indirect} {k : Nat}
    (he : e ∈ st.indirects) (hk : st.g.nodes.length ≤ k)
    (hd : DashedFor st.hasUntypedSymbols st.fmts (voidOf ord st) e g k) :
    p.IndirectNode (voidOf ord st) g k e.1 := by
  have he' : e ∈ stIr.indirects := by rw [← h.machine.indirects]; exact he
  have hlen : p.defined.length ≤ k := by
    have h1 := h.machine.len
    have h2 := h.ir.sym.len
    rw [List.length_append] at h1
    omega
  have hun : st.hasUntypedSymbols = true ↔ ∃ j n, p.Untyped j ∧ p.Principal j n ∧ ¬ OutlinedName n := by
    rw [h.untyped decls]
    simp only [← isOutlined_iff, Bool.not_eq_true]
  have hlt : ∀ j ∈ dashedCallees st.fmts (voidOf ord st) e, j < p.defined.length := by
    intro j hj
    unfold dashedCallees at hj
    split at hj
    · obtain ⟨s, d, h1, _⟩ := (h.fmt j).mp hj
      exact (List.getElem?_eq_some_iff.mp h1).1
    · obtain ⟨s, h1, _⟩ := (callees_iff h.ir he' j).mp hj
      exact (List.getElem?_eq_some_iff.mp h1).1
  refine ⟨⟨_, hd.node, rfl, rfl, labelOf_dashed _ _⟩, ?_, ?_, ?_, ?_, ?_⟩
  · intro i
    unfold Graph.Calls
    rw [hd.pred i, h.ir.ir.callers e he' i]
    simp only [C39_signatures]
  · intro hf j hj
    unfold Graph.Calls
    rw [hd.succ j, takenAs_iff defs decls, ← callees_iff h.ir he']
    unfold dashedCallees
    rw [← isFormatter_iff] at hf
    rw [if_neg hf]
    refine ⟨fun h => h.resolve_right fun h => ?_, .inl⟩
    omega
  · intro hf j hj
    unfold Graph.Calls
    rw [hd.succ j]
    unfold dashedCallees
    rw [← isFormatter_iff] at hf
    rw [if_pos hf, h.fmt]
    constructor
    · rintro (⟨s, d, h1, h2, h3⟩ | h)
      · exact ⟨d.sig, (firstDefined_iff defs h1 _).mpr ⟨d, h2, rfl⟩, h3⟩
      · omega
    · rintro ⟨s, h1, h2⟩
      left
      have := List.getElem?_eq_getElem hj
      obtain ⟨d, h3, rfl⟩ := (firstDefined_iff defs this _).mp h1
      exact ⟨_, d, this, h3, h2⟩
  · intro j hj hc
    rcases (hd.succ j).mp hc with h1 | ⟨h1, rfl⟩
    · have := hlt j h1
      omega
    · exact ⟨rfl, hd.extern h1⟩
  · unfold Graph.Calls
    rw [hd.succ, ← hun]
    refine ⟨fun h => ?_, fun h => .inr ⟨h, rfl⟩⟩
    rcases h with h | ⟨h, _⟩
    · have := hlt _ h
      omega
    · exact h

/-- Every node after those of the functions, in order. -/
theorem indirectLoop_nodes (ord : HashOrder) (hasUntyped : Bool) (fmts : List Nat) (void : Option Str)
    (L : List (FnSig × Indirect)) : ∀ (k : Nat) (g : Graph),
      (indirectLoop ord hasUntyped fmts void k g L).nodes =
        g.nodes ++ (L.filter (fun e => e.2.called)).flatMap (newNodes hasUntyped void) := by
  induction L with
  | nil => intro k g; simp [indirectLoop]
  | cons e L ih =>
    intro k g
    unfold indirectLoop
    rw [ih]
    by_cases hc : e.2.called = true
    · rw [indirectStep_called hc, List.filter_cons, if_pos hc]
      simp
    · rw [indirectStep_not_called hc, List.filter_cons, if_neg hc]

theorem filter_newNodes (hasUntyped : Bool) (void : Option Str) (L : List (FnSig × Indirect)) :
    (L.flatMap (newNodes hasUntyped void)).filter (·.dashed) = L.map (dashedNode void) := by
  induction L with
  | nil => rfl
  | cons e L ih =>
    rw [List.flatMap_cons, List.filter_append, ih]
    cases hasUntyped <;> rfl

/-- The dashed nodes, in order. -/
theorem RunFacts.dashedNodes (h : RunFacts demangle ord search p elf cs ext st0 stIr st g) :
    g.nodes.filter (·.dashed) =
      ((ord.perm _ 1 st.indirects).filter (fun e => e.2.called)).map (dashedNode (voidOf ord st)) := by
  have h0 : st.g.nodes.filter (·.dashed) = [] := by
    rw [List.filter_eq_nil_iff]
    intro nd hnd hd
    obtain ⟨k, hk⟩ := List.getElem?_of_mem hnd
    have hlt := (List.getElem?_eq_some_iff.mp hk).1
    obtain ⟨ns, hn⟩ := h.out.nodes
    by_cases h1 : k < (cs ++ ext).length
    · obtain ⟨nd', h2, _, h3, _⟩ := h.node (List.getElem?_eq_getElem h1)
      rw [hn, List.getElem?_append_left hlt, hk] at h2
      have := Option.some.inj h2
      subst this
      rw [h3] at hd
      simp at hd
    · have h3 := h.machine.new k (by omega) hlt
      rw [hk] at h3
      have := Option.some.inj h3
      subst this
      simp [questionNode, mkNode] at hd
  rw [h.graph]
  unfold addIndirects
  simp only
  rw [indirectLoop_nodes, List.filter_append, h0, filter_newNodes]
  rfl

end run

end CallStack
