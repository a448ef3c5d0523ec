import Verif.Proof.Maps
import Verif.Proof.Str
import Verif.Spec.Program

/-!
The pass over the defined symbols: what the maps contain afterwards.
-/

namespace CallStack

theorem isTag_iff (n : Str) : isTag n = true ↔ IsMappingSymbol n := by
  simp only [isTag, IsMappingSymbol, Bool.or_eq_true, beq_iff_eq, startsWith_iff]
  tauto

theorem mem_realNames (s : Sym) (n : Str) : n ∈ realNames s ↔ s.Named n := by
  simp only [realNames, List.mem_filter, Sym.Named, Bool.not_eq_true', ← isTag_iff]
  cases isTag n <;> simp

theorem getElem?_snoc {α : Type} (l : List α) (a x : α) (i : Nat) :
    (l ++ [a])[i]? = some x ↔ l[i]? = some x ∨ (i = l.length ∧ x = a) := by
  rcases Nat.lt_trichotomy i l.length with h | h | h
  · rw [List.getElem?_append_left h]
    constructor
    · exact Or.inl
    · rintro (h' | ⟨h', _⟩)
      · exact h'
      · omega
  · subst h
    simp only [List.getElem?_append_right (Nat.le_refl _), Nat.sub_self, List.getElem?_cons_zero,
      Option.some.injEq, List.getElem?_eq_none (Nat.le_refl _), true_and, reduceCtorEq, false_or]
    exact eq_comm
  · rw [List.getElem?_eq_none (by simp; omega), List.getElem?_eq_none (by omega)]
    simp
    omega

theorem canonicalOf_spec {ss : List (Str × Nat)} {names : List Str} {c : Str}
    (h : canonicalOf ss names = .ok c) :
    c ∈ names ∧ ((∃ n ∈ names, (mget n ss).isSome) → (mget c ss).isSome) := by
  unfold canonicalOf at h
  split at h
  · simp at h
  · simp only [Except.ok.injEq] at h
    subst h
    simp
  · rename_i n rest _
    split at h
    · rename_i needle hf
      simp only [Except.ok.injEq] at h
      subst h
      have := List.find?_some hf
      exact ⟨List.mem_of_find?_eq_some hf, fun _ => by simpa using this⟩
    · rename_i hf
      simp only [Except.ok.injEq] at h
      subst h
      refine ⟨List.mem_cons_self, ?_⟩
      rintro ⟨m, hm, hs⟩
      exact absurd hs (by simpa using List.find?_eq_none.mp hf m hm)

/-- The figure of the canonical name is the first figure of all names. -/
theorem canonicalOf_first {ss : List (Str × Nat)} {names : List Str} {c : Str}
    (h : canonicalOf ss names = .ok c) (k : Nat) :
    mget c ss = some k ↔ ∃ pre n post, names = pre ++ n :: post ∧ mget n ss = some k ∧
      ∀ n' ∈ pre, mget n' ss = none := by
  have key : ∀ (n : Str) (rest : List Str),
      (match (n :: rest).find? (fun name => (mget name ss).isSome) with
        | some needle => Except.ok needle
        | none => Except.ok n) = Except.ok (ε := Panic) c →
      (mget c ss = some k ↔ ∃ pre n' post, n :: rest = pre ++ n' :: post ∧ mget n' ss = some k ∧
        ∀ n'' ∈ pre, mget n'' ss = none) := by
    intro n rest h
    cases hf : (n :: rest).find? (fun name => (mget name ss).isSome) with
    | some needle =>
      rw [hf] at h
      simp only [Except.ok.injEq] at h
      subst h
      rw [List.find?_eq_some_iff_append] at hf
      obtain ⟨hs, as, bs, hab, has⟩ := hf
      constructor
      · intro hk
        exact ⟨as, needle, bs, hab, hk, fun n'' hn => by simpa using has n'' hn⟩
      · rintro ⟨pre, n', post, h1, h2, h3⟩
        rw [hab] at h1
        rcases List.append_eq_append_iff.mp h1 with ⟨l, h4, h5⟩ | ⟨l, h4, h5⟩
        · cases l with
          | nil =>
            simp only [List.nil_append, List.cons.injEq] at h5
            rw [h5.1]; exact h2
          | cons x l =>
            simp only [List.cons_append, List.cons.injEq] at h5
            have := h3 needle (by rw [h4, h5.1]; simp)
            rw [this] at hs
            simp at hs
        · cases l with
          | nil =>
            simp only [List.nil_append, List.cons.injEq] at h5
            rw [← h5.1]; exact h2
          | cons x l =>
            simp only [List.cons_append, List.cons.injEq] at h5
            have := has n' (by rw [h4, h5.1]; simp)
            rw [h2] at this
            simp at this
    | none =>
      rw [hf] at h
      simp only [Except.ok.injEq] at h
      subst h
      have hn := List.find?_eq_none.mp hf
      constructor
      · intro hk
        have := hn n List.mem_cons_self
        rw [hk] at this
        simp at this
      · rintro ⟨pre, n', post, h1, h2, _⟩
        have := hn n' (by rw [h1]; simp)
        rw [h2] at this
        simp at this
  unfold canonicalOf at h
  split at h
  · simp at h
  · rename_i n
    simp only [Except.ok.injEq] at h
    subst h
    apply key n []
    simp only [List.find?_cons, List.find?_nil]
    split
    · rename_i h; split at h <;> simp_all
    · rfl
  · rename_i n rest _
    exact key n rest h

theorem canonicalOf_ok {ss : List (Str × Nat)} {names : List Str} (h : names ≠ []) :
    ∃ c, canonicalOf ss names = .ok c := by
  unfold canonicalOf
  split
  · exact absurd rfl h
  · exact ⟨_, rfl⟩
  · split
    · exact ⟨_, rfl⟩
    · exact ⟨_, rfl⟩

/-- The signature under which a symbol with these names is registered. -/
def symSig (p : Program) (names : List Str) : Option FnSig :=
  match firstDefine p.defines names with
  | some d => some d.sig
  | none => firstDeclared p.declares names

/-- `j` is registered as a possible callee of signature `sig`. -/
def Callee (indirects : List (FnSig × Indirect)) (sig : FnSig) (j : Nat) : Prop :=
  ∃ ind, (sig, ind) ∈ indirects ∧ j ∈ ind.callees

theorem addCallee_nodup (sig : FnSig) (idx : Nat) (m : List (FnSig × Indirect))
    (h : (m.map (·.1)).Nodup) : ((addCallee sig idx m).map (·.1)).Nodup :=
  mset_nodup _ _ _ h

theorem addCallee_callee (sig : FnSig) (idx : Nat) (m : List (FnSig × Indirect))
    (h : (m.map (·.1)).Nodup) (s : FnSig) (j : Nat) :
    Callee (addCallee sig idx m) s j ↔ Callee m s j ∨ (s = sig ∧ j = idx) := by
  unfold Callee addCallee
  simp only [mset_mem_iff _ _ _ h]
  constructor
  · rintro ⟨ind, (he | ⟨he, _⟩), hj⟩
    · simp only [Prod.mk.injEq] at he
      obtain ⟨rfl, rfl⟩ := he
      simp only [mem_sinsert] at hj
      rcases hj with hj | hj
      · exact Or.inr ⟨rfl, hj⟩
      · left
        cases hm : mget s m with
        | none => simp [hm, Indirect.empty] at hj
        | some i =>
          rw [hm] at hj
          exact ⟨i, mget_mem hm, hj⟩
    · exact Or.inl ⟨ind, he, hj⟩
  · rintro (⟨ind, hm, hj⟩ | ⟨rfl, rfl⟩)
    · by_cases hs : s = sig
      · subst hs
        refine ⟨_, Or.inl rfl, ?_⟩
        rw [mget_of_mem h hm]
        simp [mem_sinsert, hj]
      · exact ⟨ind, Or.inr ⟨hm, hs⟩, hj⟩
    · exact ⟨_, Or.inl rfl, by simp [mem_sinsert]⟩

/-- No indirect call has been seen yet. -/
def Fresh (m : List (FnSig × Indirect)) : Prop :=
  ∀ e ∈ m, e.2.called = false ∧ e.2.callers = [] ∧ e.2.callees ≠ []

theorem addCallee_fresh (sig : FnSig) (idx : Nat) (m : List (FnSig × Indirect))
    (h : (m.map (·.1)).Nodup) (hf : Fresh m) : Fresh (addCallee sig idx m) := by
  intro e he
  unfold addCallee at he
  rw [mset_mem_iff _ _ _ h] at he
  rcases he with he | ⟨he, _⟩
  · subst he
    have hne : ∀ l : List Nat, sinsert idx l ≠ [] := by
      intro l hl
      have := (mem_sinsert idx idx l).mpr (Or.inl rfl)
      rw [hl] at this
      simp at this
    cases hm : mget sig m with
    | none => exact ⟨rfl, rfl, hne []⟩
    | some i =>
      have := hf _ (mget_mem hm)
      exact ⟨this.1, this.2.1, hne i.callees⟩
  · exact hf e he

theorem addCallee_calleesNodup (sig : FnSig) (idx : Nat) (m : List (FnSig × Indirect))
    (h : (m.map (·.1)).Nodup) (hf : ∀ e ∈ m, e.2.callees.Nodup) :
    ∀ e ∈ addCallee sig idx m, e.2.callees.Nodup := by
  intro e he
  unfold addCallee at he
  rw [mset_mem_iff _ _ _ h] at he
  rcases he with he | ⟨he, _⟩
  · subst he
    apply sinsert_nodup
    cases hm : mget sig m with
    | none => exact List.nodup_nil
    | some i => exact hf _ (mget_mem hm)
  · exact hf e he

/-- State after the symbols `done` with canonical names `cs`. -/
structure SymInv (demangle : Str → Str) (p : Program) (done : List (Nat × Sym)) (cs : List Str)
    (st : Build) : Prop where
  len : cs.length = done.length
  canon : ∀ (i : Nat) (e : Nat × Sym) (c : Str), done[i]? = some e → cs[i]? = some c →
    canonicalOf p.stackSizes (realNames e.2) = .ok c
  nodes : st.g.nodes = cs.map (fun c => mkNode c (mget c p.stackSizes) false)
  gedges : st.g.edges = []
  edges : st.edges = []
  defined : st.defined = []
  asmFns : st.asmFns = []
  aliases_some : ∀ (n c : Str), mget n st.aliases = some c →
    ∃ (i : Nat) (e : Nat × Sym), done[i]? = some e ∧ cs[i]? = some c ∧ n ∈ realNames e.2
  aliases_ne : ∀ (n : Str) (i : Nat) (e : Nat × Sym), done[i]? = some e → n ∈ realNames e.2 →
    mget n st.aliases ≠ none
  indices_some : ∀ (c : Str) (i : Nat), mget c st.indices = some i → cs[i]? = some c
  indices_ne : ∀ c ∈ cs, mget c st.indices ≠ none
  addr_some : ∀ (a : Nat) (c : Str), mget a st.addr2name = some c →
    ∃ (i : Nat) (s : Sym), done[i]? = some (a, s) ∧ cs[i]? = some c
  addr_ne : ∀ (i : Nat) (e : Nat × Sym), done[i]? = some e → mget e.1 st.addr2name ≠ none
  keys : (st.indirects.map (·.1)).Nodup
  fresh : Fresh st.indirects
  calleesNodup : ∀ e ∈ st.indirects, e.2.callees.Nodup
  callee : ∀ (sig : FnSig) (j : Nat), Callee st.indirects sig j ↔
    ∃ e, done[j]? = some e ∧ symSig p (realNames e.2) = some sig
  fmts : ∀ (j : Nat), j ∈ st.fmts ↔
    ∃ e d, done[j]? = some e ∧ firstDefine p.defines (realNames e.2) = some d ∧ isFmtSig d.sig
  fmtsNodup : st.fmts.Nodup
  untyped : st.hasUntypedSymbols = true ↔
    ∃ (j : Nat) (e : Nat × Sym) (c : Str), done[j]? = some e ∧ cs[j]? = some c ∧
      symSig p (realNames e.2) = none ∧ isOutlined c = false
  info : st.hasStackUsageInfo = true ↔ ∃ c ∈ cs, (mget c p.stackSizes).isSome
  ambiguous : st.ambiguous = ambiguousOf demangle cs

theorem aliases_fold (names : List Str) (c : Str) (m : List (Str × Str)) (n : Str) :
    mget n (names.foldl (fun m name => mset name c m) m) =
      if n ∈ names then some c else mget n m := by
  induction names generalizing m with
  | nil => simp
  | cons a names ih =>
    simp only [List.foldl_cons, ih, List.mem_cons, mget_mset]
    by_cases h1 : n ∈ names
    · simp [h1]
    · by_cases h2 : n = a
      · simp [h2]
      · have h3 : ¬ a = n := fun h => h2 h.symm
        simp only [h1, h2, h3, if_false, or_self]

theorem SymInv.empty (demangle : Str → Str) (p : Program) : SymInv demangle p [] [] Build.empty where
  len := rfl
  canon := by simp
  nodes := rfl
  gedges := rfl
  edges := rfl
  defined := rfl
  asmFns := rfl
  aliases_some := by simp [Build.empty, mget]
  aliases_ne := by simp
  indices_some := by simp [Build.empty, mget]
  indices_ne := by simp
  addr_some := by simp [Build.empty, mget]
  addr_ne := by simp
  keys := by simp [Build.empty]
  fresh := by simp [Build.empty, Fresh]
  calleesNodup := by simp [Build.empty]
  callee := by simp [Build.empty, Callee]
  fmts := by simp [Build.empty]
  fmtsNodup := by simp [Build.empty]
  untyped := by simp [Build.empty]
  info := by simp [Build.empty]
  ambiguous := rfl

/-- The parts of the state that `registerType` does not touch. -/
theorem registerType_frame (p : Program) (names : List Str) (c : Str) (idx : Nat) (st : Build) :
    let st' := registerType p names c idx st
    st'.g = st.g ∧ st'.indices = st.indices ∧ st'.aliases = st.aliases ∧
      st'.ambiguous = st.ambiguous ∧ st'.hasStackUsageInfo = st.hasStackUsageInfo ∧
      st'.addr2name = st.addr2name ∧ st'.asmFns = st.asmFns ∧ st'.edges = st.edges ∧
      st'.defined = st.defined := by
  unfold registerType
  split
  · simp
  · split
    · simp
    · split <;> simp

theorem symStep_inv {demangle : Str → Str} {p : Program} {done : List (Nat × Sym)} {cs : List Str}
    {st st' : Build} {e : Nat × Sym} (inv : SymInv demangle p done cs st)
    (h : symStep demangle p st e = .ok st') :
    ∃ c, SymInv demangle p (done ++ [e]) (cs ++ [c]) st' := by
  unfold symStep at h
  simp only at h
  split at h
  · simp at h
  · rename_i c hc
    simp only [Graph.addNode, Except.ok.injEq] at h
    refine ⟨c, ?_⟩
    have hlen : st.g.nodes.length = done.length := by rw [inv.nodes, List.length_map, inv.len]
    rw [hlen] at h
    subst h
    generalize hst0 : ({ st with
        g := { nodes := st.g.nodes ++ [mkNode c (mget c p.stackSizes) false], edges := st.g.edges }
        aliases := (realNames e.2).foldl (fun m name => mset name c m) st.aliases
        addr2name := mset e.1 c st.addr2name
        hasStackUsageInfo := st.hasStackUsageInfo || (mget c p.stackSizes).isSome
        ambiguous := countName demangle st.ambiguous c
        indices := mset c done.length st.indices } : Build) = st0
    obtain ⟨fg, fi, fa, fam, fh, fad, fas, fe, fd⟩ :=
      registerType_frame p (realNames e.2) c done.length st0
    -- the typed part
    have htyped :
        let st1 := registerType p (realNames e.2) c done.length st0
        (st1.indirects.map (·.1)).Nodup ∧ Fresh st1.indirects ∧
        (∀ e ∈ st1.indirects, e.2.callees.Nodup) ∧
        (∀ (sig : FnSig) (j : Nat), Callee st1.indirects sig j ↔ Callee st.indirects sig j ∨
          (j = done.length ∧ symSig p (realNames e.2) = some sig)) ∧
        (∀ j, j ∈ st1.fmts ↔ j ∈ st.fmts ∨ (j = done.length ∧
          ∃ d, firstDefine p.defines (realNames e.2) = some d ∧ isFmtSig d.sig)) ∧
        st1.fmts.Nodup ∧
        (st1.hasUntypedSymbols = true ↔ st.hasUntypedSymbols = true ∨
          (symSig p (realNames e.2) = none ∧ isOutlined c = false)) := by
      have e1 : st0.indirects = st.indirects := by rw [← hst0]
      have e2 : st0.fmts = st.fmts := by rw [← hst0]
      have e3 : st0.hasUntypedSymbols = st.hasUntypedSymbols := by rw [← hst0]
      unfold registerType symSig
      cases hd : firstDefine p.defines (realNames e.2) with
      | some d =>
        simp only [e1, e2, e3]
        refine ⟨addCallee_nodup _ _ _ inv.keys, addCallee_fresh _ _ _ inv.keys inv.fresh,
          addCallee_calleesNodup _ _ _ inv.keys inv.calleesNodup, ?_, ?_, ?_, ?_⟩
        · intro sig j
          rw [addCallee_callee _ _ _ inv.keys]
          simp only [Option.some.injEq]
          constructor
          · rintro (h | ⟨h1, h2⟩)
            · exact Or.inl h
            · exact Or.inr ⟨h2, h1.symm⟩
          · rintro (h | ⟨h1, h2⟩)
            · exact Or.inl h
            · exact Or.inr ⟨h2.symm, h1⟩
        · intro j
          by_cases hf : isFmtSig d.sig = true
          · simp only [hf, if_true, mem_sinsert]
            constructor
            · rintro (h | h)
              · exact Or.inr ⟨h, d, rfl, hf⟩
              · exact Or.inl h
            · rintro (h | ⟨h, _⟩)
              · exact Or.inr h
              · exact Or.inl h
          · simp only [hf]
            constructor
            · exact Or.inl
            · rintro (h | ⟨_, d', hd', h⟩)
              · exact h
              · simp only [Option.some.injEq] at hd'
                exact absurd (hd' ▸ h) hf
        · split
          · exact sinsert_nodup _ _ inv.fmtsNodup
          · exact inv.fmtsNodup
        · simp
      | none =>
        cases hs : firstDeclared p.declares (realNames e.2) with
        | some sig =>
          simp only [e1, e2, e3]
          refine ⟨addCallee_nodup _ _ _ inv.keys, addCallee_fresh _ _ _ inv.keys inv.fresh,
            addCallee_calleesNodup _ _ _ inv.keys inv.calleesNodup, ?_, ?_, inv.fmtsNodup, ?_⟩
          · intro sig' j
            rw [addCallee_callee _ _ _ inv.keys]
            simp only [Option.some.injEq]
            constructor
            · rintro (h | ⟨h1, h2⟩)
              · exact Or.inl h
              · exact Or.inr ⟨h2, h1.symm⟩
            · rintro (h | ⟨h1, h2⟩)
              · exact Or.inl h
              · exact Or.inr ⟨h2.symm, h1⟩
          · simp
          · simp
        | none =>
          by_cases ho : isOutlined c = true
          · simp only [ho, if_true, e1, e2, e3]
            exact ⟨inv.keys, inv.fresh, inv.calleesNodup, by simp, by simp, inv.fmtsNodup, by simp⟩
          · simp only [ho, e1, e2]
            refine ⟨inv.keys, inv.fresh, inv.calleesNodup, by simp, by simp, inv.fmtsNodup, by simp⟩
    obtain ⟨t1, t2, t3, t4, t5, t6, t7⟩ := htyped
    subst hst0
    simp only at fg fi fa fam fh fad fas fe fd
    constructor
    · simp [inv.len]
    · intro i e' c' he' hc'
      rw [getElem?_snoc] at he' hc'
      rcases he' with he' | ⟨hi, he'⟩
      · rcases hc' with hc' | ⟨hi', _⟩
        · exact inv.canon i e' c' he' hc'
        · have := (List.getElem?_eq_some_iff.mp he').1
          have := inv.len
          omega
      · rcases hc' with hc' | ⟨_, hc'⟩
        · have := (List.getElem?_eq_some_iff.mp hc').1
          have := inv.len
          omega
        · rw [he', hc']; exact hc
    · rw [fg]; simp [inv.nodes]
    · rw [fg]; exact inv.gedges
    · rw [fe]; exact inv.edges
    · rw [fd]; exact inv.defined
    · rw [fas]; exact inv.asmFns
    · intro n c' h
      rw [fa, aliases_fold] at h
      split at h
      · rename_i hn
        simp only [Option.some.injEq] at h
        subst h
        exact ⟨done.length, e, by simp, by simp [← inv.len], hn⟩
      · obtain ⟨i, e', h1, h2, h3⟩ := inv.aliases_some n c' h
        exact ⟨i, e', (getElem?_snoc _ _ _ _).mpr (Or.inl h1),
          (getElem?_snoc _ _ _ _).mpr (Or.inl h2), h3⟩
    · intro n i e' he' hn
      rw [fa, aliases_fold]
      split
      · simp
      · rename_i hn'
        rw [getElem?_snoc] at he'
        rcases he' with he' | ⟨_, he'⟩
        · exact inv.aliases_ne n i e' he' hn
        · rw [he'] at hn
          exact absurd hn hn'
    · intro c' i h
      rw [fi, mget_mset] at h
      split at h
      · rename_i hcc
        simp only [Option.some.injEq] at h
        subst h; subst hcc
        simp [← inv.len]
      · exact (getElem?_snoc _ _ _ _).mpr (Or.inl (inv.indices_some c' i h))
    · intro c' hc'
      rw [fi, mget_mset]
      split
      · simp
      · rename_i hne
        rcases List.mem_append.mp hc' with h | h
        · exact inv.indices_ne c' h
        · simp only [List.mem_singleton] at h
          exact absurd h.symm hne
    · intro a c' h
      rw [fad, mget_mset] at h
      split at h
      · rename_i ha
        simp only [Option.some.injEq] at h
        subst h; subst ha
        exact ⟨done.length, e.2, by simp, by simp [← inv.len]⟩
      · obtain ⟨i, s, h1, h2⟩ := inv.addr_some a c' h
        exact ⟨i, s, (getElem?_snoc _ _ _ _).mpr (Or.inl h1),
          (getElem?_snoc _ _ _ _).mpr (Or.inl h2)⟩
    · intro i e' he'
      rw [fad, mget_mset]
      split
      · simp
      · rename_i hne
        rw [getElem?_snoc] at he'
        rcases he' with he' | ⟨_, he'⟩
        · exact inv.addr_ne i e' he'
        · rw [he'] at hne
          exact absurd rfl hne
    · exact t1
    · exact t2
    · exact t3
    · intro sig j
      rw [t4, inv.callee]
      constructor
      · rintro (⟨e', h1, h2⟩ | ⟨h1, h2⟩)
        · exact ⟨e', (getElem?_snoc _ _ _ _).mpr (Or.inl h1), h2⟩
        · exact ⟨e, (getElem?_snoc _ _ _ _).mpr (Or.inr ⟨h1, rfl⟩), h2⟩
      · rintro ⟨e', h1, h2⟩
        rcases (getElem?_snoc _ _ _ _).mp h1 with h1 | ⟨h1, h3⟩
        · exact Or.inl ⟨e', h1, h2⟩
        · exact Or.inr ⟨h1, h3 ▸ h2⟩
    · intro j
      rw [t5, inv.fmts]
      constructor
      · rintro (⟨e', d, h1, h2⟩ | ⟨h1, d, h2⟩)
        · exact ⟨e', d, (getElem?_snoc _ _ _ _).mpr (Or.inl h1), h2⟩
        · exact ⟨e, d, (getElem?_snoc _ _ _ _).mpr (Or.inr ⟨h1, rfl⟩), h2⟩
      · rintro ⟨e', d, h1, h2⟩
        rcases (getElem?_snoc _ _ _ _).mp h1 with h1 | ⟨h1, h3⟩
        · exact Or.inl ⟨e', d, h1, h2⟩
        · exact Or.inr ⟨h1, d, h3 ▸ h2⟩
    · exact t6
    · rw [t7, inv.untyped]
      constructor
      · rintro (⟨j, e', c', h1, h2, h3⟩ | ⟨h1, h2⟩)
        · exact ⟨j, e', c', (getElem?_snoc _ _ _ _).mpr (Or.inl h1),
            (getElem?_snoc _ _ _ _).mpr (Or.inl h2), h3⟩
        · exact ⟨done.length, e, c, by simp, by simp [← inv.len], h1, h2⟩
      · rintro ⟨j, e', c', h1, h2, h3⟩
        rcases (getElem?_snoc _ _ _ _).mp h1 with h1 | ⟨h1, h4⟩
        · rcases (getElem?_snoc _ _ _ _).mp h2 with h2 | ⟨h2, _⟩
          · exact Or.inl ⟨j, e', c', h1, h2, h3⟩
          · have := (List.getElem?_eq_some_iff.mp h1).1
            have := inv.len
            omega
        · rcases (getElem?_snoc _ _ _ _).mp h2 with h2 | ⟨_, h2⟩
          · have := (List.getElem?_eq_some_iff.mp h2).1
            have := inv.len
            omega
          · rw [h4, h2] at h3
            exact Or.inr h3
    · rw [fh, Bool.or_eq_true, inv.info]
      simp [or_and_right, exists_or]
    · rw [fam, inv.ambiguous]
      simp [ambiguousOf, List.foldl_append]

theorem symPass_inv {demangle : Str → Str} {p : Program} (es : List (Nat × Sym)) :
    ∀ {done : List (Nat × Sym)} {cs : List Str} {st st' : Build}, SymInv demangle p done cs st →
      symPass demangle p st es = .ok st' → ∃ cs', SymInv demangle p (done ++ es) cs' st' := by
  induction es with
  | nil =>
    intro done cs st st' inv h
    simp only [symPass, Except.ok.injEq] at h
    subst h
    exact ⟨cs, by simpa using inv⟩
  | cons e es ih =>
    intro done cs st st' inv h
    unfold symPass at h
    split at h
    · simp at h
    · rename_i st1 h1
      obtain ⟨c, inv1⟩ := symStep_inv inv h1
      obtain ⟨cs', inv2⟩ := ih inv1 h
      exact ⟨cs', by simpa using inv2⟩

/-- The pass fails only on a symbol all of whose names are mapping symbols. -/
theorem symPass_ok {demangle : Str → Str} {p : Program} (es : List (Nat × Sym))
    (hn : ∀ e ∈ es, realNames e.2 ≠ []) (st : Build) : ∃ st', symPass demangle p st es = .ok st' := by
  induction es generalizing st with
  | nil => exact ⟨st, rfl⟩
  | cons e es ih =>
    obtain ⟨c, hc⟩ := canonicalOf_ok (ss := p.stackSizes) (hn e List.mem_cons_self)
    unfold symPass symStep
    simp only [hc]
    exact ih (fun e' he' => hn e' (List.mem_cons_of_mem _ he')) _

theorem frame_iff {p : Program} {i : Nat} {e : Nat × Sym} {c : Str} (he : p.defined[i]? = some e)
    (hc : canonicalOf p.stackSizes (realNames e.2) = .ok c) (k : Nat) :
    p.Frame i k ↔ mget c p.stackSizes = some k := by
  rw [canonicalOf_first hc]
  have hreal : ∀ n, isTag n = false ↔ ¬ IsMappingSymbol n := by
    intro n
    rw [← isTag_iff]
    simp
  constructor
  · rintro ⟨a, s, pre, n, post, h1, h2, h3, h4, h5⟩
    rw [he] at h1
    have := Option.some.inj h1
    subst this
    refine ⟨pre.filter (fun n => !isTag n), n, post.filter (fun n => !isTag n), ?_, h4, ?_⟩
    · simp only [realNames, h2, List.filter_append]
      rw [List.filter_cons_of_pos]
      simp [(hreal n).mpr h3]
    · intro n' hn'
      simp only [List.mem_filter, Bool.not_eq_true'] at hn'
      rcases h5 n' hn'.1 with h | h
      · exact absurd h ((hreal n').mp hn'.2)
      · cases hm : mget n' p.stackSizes with
        | none => rfl
        | some k' => exact absurd hm (h k')
  · rintro ⟨pre, n, post, h1, h2, h3⟩
    unfold realNames at h1
    rw [List.filter_eq_append_iff] at h1
    obtain ⟨l1, l2, h4, h5, h6⟩ := h1
    rw [List.filter_eq_cons_iff] at h6
    obtain ⟨l3, l4, h7, h8, h9, h10⟩ := h6
    refine ⟨e.1, e.2, l1 ++ l3, n, l4, he, by rw [h4, h7]; simp, ?_, h2, ?_⟩
    · rw [← hreal]; simpa using h9
    · intro n' hn'
      rcases List.mem_append.mp hn' with h | h
      · by_cases ht : isTag n' = true
        · exact Or.inl ((isTag_iff n').mp ht)
        · right
          intro k' hk'
          have : n' ∈ pre := by
            rw [← h5]
            simp only [List.mem_filter, Bool.not_eq_true']
            exact ⟨h, by simpa using ht⟩
          have := h3 n' this
          unfold Program.Reported at hk'
          rw [this] at hk'
          simp at hk'
      · left
        rw [← isTag_iff]
        have := h8 n' h
        simpa using this

end CallStack
