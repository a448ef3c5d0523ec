import Verif.Model.Build
import Verif.Proof.Symbols

/-!
Invariants of the pass over the LLVM-IR definitions.
-/

namespace CallStack

/-- The map `indices` numbers the names `ns` of the nodes. -/
def Indexed (ns : List Str) (m : List (Str × Nat)) : Prop :=
  ∀ (name : Str) (k : Nat), mget name m = some k ↔ ns[k]? = some name

theorem Indexed.none {ns : List Str} {m : List (Str × Nat)} (h : Indexed ns m) {name : Str} :
    mget name m = none ↔ name ∉ ns := by
  constructor
  · intro hn hm
    obtain ⟨k, hk⟩ := List.getElem?_of_mem hm
    rw [(h name k).mpr hk] at hn
    simp at hn
  · intro hn
    cases hm : mget name m with
    | none => rfl
    | some k => exact absurd (List.mem_of_getElem? ((h name k).mp hm)) hn

theorem Indexed.snoc {ns : List Str} {m : List (Str × Nat)} (h : Indexed ns m) {name : Str}
    (hn : name ∉ ns) : Indexed (ns ++ [name]) (mset name ns.length m) := by
  intro name' k
  rw [mget_mset, getElem?_snoc]
  split
  · rename_i he
    subst he
    simp only [Option.some.injEq]
    constructor
    · exact fun h => Or.inr ⟨h.symm, trivial⟩
    · rintro (h' | ⟨h', _⟩)
      · exact absurd (List.mem_of_getElem? h') hn
      · exact h'.symm
  · rename_i he
    rw [h]
    constructor
    · exact Or.inl
    · rintro (h' | ⟨_, h'⟩)
      · exact h'
      · exact absurd h'.symm he

theorem Indexed.inj {ns : List Str} {m : List (Str × Nat)} (h : Indexed ns m) {name : Str}
    {i j : Nat} (hi : ns[i]? = some name) (hj : ns[j]? = some name) : i = j := by
  rw [← h] at hi hj
  rw [hi] at hj
  exact Option.some.inj hj

/-- Nodes, index and bookkeeping of the edges. `base` are the nodes of the live functions and `cs`
their names; `ext` are the names of the nodes added later. -/
structure Shape (base : List Node) (cs ext : List Str) (st : Build) : Prop where
  nodes : st.g.nodes = base ++ ext.map (fun n => mkNode n none false)
  blen : base.length = cs.length
  idx : Indexed (cs ++ ext) st.indices
  wf : ∀ e ∈ st.g.edges, e.1 < cs.length ∧ e.2 < (cs ++ ext).length
  seen : ∀ i j, j ∈ st.seen i → (i, j) ∈ st.g.edges

theorem Shape.lt {base : List Node} {cs ext : List Str} {st : Build} (h : Shape base cs ext st)
    {name : Str} {k : Nat} (hk : mget name st.indices = some k) : k < (cs ++ ext).length :=
  (List.getElem?_eq_some_iff.mp ((h.idx name k).mp hk)).1

/-! ### `call` -/

theorem seen_set (st : Build) (i a : Nat) (l : List Nat) (st' : Build)
    (h : st'.edges = mset i l st.edges) : st'.seen a = if i = a then l else st.seen a := by
  unfold Build.seen
  rw [h, mget_mset]
  split <;> rfl

theorem mem_call_edges {st : Build} {i j : Nat} (hs : j ∈ st.seen i → (i, j) ∈ st.g.edges)
    (e : Nat × Nat) :
    e ∈ (st.call i j).g.edges ↔ e ∈ st.g.edges ∨ e = (i, j) := by
  unfold Build.call
  split
  · rename_i h
    have h' : j ∈ st.seen i := by simpa using h
    constructor
    · exact Or.inl
    · rintro (h | h)
      · exact h
      · exact h ▸ hs h'
  · simp [Graph.addEdge]

theorem mem_call_seen (st : Build) (i j a b : Nat) :
    b ∈ (st.call i j).seen a ↔ b ∈ st.seen a ∨ (a = i ∧ b = j) := by
  unfold Build.call
  split
  · rename_i h
    have h' : j ∈ st.seen i := by simpa using h
    constructor
    · exact Or.inl
    · rintro (h | ⟨rfl, rfl⟩)
      · exact h
      · exact h'
  · rw [seen_set st i a (j :: st.seen i) _ rfl]
    split
    · rename_i h
      subst h
      simp only [List.mem_cons]
      tauto
    · rename_i h
      constructor
      · exact Or.inl
      · rintro (h' | ⟨h', _⟩)
        · exact h'
        · exact absurd h'.symm h

/-- `call` only changes the edges. -/
theorem call_frame (st : Build) (i j : Nat) :
    (st.call i j).g.nodes = st.g.nodes ∧ (st.call i j).indices = st.indices ∧
    (st.call i j).indirects = st.indirects ∧ (st.call i j).fmts = st.fmts ∧
    (st.call i j).aliases = st.aliases ∧ (st.call i j).ambiguous = st.ambiguous ∧
    (st.call i j).hasStackUsageInfo = st.hasStackUsageInfo ∧
    (st.call i j).hasUntypedSymbols = st.hasUntypedSymbols ∧
    (st.call i j).addr2name = st.addr2name ∧ (st.call i j).asmFns = st.asmFns ∧
    (st.call i j).defined = st.defined := by
  unfold Build.call
  split <;> simp [Graph.addEdge]

theorem Shape.call {base : List Node} {cs ext : List Str} {st : Build} (h : Shape base cs ext st)
    {i j : Nat} (hi : i < cs.length) (hj : j < (cs ++ ext).length) :
    Shape base cs ext (st.call i j) := by
  obtain ⟨f1, f2, -⟩ := call_frame st i j
  constructor
  · rw [f1]; exact h.nodes
  · exact h.blen
  · rw [f2]; exact h.idx
  · intro e he
    rcases (mem_call_edges (h.seen i j) e).mp he with he | he
    · exact h.wf e he
    · subst he
      exact ⟨hi, hj⟩
  · intro a b hb
    rw [mem_call_edges (h.seen i j)]
    rcases (mem_call_seen st i j a b).mp hb with hb | ⟨ha, hb⟩
    · exact Or.inl (h.seen a b hb)
    · right; rw [ha, hb]

/-- Every edge from `a` was recorded in `callees_seen`, and none was added twice. -/
structure Single (st : Build) (a : Nat) : Prop where
  count : ∀ j, st.g.edges.count (a, j) ≤ 1
  seen : ∀ j, (a, j) ∈ st.g.edges → j ∈ st.seen a

theorem Single.call {st : Build} {a : Nat} (h : Single st a)
    (hs : ∀ i j, j ∈ st.seen i → (i, j) ∈ st.g.edges) (i j : Nat) : Single (st.call i j) a := by
  constructor
  · intro b
    unfold Build.call
    split
    · exact h.count b
    · rename_i hc
      have hc' : j ∉ st.seen i := by simpa using hc
      simp only [Graph.addEdge, List.count_append, List.count_singleton]
      split
      · rename_i he
        simp only [beq_iff_eq, Prod.mk.injEq] at he
        obtain ⟨rfl, rfl⟩ := he
        rw [List.count_eq_zero_of_not_mem (fun hm => hc' (h.seen _ hm))]
        exact Nat.le_refl _
      · exact h.count b
  · intro b hab
    rw [mem_call_seen]
    rcases (mem_call_edges (hs i j) _).mp hab with hab | hab
    · exact Or.inl (h.seen b hab)
    · simp only [Prod.mk.injEq] at hab
      exact Or.inr hab

/-! ### `getOrAddNode` -/

theorem getOrAddNode_spec {base : List Node} {cs ext : List Str} {st : Build}
    (h : Shape base cs ext st) (name : Str) :
    ∃ ext', Shape base cs ext' (st.getOrAddNode name).1 ∧
      (cs ++ ext')[(st.getOrAddNode name).2]? = some name ∧
      (ext' = ext ∨ (ext' = ext ++ [name] ∧ name ∉ cs ++ ext)) ∧
      (st.getOrAddNode name).1.g.edges = st.g.edges ∧
      (st.getOrAddNode name).1.edges = st.edges := by
  unfold Build.getOrAddNode
  cases hm : mget name st.indices with
  | some idx => exact ⟨ext, h, (h.idx name idx).mp hm, Or.inl rfl, rfl, rfl⟩
  | none =>
    have hn : name ∉ cs ++ ext := h.idx.none.mp hm
    have hlen : st.g.nodes.length = (cs ++ ext).length := by
      rw [h.nodes]; simp [h.blen]
    refine ⟨ext ++ [name], ?_, ?_, Or.inr ⟨rfl, hn⟩, rfl, rfl⟩
    · constructor
      · simp [Graph.addNode, h.nodes]
      · exact h.blen
      · simp only [Graph.addNode, hlen]
        rw [← List.append_assoc]
        exact h.idx.snoc hn
      · intro e he
        have := h.wf e he
        simp only [List.length_append, List.length_cons, List.length_nil] at this ⊢
        omega
      · exact h.seen
    · simp only [Graph.addNode, hlen]
      rw [← List.append_assoc, List.getElem?_concat_length]

theorem getOrAddNode_frame (st : Build) (name : Str) :
    let st' := (st.getOrAddNode name).1
    st'.indirects = st.indirects ∧ st'.fmts = st.fmts ∧ st'.aliases = st.aliases ∧
    st'.ambiguous = st.ambiguous ∧ st'.hasStackUsageInfo = st.hasStackUsageInfo ∧
    st'.hasUntypedSymbols = st.hasUntypedSymbols ∧ st'.addr2name = st.addr2name ∧
    st'.asmFns = st.asmFns ∧ st'.defined = st.defined := by
  unfold Build.getOrAddNode
  split <;> simp

/-! ### `callRoutines` -/

theorem callRoutines_frame (caller : Nat) (routines : List Str) (st : Build) :
    let st' := st.callRoutines caller routines
    st'.g.nodes = st.g.nodes ∧ st'.indices = st.indices ∧
    st'.indirects = st.indirects ∧ st'.fmts = st.fmts ∧
    st'.aliases = st.aliases ∧ st'.ambiguous = st.ambiguous ∧
    st'.hasStackUsageInfo = st.hasStackUsageInfo ∧
    st'.hasUntypedSymbols = st.hasUntypedSymbols ∧
    st'.addr2name = st.addr2name ∧ st'.asmFns = st.asmFns ∧
    st'.defined = st.defined := by
  unfold Build.callRoutines
  induction routines generalizing st with
  | nil => simp
  | cons r rs ih =>
    simp only [List.foldl_cons]
    split
    · rename_i callee _
      obtain ⟨a1, a2, a3, a4, a5, a6, a7, a8, a9, a10, a11⟩ := ih (st.call caller callee)
      obtain ⟨b1, b2, b3, b4, b5, b6, b7, b8, b9, b10, b11⟩ := call_frame st caller callee
      exact ⟨a1.trans b1, a2.trans b2, a3.trans b3, a4.trans b4, a5.trans b5, a6.trans b6,
        a7.trans b7, a8.trans b8, a9.trans b9, a10.trans b10, a11.trans b11⟩
    · exact ih st

theorem callRoutines_spec {base : List Node} {cs ext : List Str} (caller : Nat)
    (hc : caller < cs.length) (routines : List Str) :
    ∀ {st : Build}, Shape base cs ext st →
      Shape base cs ext (st.callRoutines caller routines) ∧
      (∀ e, e ∈ (st.callRoutines caller routines).g.edges ↔
        e ∈ st.g.edges ∨ ∃ r ∈ routines, e.1 = caller ∧ (cs ++ ext)[e.2]? = some r) ∧
      (∀ a, Single st a → Single (st.callRoutines caller routines) a) := by
  induction routines with
  | nil =>
    intro st h
    simp [Build.callRoutines, h]
  | cons r rs ih =>
    intro st h
    have hstep : st.callRoutines caller (r :: rs) =
        (match mget r st.indices with
          | some callee => st.call caller callee
          | none => st).callRoutines caller rs := by
      rfl
    rw [hstep]
    cases hm : mget r st.indices with
    | some callee =>
      simp only
      have hr := (h.idx r callee).mp hm
      obtain ⟨i1, i2, i3⟩ := ih (h.call hc (h.lt hm))
      refine ⟨i1, ?_, fun a hs => i3 a (hs.call h.seen _ _)⟩
      intro e
      rw [i2, mem_call_edges (h.seen _ _)]
      constructor
      · rintro ((he | he) | ⟨r', hr', he⟩)
        · exact Or.inl he
        · subst he
          exact Or.inr ⟨r, List.mem_cons_self, rfl, hr⟩
        · exact Or.inr ⟨r', List.mem_cons_of_mem _ hr', he⟩
      · rintro (he | ⟨r', hr', he1, he2⟩)
        · exact Or.inl (Or.inl he)
        · rcases List.mem_cons.mp hr' with hr' | hr'
          · subst hr'
            refine Or.inl (Or.inr ?_)
            have := h.idx.inj he2 hr
            rw [← he1, ← this]
          · exact Or.inr ⟨r', hr', he1, he2⟩
    | none =>
      simp only
      obtain ⟨i1, i2, i3⟩ := ih h
      refine ⟨i1, ?_, i3⟩
      intro e
      rw [i2]
      constructor
      · rintro (he | ⟨r', hr', he⟩)
        · exact Or.inl he
        · exact Or.inr ⟨r', List.mem_cons_of_mem _ hr', he⟩
      · rintro (he | ⟨r', hr', he1, he2⟩)
        · exact Or.inl he
        · rcases List.mem_cons.mp hr' with hr' | hr'
          · subst hr'
            exact absurd (List.mem_of_getElem? he2) (h.idx.none.mp hm)
          · exact Or.inr ⟨r', hr', he1, he2⟩

/-! ### Targets of statements -/

/-- The name of a node to which a statement may add an edge. `al` is the map of aliases. -/
def MayTarget (thumb : Bool) (al : List (Str × Str)) (undefined ns : List Str) (s : Stmt)
    (name : Str) : Prop :=
  match s with
  | .bitcastCall (some sym) => name = sym
  | .directCall f =>
    (∃ routines, classify thumb f = .memory routines ∧ name ∈ routines) ∨
    (classify thumb f = .plain ∧ (f ∈ symbollessIntrinsics → f ∈ ns) ∧
      (mget f al = some name ∨ (mget f al = none ∧ f ∈ undefined ∧ name = f)))
  | _ => False

theorem MayTarget.mono {thumb : Bool} {al : List (Str × Str)} {undefined ns ns' : List Str} {s : Stmt}
    {name : Str} (h : MayTarget thumb al undefined ns s name) (hs : ∀ n ∈ ns, n ∈ ns') :
    MayTarget thumb al undefined ns' s name := by
  unfold MayTarget at *
  split at h
  · exact h
  · rcases h with h | ⟨h1, h2, h3⟩
    · exact Or.inl h
    · exact Or.inr ⟨h1, fun hf => hs _ (h2 hf), h3⟩
  · exact h.elim

/-- The name of a node to which a statement is sure to add an edge; `cs` are the names of the nodes of
the live functions. -/
def MustTarget (thumb : Bool) (al : List (Str × Str)) (cs : List Str) (s : Stmt) (name : Str) : Prop :=
  match s with
  | .bitcastCall (some sym) => name = sym
  | .directCall f =>
    (∃ routines, classify thumb f = .memory routines ∧ name ∈ routines ∧ name ∈ cs) ∨
    (classify thumb f = .plain ∧ ¬ (f ∈ symbollessIntrinsics ∧ f ∉ cs) ∧
      (mget f al = some name ∨ (mget f al = none ∧ name = f)))
  | _ => False

/-- Why a node that is no live function exists. -/
def WhyExt (thumb : Bool) (al : List (Str × Str)) (undefined : List Str) (s : Stmt) (name : Str) :
    Prop :=
  s = .bitcastCall (some name) ∨
  (s = .directCall name ∧ classify thumb name = .plain ∧ mget name al = none ∧ name ∈ undefined ∧
    name ∉ symbollessIntrinsics)

/-- State after the statements described by `P` (function number, statement) have been processed.
`st0` is the state after the pass over the symbols. -/
structure IrInv (p : Program) (base : List Node) (cs : List Str) (st0 : Build)
    (P : Nat → Stmt → Prop) (ext : List Str) (st : Build) : Prop where
  shape : Shape base cs ext st
  aliases : st.aliases = st0.aliases
  fmts : st.fmts = st0.fmts
  ambiguous : st.ambiguous = st0.ambiguous
  info : st.hasStackUsageInfo = st0.hasStackUsageInfo
  untyped : st.hasUntypedSymbols = st0.hasUntypedSymbols
  addr : st.addr2name = st0.addr2name
  sound : ∀ e ∈ st.g.edges, ∃ s name, P e.1 s ∧ (cs ++ ext)[e.2]? = some name ∧
    MayTarget p.target.isThumb st0.aliases p.undefined (cs ++ ext) s name
  complete : ∀ (i : Nat) (s : Stmt) (name : Str), P i s →
    MustTarget p.target.isThumb st0.aliases cs s name →
    ∃ j, (cs ++ ext)[j]? = some name ∧ (i, j) ∈ st.g.edges
  extWhy : ∀ name ∈ ext, ∃ i s, P i s ∧ WhyExt p.target.isThumb st0.aliases p.undefined s name
  single : ∀ i, (∀ s, P i s → ∀ x, s ≠ .bitcastCall x) → Single st i
  sigs : st.indirects.map (fun e => (e.1, e.2.callees)) =
    st0.indirects.map (fun e => (e.1, e.2.callees))
  callers : ∀ e ∈ st.indirects, ∀ i, i ∈ e.2.callers ↔
    ∃ sig, P i (.indirectCall sig) ∧ e.1.looselyEqual sig = true
  called : ∀ e ∈ st.indirects, e.2.called = true ↔ e.2.callers ≠ []
  callersNodup : ∀ e ∈ st.indirects, e.2.callers.Nodup
  asm : ∀ c, c ∈ st.asmFns ↔ ∃ i x, P i (.asm x) ∧ cs[i]? = some c
  callerReal : ∀ i s, P i s → i < cs.length
  noIntr : ∀ i f, P i (.directCall f) → classify p.target.isThumb f ≠ .unhandled
  known : ∀ i f, P i (.directCall f) → classify p.target.isThumb f = .plain →
    mget f st0.aliases = none → f ∉ symbollessIntrinsics → f ∈ p.undefined
  named : ∀ i, ¬ P i (.bitcastCall none)

/-- One more statement. -/
def addStmt (P : Nat → Stmt → Prop) (i : Nat) (s : Stmt) : Nat → Stmt → Prop :=
  fun i' s' => P i' s' ∨ (i' = i ∧ s' = s)

theorem markCalled_map (caller : Nat) (sig : FnSig) (m : List (FnSig × Indirect)) :
    (markCalled caller sig m).map (fun e => (e.1, e.2.callees)) =
      m.map (fun e => (e.1, e.2.callees)) := by
  unfold markCalled
  rw [List.map_map]
  apply List.map_congr_left
  intro e _
  simp only [Function.comp]
  split <;> rfl

theorem mem_markCalled {caller : Nat} {sig : FnSig} {m : List (FnSig × Indirect)}
    {e : FnSig × Indirect} (h : e ∈ markCalled caller sig m) :
    ∃ e0 ∈ m, e.1 = e0.1 ∧
      (if e0.1.looselyEqual sig = true then
        e.2.called = true ∧ e.2.callers = sinsert caller e0.2.callers
      else e.2 = e0.2) := by
  unfold markCalled at h
  obtain ⟨e0, h0, rfl⟩ := List.mem_map.mp h
  refine ⟨e0, h0, ?_⟩
  split <;> simp

theorem sinsert_ne_nil {α : Type} [DecidableEq α] (a : α) (s : List α) : sinsert a s ≠ [] := by
  intro h
  have := (mem_sinsert a a s).mpr (Or.inl rfl)
  rw [h] at this
  simp at this

section steps

variable {p : Program} {base : List Node} {cs ext : List Str} {st0 st : Build}
  {P : Nat → Stmt → Prop}

/-- A statement that changes neither nodes nor edges nor the registered indirect calls. -/
theorem IrInv.skip (inv : IrInv p base cs st0 P ext st) {i : Nat} {s : Stmt}
    (hi : i < cs.length)
    (hmust : ∀ name, ¬ MustTarget p.target.isThumb st0.aliases cs s name)
    (hind : ∀ sig, s ≠ .indirectCall sig) (hasm : ∀ x, s ≠ .asm x)
    (hb : s ≠ .bitcastCall none)
    (hun : ∀ f, s = .directCall f → classify p.target.isThumb f ≠ .unhandled)
    (hkn : ∀ f, s = .directCall f → classify p.target.isThumb f = .plain →
      mget f st0.aliases = none → f ∉ symbollessIntrinsics → f ∈ p.undefined) :
    IrInv p base cs st0 (addStmt P i s) ext st where
  shape := inv.shape
  aliases := inv.aliases
  fmts := inv.fmts
  ambiguous := inv.ambiguous
  info := inv.info
  untyped := inv.untyped
  addr := inv.addr
  sound := by
    intro e he
    obtain ⟨s', name, h1, h2⟩ := inv.sound e he
    exact ⟨s', name, Or.inl h1, h2⟩
  complete := by
    rintro i' s' name (h | ⟨_, rfl⟩) hm
    · exact inv.complete i' s' name h hm
    · exact absurd hm (hmust name)
  extWhy := by
    intro name hn
    obtain ⟨i', s', h1, h2⟩ := inv.extWhy name hn
    exact ⟨i', s', Or.inl h1, h2⟩
  single := fun a h => inv.single a (fun s' h' => h s' (Or.inl h'))
  sigs := inv.sigs
  callers := by
    intro e he i'
    rw [inv.callers e he]
    constructor
    · rintro ⟨sig, h1, h2⟩
      exact ⟨sig, Or.inl h1, h2⟩
    · rintro ⟨sig, (h1 | ⟨_, h1⟩), h2⟩
      · exact ⟨sig, h1, h2⟩
      · exact absurd h1.symm (hind sig)
  called := inv.called
  callersNodup := inv.callersNodup
  asm := by
    intro c
    rw [inv.asm]
    constructor
    · rintro ⟨i', x, h1, h2⟩
      exact ⟨i', x, Or.inl h1, h2⟩
    · rintro ⟨i', x, (h1 | ⟨_, h1⟩), h2⟩
      · exact ⟨i', x, h1, h2⟩
      · exact absurd h1.symm (hasm x)
  callerReal := by
    rintro i' s' (h | ⟨rfl, _⟩)
    · exact inv.callerReal i' s' h
    · exact hi
  noIntr := by
    rintro i' f (h | ⟨_, h⟩)
    · exact inv.noIntr i' f h
    · exact hun f h.symm
  known := by
    rintro i' f (h | ⟨_, h⟩)
    · exact inv.known i' f h
    · exact hkn f h.symm
  named := by
    rintro i' (h | ⟨_, h⟩)
    · exact inv.named i' h
    · exact hb h.symm

/-- A statement that adds edges from `i` (and possibly a node). -/
theorem IrInv.edges (inv : IrInv p base cs st0 P ext st) {i : Nat} {s : Stmt} {ext' : List Str}
    {st' : Build} (hi : i < cs.length)
    (shape : Shape base cs ext' st')
    (hext : ext' = ext ∨ ∃ name, ext' = ext ++ [name] ∧
      WhyExt p.target.isThumb st0.aliases p.undefined s name)
    (frame : st'.indirects = st.indirects ∧ st'.fmts = st.fmts ∧ st'.aliases = st.aliases ∧
      st'.ambiguous = st.ambiguous ∧ st'.hasStackUsageInfo = st.hasStackUsageInfo ∧
      st'.hasUntypedSymbols = st.hasUntypedSymbols ∧ st'.addr2name = st.addr2name ∧
      st'.asmFns = st.asmFns)
    (hmono : ∀ e ∈ st.g.edges, e ∈ st'.g.edges)
    (hnew : ∀ e ∈ st'.g.edges, e ∈ st.g.edges ∨ (e.1 = i ∧ ∃ name,
      (cs ++ ext')[e.2]? = some name ∧
      MayTarget p.target.isThumb st0.aliases p.undefined (cs ++ ext') s name))
    (hmust : ∀ name, MustTarget p.target.isThumb st0.aliases cs s name →
      ∃ j, (cs ++ ext')[j]? = some name ∧ (i, j) ∈ st'.g.edges)
    (hsingle : ∀ a, (a = i → ∀ x, s ≠ .bitcastCall x) → Single st a → Single st' a)
    (hind : ∀ sig, s ≠ .indirectCall sig) (hasm : ∀ x, s ≠ .asm x)
    (hb : s ≠ .bitcastCall none)
    (hun : ∀ f, s = .directCall f → classify p.target.isThumb f ≠ .unhandled)
    (hkn : ∀ f, s = .directCall f → classify p.target.isThumb f = .plain →
      mget f st0.aliases = none → f ∉ symbollessIntrinsics → f ∈ p.undefined) :
    IrInv p base cs st0 (addStmt P i s) ext' st' := by
  obtain ⟨f1, f2, f3, f4, f5, f6, f7, f8⟩ := frame
  have hpre : ∀ (k : Nat) (n : Str), (cs ++ ext)[k]? = some n → (cs ++ ext')[k]? = some n := by
    intro k n h
    rcases hext with h' | ⟨name, h', _⟩
    · rw [h']; exact h
    · rw [h', ← List.append_assoc, getElem?_snoc]
      exact Or.inl h
  constructor
  · exact shape
  · rw [f3]; exact inv.aliases
  · rw [f2]; exact inv.fmts
  · rw [f4]; exact inv.ambiguous
  · rw [f5]; exact inv.info
  · rw [f6]; exact inv.untyped
  · rw [f7]; exact inv.addr
  · intro e he
    rcases hnew e he with he | ⟨h1, name, h2, h3⟩
    · obtain ⟨s', name, h1, h2, h3⟩ := inv.sound e he
      refine ⟨s', name, Or.inl h1, hpre _ _ h2, h3.mono ?_⟩
      intro n hn
      obtain ⟨k, hk⟩ := List.getElem?_of_mem hn
      exact List.mem_of_getElem? (hpre _ _ hk)
    · exact ⟨s, name, Or.inr ⟨h1, rfl⟩, h2, h3⟩
  · rintro i' s' name (h | ⟨rfl, rfl⟩) hm
    · obtain ⟨j, h1, h2⟩ := inv.complete i' s' name h hm
      exact ⟨j, hpre _ _ h1, hmono _ h2⟩
    · exact hmust name hm
  · intro name hn
    have hold : name ∈ ext → ∃ i' s', addStmt P i s i' s' ∧
        WhyExt p.target.isThumb st0.aliases p.undefined s' name := by
      intro hn
      obtain ⟨i', s', h1, h2⟩ := inv.extWhy name hn
      exact ⟨i', s', Or.inl h1, h2⟩
    rcases hext with h' | ⟨name', h', hw⟩
    · rw [h'] at hn; exact hold hn
    · rw [h'] at hn
      rcases List.mem_append.mp hn with hn | hn
      · exact hold hn
      · simp only [List.mem_singleton] at hn
        subst hn
        exact ⟨i, s, Or.inr ⟨rfl, rfl⟩, hw⟩
  · intro a h
    refine hsingle a ?_ (inv.single a (fun s' h' => h s' (Or.inl h')))
    rintro rfl
    exact h s (Or.inr ⟨rfl, rfl⟩)
  · rw [f1]; exact inv.sigs
  · intro e he i'
    rw [f1] at he
    rw [inv.callers e he]
    constructor
    · rintro ⟨sig, h1, h2⟩
      exact ⟨sig, Or.inl h1, h2⟩
    · rintro ⟨sig, (h1 | ⟨_, h1⟩), h2⟩
      · exact ⟨sig, h1, h2⟩
      · exact absurd h1.symm (hind sig)
  · rw [f1]; exact inv.called
  · rw [f1]; exact inv.callersNodup
  · intro c
    rw [f8, inv.asm]
    constructor
    · rintro ⟨i', x, h1, h2⟩
      exact ⟨i', x, Or.inl h1, h2⟩
    · rintro ⟨i', x, (h1 | ⟨_, h1⟩), h2⟩
      · exact ⟨i', x, h1, h2⟩
      · exact absurd h1.symm (hasm x)
  · rintro i' s' (h | ⟨rfl, _⟩)
    · exact inv.callerReal i' s' h
    · exact hi
  · rintro i' f (h | ⟨_, h⟩)
    · exact inv.noIntr i' f h
    · exact hun f h.symm
  · rintro i' f (h | ⟨_, h⟩)
    · exact inv.known i' f h
    · exact hkn f h.symm
  · rintro i' (h | ⟨_, h⟩)
    · exact inv.named i' h
    · exact hb h.symm

theorem Single.frame {st st' : Build} {a : Nat} (h : Single st a) (h1 : st'.g.edges = st.g.edges)
    (h2 : st'.edges = st.edges) : Single st' a := by
  constructor
  · rw [h1]; exact h.count
  · intro j hij
    rw [h1] at hij
    have := h.seen j hij
    unfold Build.seen at this ⊢
    rw [h2]; exact this

/-- One statement of the `i`-th live function, whose canonical name is `c`. -/
theorem stmtStep_inv (inv : IrInv p base cs st0 P ext st) {i : Nat} {c : Str}
    (hc : cs[i]? = some c) {s : Stmt} {st' : Build} (h : stmtStep p c i st s = .ok st') :
    ∃ ext', IrInv p base cs st0 (addStmt P i s) ext' st' := by
  have hi : i < cs.length := (List.getElem?_eq_some_iff.mp hc).1
  unfold stmtStep at h
  split at h
  · -- asm
    rename_i x
    simp only [Except.ok.injEq] at h
    subst h
    refine ⟨ext, ?_⟩
    constructor
    · exact ⟨inv.shape.nodes, inv.shape.blen, inv.shape.idx, inv.shape.wf, inv.shape.seen⟩
    · exact inv.aliases
    · exact inv.fmts
    · exact inv.ambiguous
    · exact inv.info
    · exact inv.untyped
    · exact inv.addr
    · intro e he
      obtain ⟨s', name, h1, h2⟩ := inv.sound e he
      exact ⟨s', name, Or.inl h1, h2⟩
    · rintro i' s' name (h | ⟨_, rfl⟩) hm
      · exact inv.complete i' s' name h hm
      · exact absurd hm (by simp [MustTarget])
    · intro name hn
      obtain ⟨i', s', h1, h2⟩ := inv.extWhy name hn
      exact ⟨i', s', Or.inl h1, h2⟩
    · exact fun a h => (inv.single a (fun s' h' => h s' (Or.inl h'))).frame rfl rfl
    · exact inv.sigs
    · intro e he i'
      rw [inv.callers e he]
      constructor
      · rintro ⟨sig, h1, h2⟩
        exact ⟨sig, Or.inl h1, h2⟩
      · rintro ⟨sig, (h1 | ⟨_, h1⟩), h2⟩
        · exact ⟨sig, h1, h2⟩
        · simp at h1
    · exact inv.called
    · exact inv.callersNodup
    · intro c'
      simp only [mem_sinsert]
      rw [inv.asm]
      constructor
      · rintro (h1 | ⟨i', x', h1, h2⟩)
        · subst h1
          exact ⟨i, x, Or.inr ⟨rfl, rfl⟩, hc⟩
        · exact ⟨i', x', Or.inl h1, h2⟩
      · rintro ⟨i', x', (h1 | ⟨rfl, h1⟩), h2⟩
        · exact Or.inr ⟨i', x', h1, h2⟩
        · rw [hc] at h2
          exact Or.inl (Option.some.inj h2).symm
    · rintro i' s' (h | ⟨rfl, _⟩)
      · exact inv.callerReal i' s' h
      · exact hi
    · rintro i' f (h | ⟨_, h⟩)
      · exact inv.noIntr i' f h
      · simp at h
    · rintro i' f (h | ⟨_, h⟩)
      · exact inv.known i' f h
      · simp at h
    · rintro i' (h | ⟨_, h⟩)
      · exact inv.named i' h
      · simp at h
  · simp at h
  · -- bitcast
    rename_i sym
    simp only [Except.ok.injEq] at h
    obtain ⟨ext', s1, s2, s3, s4, s5⟩ := getOrAddNode_spec inv.shape sym
    obtain ⟨f1, f2, f3, f4, f5, f6, f7, f8, f9⟩ := getOrAddNode_frame st sym
    generalize hk : (st.getOrAddNode sym).2 = k at h s2
    generalize hst1 : (st.getOrAddNode sym).1 = st1 at *
    subst h
    refine ⟨ext', inv.edges hi ?_ ?_ ⟨f1, f2, f3, f4, f5, f6, f7, f8⟩ ?_ ?_ ?_ ?_ ?_ ?_ ?_ ?_ ?_⟩
    · have hklt := (List.getElem?_eq_some_iff.mp s2).1
      refine ⟨s1.nodes, s1.blen, s1.idx, ?_, ?_⟩
      · intro e he
        simp only [Graph.addEdge, List.mem_append, List.mem_singleton] at he
        rcases he with he | he
        · exact s1.wf e he
        · subst he; exact ⟨hi, hklt⟩
      · intro a b hab
        simp only [Graph.addEdge, List.mem_append]
        exact Or.inl (s1.seen a b hab)
    · rcases s3 with s3 | ⟨s3, _⟩
      · exact Or.inl s3
      · exact Or.inr ⟨sym, s3, Or.inl rfl⟩
    · intro e he
      simp only [Graph.addEdge, List.mem_append]
      exact Or.inl (s4 ▸ he)
    · intro e he
      simp only [Graph.addEdge, List.mem_append, List.mem_singleton] at he
      rcases he with he | he
      · exact Or.inl (s4 ▸ he)
      · subst he
        exact Or.inr ⟨rfl, sym, s2, rfl⟩
    · intro name hn
      simp only [MustTarget] at hn
      subst hn
      exact ⟨k, s2, by simp [Graph.addEdge]⟩
    · intro a hb hs
      have hai : a ≠ i := fun h => absurd rfl (hb h (some sym))
      have hs' : Single st1 a := hs.frame s4 s5
      constructor
      · intro j
        simp only [Graph.addEdge, List.count_append, List.count_singleton]
        rw [if_neg]
        · exact hs'.count j
        · simp only [beq_iff_eq, Prod.mk.injEq, not_and]
          intro h
          exact absurd h.symm hai
      · intro j hj
        simp only [Graph.addEdge, List.mem_append, List.mem_singleton, Prod.mk.injEq] at hj
        rcases hj with hj | ⟨hj, _⟩
        · exact hs'.seen j hj
        · exact absurd hj hai
    · simp
    · simp
    · simp
    · simp
    · simp
  · -- direct call
    rename_i f
    split at h
    · rename_i hcl
      simp only [Except.ok.injEq] at h
      subst h
      exact ⟨ext, inv.skip hi (by simp [MustTarget, hcl]) (by simp) (by simp) (by simp)
        (by simp [hcl]) (by simp [hcl])⟩
    · rename_i routines hcl
      simp only [Except.ok.injEq] at h
      subst h
      obtain ⟨r1, r2, r3⟩ := callRoutines_spec i hi routines inv.shape
      obtain ⟨-, -, f1, f2, f3, f4, f5, f6, f7, f8, -⟩ := callRoutines_frame i routines st
      refine ⟨ext, inv.edges hi r1 (Or.inl rfl) ⟨f1, f2, f3, f4, f5, f6, f7, f8⟩ ?_ ?_ ?_ ?_ ?_ ?_ ?_
        ?_ ?_⟩
      · intro e he
        exact (r2 e).mpr (Or.inl he)
      · intro e he
        rcases (r2 e).mp he with he | ⟨r, hr, h1, h2⟩
        · exact Or.inl he
        · exact Or.inr ⟨h1, r, h2, Or.inl ⟨routines, hcl, hr⟩⟩
      · intro name hn
        simp only [MustTarget, hcl] at hn
        rcases hn with ⟨rs, h1, h2, h3⟩ | ⟨h1, _⟩
        · simp only [CallKind.memory.injEq] at h1
          subst h1
          obtain ⟨j, hj⟩ := List.getElem?_of_mem h3
          have hj' : (cs ++ ext)[j]? = some name := by
            rw [List.getElem?_append_left (List.getElem?_eq_some_iff.mp hj).1]
            exact hj
          exact ⟨j, hj', (r2 _).mpr (Or.inr ⟨name, h2, rfl, hj'⟩)⟩
        · simp at h1
      · exact fun a _ => r3 a
      · simp
      · simp
      · simp
      · simp [hcl]
      · simp [hcl]
    · simp at h
    · rename_i hcl
      unfold plainCall at h
      split at h
      · -- memcmp without a node
        rename_i hsym
        simp only [Except.ok.injEq] at h
        subst h
        simp only [Bool.and_eq_true, Option.isNone_iff_eq_none] at hsym
        have hs1 : f ∈ symbollessIntrinsics := by simpa using hsym.1
        have hs2 : f ∉ cs := fun hf =>
          (inv.shape.idx.none.mp hsym.2) (List.mem_append.mpr (Or.inl hf))
        refine ⟨ext, inv.skip hi ?_ (by simp) (by simp) (by simp) (by simp [hcl]) ?_⟩
        · intro name hn
          simp only [MustTarget, hcl] at hn
          rcases hn with ⟨_, h1, _⟩ | ⟨_, h1, _⟩
          · simp at h1
          · exact h1 ⟨hs1, hs2⟩
        · intro f' hf' _ _ hns
          simp only [Stmt.directCall.injEq] at hf'
          subst hf'
          exact absurd hs1 hns
      · rename_i hsym
        have hns : f ∈ symbollessIntrinsics → f ∈ cs ++ ext := by
          intro hf
          refine Classical.byContradiction fun hne => ?_
          apply hsym
          simp only [Bool.and_eq_true, Option.isNone_iff_eq_none]
          exact ⟨by simpa using hf, inv.shape.idx.none.mpr hne⟩
        split at h
        · -- a live function
          rename_i canon hal
          split at h
          · rename_i callee hcal
            simp only [Except.ok.injEq] at h
            subst h
            have hlt := inv.shape.lt hcal
            have hname := (inv.shape.idx canon callee).mp hcal
            obtain ⟨-, -, f1, f2, f3, f4, f5, f6, f7, f8, -⟩ := call_frame st i callee
            rw [inv.aliases] at hal
            refine ⟨ext, inv.edges hi (inv.shape.call hi hlt) (Or.inl rfl)
              ⟨f1, f2, f3, f4, f5, f6, f7, f8⟩ ?_ ?_ ?_ ?_ ?_ ?_ ?_ ?_ ?_⟩
            · intro e he
              exact (mem_call_edges (inv.shape.seen _ _) e).mpr (Or.inl he)
            · intro e he
              rcases (mem_call_edges (inv.shape.seen _ _) e).mp he with he | he
              · exact Or.inl he
              · subst he
                exact Or.inr ⟨rfl, canon, hname, Or.inr ⟨hcl, hns, Or.inl hal⟩⟩
            · intro name hn
              simp only [MustTarget, hcl] at hn
              rcases hn with ⟨_, h1, _⟩ | ⟨_, _, h1 | ⟨h1, _⟩⟩
              · simp at h1
              · rw [hal] at h1
                simp only [Option.some.injEq] at h1
                subst h1
                exact ⟨callee, hname, (mem_call_edges (inv.shape.seen _ _) _).mpr (Or.inr rfl)⟩
              · rw [hal] at h1
                simp at h1
            · exact fun _ _ hs => hs.call inv.shape.seen _ _
            · simp
            · simp
            · simp
            · simp [hcl]
            · intro f' hf' _ hnone
              simp only [Stmt.directCall.injEq] at hf'
              subst hf'
              rw [hal] at hnone
              simp at hnone
          · simp at h
        · rename_i hal
          split at h
          · -- an external function
            rename_i hund
            have hund' : f ∈ p.undefined := by simpa using hund
            simp only [Except.ok.injEq] at h
            obtain ⟨ext', s1, s2, s3, s4, s5⟩ := getOrAddNode_spec inv.shape f
            obtain ⟨g1, g2, g3, g4, g5, g6, g7, g8, g9⟩ := getOrAddNode_frame st f
            generalize hk : (st.getOrAddNode f).2 = k at h s2
            generalize hst1 : (st.getOrAddNode f).1 = st1 at *
            subst h
            rw [inv.aliases] at hal
            have hklt := (List.getElem?_eq_some_iff.mp s2).1
            obtain ⟨-, -, f1, f2, f3, f4, f5, f6, f7, f8, -⟩ := call_frame st1 i k
            refine ⟨ext', inv.edges hi (s1.call hi hklt) ?_
              ⟨f1.trans g1, f2.trans g2, f3.trans g3, f4.trans g4, f5.trans g5, f6.trans g6,
                f7.trans g7, f8.trans g8⟩ ?_ ?_ ?_ ?_ ?_ ?_ ?_ ?_ ?_⟩
            · rcases s3 with s3 | ⟨s3, hnew⟩
              · exact Or.inl s3
              · refine Or.inr ⟨f, s3, Or.inr ⟨rfl, hcl, hal, hund', fun hf => ?_⟩⟩
                exact absurd (hns hf) hnew
            · intro e he
              exact (mem_call_edges (s1.seen _ _) e).mpr (Or.inl (s4 ▸ he))
            · intro e he
              rcases (mem_call_edges (s1.seen _ _) e).mp he with he | he
              · exact Or.inl (s4 ▸ he)
              · subst he
                refine Or.inr ⟨rfl, f, s2, Or.inr ⟨hcl, fun _ => ?_, Or.inr ⟨hal, hund', rfl⟩⟩⟩
                exact List.mem_of_getElem? s2
            · intro name hn
              simp only [MustTarget, hcl] at hn
              rcases hn with ⟨_, h1, _⟩ | ⟨_, _, h1 | ⟨_, h1⟩⟩
              · simp at h1
              · rw [hal] at h1
                simp at h1
              · subst h1
                exact ⟨k, s2, (mem_call_edges (s1.seen _ _) _).mpr (Or.inr rfl)⟩
            · exact fun _ _ hs => (hs.frame s4 s5).call s1.seen _ _
            · simp
            · simp
            · simp
            · simp [hcl]
            · intro f' hf' _ _ _
              simp only [Stmt.directCall.injEq] at hf'
              subst hf'
              exact hund'
          · simp at h
  · -- indirect call
    rename_i sig
    simp only [Except.ok.injEq] at h
    subst h
    refine ⟨ext, ?_⟩
    constructor
    · exact ⟨inv.shape.nodes, inv.shape.blen, inv.shape.idx, inv.shape.wf, inv.shape.seen⟩
    · exact inv.aliases
    · exact inv.fmts
    · exact inv.ambiguous
    · exact inv.info
    · exact inv.untyped
    · exact inv.addr
    · intro e he
      obtain ⟨s', name, h1, h2⟩ := inv.sound e he
      exact ⟨s', name, Or.inl h1, h2⟩
    · rintro i' s' name (h | ⟨_, rfl⟩) hm
      · exact inv.complete i' s' name h hm
      · exact absurd hm (by simp [MustTarget])
    · intro name hn
      obtain ⟨i', s', h1, h2⟩ := inv.extWhy name hn
      exact ⟨i', s', Or.inl h1, h2⟩
    · exact fun a h => (inv.single a (fun s' h' => h s' (Or.inl h'))).frame rfl rfl
    · simp only [markCalled_map]; exact inv.sigs
    · intro e he i'
      obtain ⟨e0, h0, h1, h2⟩ := mem_markCalled he
      have hold := inv.callers e0 h0 i'
      split at h2
      · rename_i hl
        rw [h2.2, mem_sinsert, hold, h1]
        constructor
        · rintro (h3 | ⟨sig', h3, h4⟩)
          · subst h3
            exact ⟨sig, Or.inr ⟨rfl, rfl⟩, hl⟩
          · exact ⟨sig', Or.inl h3, h4⟩
        · rintro ⟨sig', (h3 | ⟨h3, _⟩), h4⟩
          · exact Or.inr ⟨sig', h3, h4⟩
          · exact Or.inl h3
      · rename_i hl
        rw [h2, hold, h1]
        constructor
        · rintro ⟨sig', h3, h4⟩
          exact ⟨sig', Or.inl h3, h4⟩
        · rintro ⟨sig', (h3 | ⟨_, h3⟩), h4⟩
          · exact ⟨sig', h3, h4⟩
          · simp only [Stmt.indirectCall.injEq] at h3
            rw [h3] at h4
            exact absurd h4 hl
    · intro e he
      obtain ⟨e0, h0, h1, h2⟩ := mem_markCalled he
      split at h2
      · rw [h2.1, h2.2]
        simp [sinsert_ne_nil]
      · rw [h2]; exact inv.called e0 h0
    · intro e he
      obtain ⟨e0, h0, h1, h2⟩ := mem_markCalled he
      split at h2
      · rw [h2.2]
        exact sinsert_nodup _ _ (inv.callersNodup e0 h0)
      · rw [h2]; exact inv.callersNodup e0 h0
    · intro c'
      rw [inv.asm]
      constructor
      · rintro ⟨i', x, h1, h2⟩
        exact ⟨i', x, Or.inl h1, h2⟩
      · rintro ⟨i', x, (h1 | ⟨_, h1⟩), h2⟩
        · exact ⟨i', x, h1, h2⟩
        · simp at h1
    · rintro i' s' (h | ⟨rfl, _⟩)
      · exact inv.callerReal i' s' h
      · exact hi
    · rintro i' f (h | ⟨_, h⟩)
      · exact inv.noIntr i' f h
      · simp at h
    · rintro i' f (h | ⟨_, h⟩)
      · exact inv.known i' f h
      · simp at h
    · rintro i' (h | ⟨_, h⟩)
      · exact inv.named i' h
      · simp at h
  all_goals
    simp only [Except.ok.injEq] at h
    subst h
    exact ⟨ext, inv.skip hi (by simp [MustTarget]) (by simp) (by simp) (by simp) (by simp) (by simp)⟩

theorem IrInv.congr (inv : IrInv p base cs st0 P ext st) {P' : Nat → Stmt → Prop}
    (h : ∀ i s, P i s ↔ P' i s) : IrInv p base cs st0 P' ext st := by
  have : P = P' := by
    funext i s
    exact propext (h i s)
  exact this ▸ inv

theorem stmtsPass_inv {i : Nat} {c : Str} (hc : cs[i]? = some c) (ss : List Stmt) :
    ∀ {P : Nat → Stmt → Prop} {ext : List Str} {st st' : Build}, IrInv p base cs st0 P ext st →
      stmtsPass p c i st ss = .ok st' →
      ∃ ext', IrInv p base cs st0 (fun i' s' => P i' s' ∨ (i' = i ∧ s' ∈ ss)) ext' st' := by
  induction ss with
  | nil =>
    intro P ext st st' inv h
    simp only [stmtsPass, Except.ok.injEq] at h
    subst h
    exact ⟨ext, inv.congr (by simp)⟩
  | cons s ss ih =>
    intro P ext st st' inv h
    unfold stmtsPass at h
    split at h
    · simp at h
    · rename_i st1 h1
      obtain ⟨ext1, inv1⟩ := stmtStep_inv inv hc h1
      obtain ⟨ext2, inv2⟩ := ih inv1 h
      refine ⟨ext2, inv2.congr ?_⟩
      intro i' s'
      simp only [addStmt, List.mem_cons]
      tauto

/-- Changing `defined` and adding an empty entry to `edges` is harmless. -/
theorem IrInv.touch (inv : IrInv p base cs st0 P ext st) (i : Nat) (d : List Str) :
    IrInv p base cs st0 P ext
      { st with defined := d, edges := mset i (st.seen i) st.edges } := by
  have hseen : ∀ a, Build.seen { st with defined := d, edges := mset i (st.seen i) st.edges } a
      = st.seen a := by
    intro a
    rw [seen_set st i a (st.seen i) _ rfl]
    split
    · rename_i h; rw [h]
    · rfl
  refine ⟨⟨inv.shape.nodes, inv.shape.blen, inv.shape.idx, inv.shape.wf, ?_⟩, inv.aliases, inv.fmts,
    inv.ambiguous, inv.info, inv.untyped, inv.addr, inv.sound, inv.complete, inv.extWhy, ?_, inv.sigs,
    inv.callers, inv.called, inv.callersNodup, inv.asm, inv.callerReal, inv.noIntr, inv.known,
    inv.named⟩
  · intro a b hab
    rw [hseen] at hab
    exact inv.shape.seen a b hab
  · intro a h
    have := inv.single a h
    refine ⟨this.count, ?_⟩
    intro b hab
    rw [hseen]
    exact this.seen b hab

/-- The statements of a list of definitions, by number of the live function. -/
def StmtsOf (cs : List Str) (al : List (Str × Str)) (ds : List Define) (i : Nat) (s : Stmt) : Prop :=
  ∃ d ∈ ds, ∃ c, mget d.name al = some c ∧ cs[i]? = some c ∧ s ∈ d.stmts

/-- The canonical names of definitions seen. -/
def DefinedOf (al : List (Str × Str)) (ds : List Define) (c : Str) : Prop :=
  ∃ d ∈ ds, mget d.name al = some c

theorem stmtStep_defined {c : Str} {i : Nat} {s : Stmt} {st st' : Build}
    (h : stmtStep p c i st s = .ok st') : st'.defined = st.defined := by
  unfold stmtStep at h
  split at h
  · simp only [Except.ok.injEq] at h
    subst h; rfl
  · simp at h
  · rename_i sym
    simp only [Except.ok.injEq] at h
    subst h
    exact (getOrAddNode_frame st sym).2.2.2.2.2.2.2.2
  · split at h
    · simp only [Except.ok.injEq] at h
      subst h; rfl
    · rename_i routines _
      simp only [Except.ok.injEq] at h
      subst h
      exact (callRoutines_frame i routines st).2.2.2.2.2.2.2.2.2.2
    · simp at h
    · unfold plainCall at h
      split at h
      · simp only [Except.ok.injEq] at h
        subst h; rfl
      · split at h
        · split at h
          · simp only [Except.ok.injEq] at h
            subst h
            exact (call_frame st i _).2.2.2.2.2.2.2.2.2.2
          · simp at h
        · split at h
          · simp only [Except.ok.injEq] at h
            subst h
            exact ((call_frame _ i _).2.2.2.2.2.2.2.2.2.2).trans
              (getOrAddNode_frame st _).2.2.2.2.2.2.2.2
          · simp at h
  · simp only [Except.ok.injEq] at h
    subst h; rfl
  all_goals
    simp only [Except.ok.injEq] at h
    subst h; rfl

theorem stmtStep_aliases {c : Str} {i : Nat} {s : Stmt} {st st' : Build}
    (h : stmtStep p c i st s = .ok st') : st'.aliases = st.aliases := by
  unfold stmtStep at h
  split at h
  · simp only [Except.ok.injEq] at h
    subst h; rfl
  · simp at h
  · rename_i sym
    simp only [Except.ok.injEq] at h
    subst h
    exact (getOrAddNode_frame st sym).2.2.1
  · split at h
    · simp only [Except.ok.injEq] at h
      subst h; rfl
    · rename_i routines _
      simp only [Except.ok.injEq] at h
      subst h
      exact (callRoutines_frame i routines st).2.2.2.2.1
    · simp at h
    · unfold plainCall at h
      split at h
      · simp only [Except.ok.injEq] at h
        subst h; rfl
      · split at h
        · split at h
          · simp only [Except.ok.injEq] at h
            subst h
            exact (call_frame st i _).2.2.2.2.1
          · simp at h
        · split at h
          · simp only [Except.ok.injEq] at h
            subst h
            exact ((call_frame _ i _).2.2.2.2.1).trans
              (getOrAddNode_frame st _).2.2.1
          · simp at h
  · simp only [Except.ok.injEq] at h
    subst h; rfl
  all_goals
    simp only [Except.ok.injEq] at h
    subst h; rfl

theorem stmtsPass_defined {c : Str} {i : Nat} (ss : List Stmt) : ∀ {st st' : Build},
    stmtsPass p c i st ss = .ok st' → st'.defined = st.defined := by
  induction ss with
  | nil =>
    intro st st' h
    simp only [stmtsPass, Except.ok.injEq] at h
    subst h; rfl
  | cons s ss ih =>
    intro st st' h
    unfold stmtsPass at h
    split at h
    · simp at h
    · rename_i st1 h1
      exact (ih h).trans (stmtStep_defined h1)

theorem defineStep_inv (inv : IrInv p base cs st0 P ext st)
    (hcanon : ∀ (n c : Str), mget n st0.aliases = some c → c ∈ cs)
    (hidx : Indexed cs st0.indices) {d : Define} {st' : Build} (h : defineStep p st d = .ok st') :
    ∃ ext', IrInv p base cs st0 (fun i s => P i s ∨ StmtsOf cs st0.aliases [d] i s) ext' st' := by
  have hal0 := inv.aliases
  unfold defineStep at h
  split at h
  · rename_i hn
    rw [hal0] at hn
    simp only [Except.ok.injEq] at h
    subst h
    refine ⟨ext, inv.congr ?_⟩
    intro i s
    simp only [StmtsOf, List.mem_singleton, exists_eq_left, hn, reduceCtorEq, false_and, exists_false,
      or_false]
  · rename_i c hal
    rw [hal0] at hal
    split at h
    · simp at h
    · rename_i caller hcal
      have hcn := (inv.shape.idx c caller).mp hcal
      have hcc := hcanon _ _ hal
      obtain ⟨k, hk⟩ := List.getElem?_of_mem hcc
      have hk' : (cs ++ ext)[k]? = some c := by
        rw [List.getElem?_append_left (List.getElem?_eq_some_iff.mp hk).1]
        exact hk
      have hck := inv.shape.idx.inj hcn hk'
      subst hck
      obtain ⟨ext', inv'⟩ := stmtsPass_inv hk d.stmts (inv.touch caller _) h
      refine ⟨ext', inv'.congr ?_⟩
      intro i s
      simp only [StmtsOf, List.mem_singleton, exists_eq_left, hal, Option.some.injEq]
      constructor
      · rintro (h0 | ⟨rfl, h0⟩)
        · exact Or.inl h0
        · exact Or.inr ⟨c, rfl, hk, h0⟩
      · rintro (h0 | ⟨c', rfl, h1, h2⟩)
        · exact Or.inl h0
        · exact Or.inr ⟨hidx.inj h1 hk, h2⟩

theorem definePass_inv (hcanon : ∀ (n c : Str), mget n st0.aliases = some c → c ∈ cs)
    (hidx : Indexed cs st0.indices) (ds : List Define) :
    ∀ {P : Nat → Stmt → Prop} {ext : List Str} {st st' : Build}, IrInv p base cs st0 P ext st →
      definePass p st ds = .ok st' →
      ∃ ext', IrInv p base cs st0 (fun i s => P i s ∨ StmtsOf cs st0.aliases ds i s) ext' st' := by
  induction ds with
  | nil =>
    intro P ext st st' inv h
    simp only [definePass, Except.ok.injEq] at h
    subst h
    exact ⟨ext, inv.congr (by simp [StmtsOf])⟩
  | cons d ds ih =>
    intro P ext st st' inv h
    unfold definePass at h
    split at h
    · simp at h
    · rename_i st1 h1
      obtain ⟨ext1, inv1⟩ := defineStep_inv inv hcanon hidx h1
      obtain ⟨ext2, inv2⟩ := ih inv1 h
      refine ⟨ext2, inv2.congr ?_⟩
      intro i s
      simp only [StmtsOf, List.mem_cons, exists_eq_or_imp, List.not_mem_nil, exists_eq_left,
        or_false]
      rw [or_assoc]

theorem stmtsPass_aliases {c : Str} {i : Nat} (ss : List Stmt) : ∀ {st st' : Build},
    stmtsPass p c i st ss = .ok st' → st'.aliases = st.aliases := by
  induction ss with
  | nil =>
    intro st st' h
    simp only [stmtsPass, Except.ok.injEq] at h
    subst h; rfl
  | cons s ss ih =>
    intro st st' h
    unfold stmtsPass at h
    split at h
    · simp at h
    · rename_i st1 h1
      exact (ih h).trans (stmtStep_aliases h1)

theorem definePass_defined (ds : List Define) : ∀ {st st' : Build},
    definePass p st ds = .ok st' →
    st'.aliases = st.aliases ∧ ∀ c, c ∈ st'.defined ↔ c ∈ st.defined ∨ DefinedOf st.aliases ds c := by
  induction ds with
  | nil =>
    intro st st' h
    simp only [definePass, Except.ok.injEq] at h
    subst h
    simp [DefinedOf]
  | cons d ds ih =>
    intro st st' h
    unfold definePass at h
    split at h
    · simp at h
    · rename_i st1 h1
      obtain ⟨ha, hd⟩ := ih h
      unfold defineStep at h1
      split at h1
      · rename_i hn
        simp only [Except.ok.injEq] at h1
        subst h1
        refine ⟨ha, ?_⟩
        intro c
        rw [hd]
        simp only [DefinedOf, List.mem_cons, exists_eq_or_imp, hn, reduceCtorEq, false_or]
      · rename_i can hn
        split at h1
        · simp at h1
        · have hd1 := stmtsPass_defined _ h1
          have ha1 := stmtsPass_aliases _ h1
          simp only at hd1 ha1
          refine ⟨ha.trans ha1, ?_⟩
          intro c
          rw [hd, hd1, ha1, mem_sinsert]
          simp only [DefinedOf, List.mem_cons, exists_eq_or_imp, hn, Option.some.injEq]
          tauto

end steps

/-- What is known about the graph after the LLVM-IR has been read. -/
structure IrFacts (demangle : Str → Str) (p : Program) (cs ext : List Str) (st0 st : Build) : Prop where
  sym : SymInv demangle p p.defined cs st0
  ir : IrInv p st0.g.nodes cs st0 p.Contains ext st
  idx0 : Indexed cs st0.indices
  live : ∀ (f c : Str) (j : Nat), cs[j]? = some c → (mget f st0.aliases = some c ↔ p.LiveAt f j)
  dead : ∀ (f : Str), mget f st0.aliases = none ↔ p.NotLive f
  self : ∀ (c : Str) (j : Nat), cs[j]? = some c → p.LiveAt c j
  defined : ∀ c, c ∈ st.defined ↔ ∃ d ∈ p.defines, mget d.name st0.aliases = some c
  symOk : symPass demangle p Build.empty p.defined = .ok st0

theorem liveAt_iff (p : Program) (n : Str) (i : Nat) :
    p.LiveAt n i ↔ ∃ e, p.defined[i]? = some e ∧ n ∈ realNames e.2 := by
  simp only [Program.LiveAt, mem_realNames]
  constructor
  · rintro ⟨a, s, h1, h2⟩
    exact ⟨(a, s), h1, h2⟩
  · rintro ⟨⟨a, s⟩, h1, h2⟩
    exact ⟨a, s, h1, h2⟩

theorem SymInv.idx_lt {demangle : Str → Str} {p : Program} {cs : List Str} {st : Build}
    (h : SymInv demangle p p.defined cs st) {i : Nat} {e : Nat × Sym} (he : p.defined[i]? = some e) :
    ∃ c, cs[i]? = some c := by
  have := (List.getElem?_eq_some_iff.mp he).1
  rw [← h.len] at this
  exact ⟨cs[i], List.getElem?_eq_getElem this⟩

theorem SymInv.self {demangle : Str → Str} {p : Program} {cs : List Str} {st : Build}
    (h : SymInv demangle p p.defined cs st) {c : Str} {j : Nat} (hc : cs[j]? = some c) :
    p.LiveAt c j := by
  have hlt := (List.getElem?_eq_some_iff.mp hc).1
  rw [h.len] at hlt
  have he := List.getElem?_eq_getElem hlt
  rw [liveAt_iff]
  exact ⟨_, he, (canonicalOf_spec (h.canon j _ c he hc)).1⟩

theorem SymInv.indexed {demangle : Str → Str} {p : Program} {cs : List Str} {st : Build}
    (h : SymInv demangle p p.defined cs st) (once : p.NamesOnce) : Indexed cs st.indices := by
  intro name k
  constructor
  · exact h.indices_some name k
  · intro hk
    cases hm : mget name st.indices with
    | none => exact absurd hm (h.indices_ne name (List.mem_of_getElem? hk))
    | some k' =>
      have hk' := h.indices_some name k' hm
      rw [once name k' k (h.self hk') (h.self hk)]

theorem SymInv.dead {demangle : Str → Str} {p : Program} {cs : List Str} {st : Build}
    (h : SymInv demangle p p.defined cs st) (f : Str) : mget f st.aliases = none ↔ p.NotLive f := by
  constructor
  · intro hn i hi
    obtain ⟨e, h1, h2⟩ := (liveAt_iff p f i).mp hi
    exact h.aliases_ne f i e h1 h2 hn
  · intro hn
    cases hm : mget f st.aliases with
    | none => rfl
    | some c =>
      obtain ⟨i, e, h1, h2, h3⟩ := h.aliases_some f c hm
      exact absurd ((liveAt_iff p f i).mpr ⟨e, h1, h3⟩) (hn i)

theorem SymInv.live {demangle : Str → Str} {p : Program} {cs : List Str} {st : Build}
    (h : SymInv demangle p p.defined cs st) (once : p.NamesOnce) {f c : Str} {j : Nat}
    (hj : cs[j]? = some c) : mget f st.aliases = some c ↔ p.LiveAt f j := by
  constructor
  · intro hf
    obtain ⟨i, e, h1, h2, h3⟩ := h.aliases_some f c hf
    have hij : i = j := once c i j (h.self h2) (h.self hj)
    subst hij
    exact (liveAt_iff p f i).mpr ⟨e, h1, h3⟩
  · intro hf
    obtain ⟨e, h1, h2⟩ := (liveAt_iff p f j).mp hf
    cases hm : mget f st.aliases with
    | none => exact absurd hm (h.aliases_ne f j e h1 h2)
    | some c' =>
      obtain ⟨i, e', h3, h4, h5⟩ := h.aliases_some f c' hm
      have hij : i = j := once f i j ((liveAt_iff p f i).mpr ⟨e', h3, h5⟩) hf
      subst hij
      rw [hj] at h4
      rw [Option.some.inj h4]

theorem IrInv.init {demangle : Str → Str} {p : Program} {cs : List Str} {st : Build}
    (h : SymInv demangle p p.defined cs st) (hidx : Indexed cs st.indices) :
    IrInv p st.g.nodes cs st (fun _ _ => False) [] st where
  shape :=
    { nodes := by simp
      blen := by rw [h.nodes]; simp
      idx := by simpa using hidx
      wf := by rw [h.gedges]; simp
      seen := by
        intro i j hj
        unfold Build.seen at hj
        rw [h.edges] at hj
        simp [mget] at hj }
  aliases := rfl
  fmts := rfl
  ambiguous := rfl
  info := rfl
  untyped := rfl
  addr := rfl
  sound := by rw [h.gedges]; simp
  complete := by simp
  extWhy := by simp
  single := by
    intro i _
    constructor
    · rw [h.gedges]; simp
    · rw [h.gedges]; simp
  sigs := rfl
  callers := by
    intro e he i
    have := h.fresh e he
    simp [this.2]
  called := by
    intro e he
    have := h.fresh e he
    simp [this.1, this.2]
  callersNodup := by
    intro e he
    rw [(h.fresh e he).2.1]
    exact List.nodup_nil
  asm := by rw [h.asmFns]; simp
  callerReal := by simp
  noIntr := by simp
  known := by simp
  named := by simp

theorem irGraph_facts {demangle : Str → Str} {p : Program} {st : Build} (once : p.NamesOnce)
    (h : irGraph demangle p = .ok st) :
    ∃ (cs ext : List Str) (st0 : Build), IrFacts demangle p cs ext st0 st := by
  unfold irGraph at h
  split at h
  · simp at h
  · rename_i st0 h0
    obtain ⟨cs, hs⟩ := symPass_inv p.defined (SymInv.empty demangle p) h0
    simp only [List.nil_append] at hs
    have hidx := hs.indexed once
    have hcanon : ∀ (n c : Str), mget n st0.aliases = some c → c ∈ cs := by
      intro n c hn
      obtain ⟨i, e, _, h2, _⟩ := hs.aliases_some n c hn
      exact List.mem_of_getElem? h2
    obtain ⟨ext, inv⟩ := definePass_inv hcanon hidx p.defines (IrInv.init hs hidx) h
    refine ⟨cs, ext, st0, hs, inv.congr ?_, hidx, fun f c j hj => hs.live once hj, hs.dead,
      fun c j hj => hs.self hj, ?_, h0⟩
    · intro i s
      simp only [false_or, StmtsOf, Program.Contains]
      constructor
      · rintro ⟨d, hd, c, h1, h2, h3⟩
        exact ⟨d, hd, (hs.live once h2).mp h1, h3⟩
      · rintro ⟨d, hd, h1, h3⟩
        obtain ⟨e, he, _⟩ := (liveAt_iff p d.name i).mp h1
        obtain ⟨c, hc⟩ := hs.idx_lt he
        exact ⟨d, hd, c, (hs.live once hc).mpr h1, hc, h3⟩
    · intro c
      rw [(definePass_defined p.defines h).2, hs.defined]
      simp [DefinedOf]

end CallStack
