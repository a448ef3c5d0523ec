import Verif.Proof.Order
import Verif.Proof.Figures
import Verif.Spec.Edges

/-!
The nodes and edges after the pass over the LLVM-IR, exactly.
-/

namespace CallStack

variable {p : Program} {base : List Node} {cs ext : List Str} {st0 st : Build}
  {P : Nat → Stmt → Prop}

/-- The name of a node to which a statement adds an edge; `N` says which names have a node. -/
def EdgeTarget (thumb : Bool) (al : List (Str × Str)) (undefined : List Str) (N : Str → Prop) (s : Stmt)
    (name : Str) : Prop :=
  match s with
  | .bitcastCall (some sym) => name = sym
  | .directCall f =>
    (∃ routines, classify thumb f = .memory routines ∧ name ∈ routines ∧ N name) ∨
    (classify thumb f = .plain ∧ (f ∈ symbollessIntrinsics → N f) ∧
      (mget f al = some name ∨ (mget f al = none ∧ f ∈ undefined ∧ name = f)))
  | _ => False

theorem EdgeTarget.congr {thumb : Bool} {al : List (Str × Str)} {undefined : List Str} {N N' : Str → Prop}
    (h : ∀ n, N n ↔ N' n) {s : Stmt} {name : Str} :
    EdgeTarget thumb al undefined N s name ↔ EdgeTarget thumb al undefined N' s name := by
  have : N = N' := funext fun n => propext (h n)
  rw [this]

/-- Nodes and edges after one more statement. -/
theorem stmtStep_exact (inv : IrInv p base cs st0 P ext st) {i : Nat} {c : Str}
    (hc : cs[i]? = some c) {s : Stmt} {st' : Build} (h : stmtStep p c i st s = .ok st') :
    ∃ ext', IrInv p base cs st0 (addStmt P i s) ext' st' ∧
      (∀ n, n ∈ cs ++ ext' ↔ n ∈ cs ++ ext ∨ WhyExt p.target.isThumb st0.aliases p.undefined s n) ∧
      (∀ (k : Nat) (n : Str), (cs ++ ext)[k]? = some n → (cs ++ ext')[k]? = some n) ∧
      ∀ e, e ∈ st'.g.edges ↔ e ∈ st.g.edges ∨ (e.1 = i ∧ ∃ name, (cs ++ ext')[e.2]? = some name ∧
        EdgeTarget p.target.isThumb st0.aliases p.undefined (· ∈ cs ++ ext) s name) := by
  have hi : i < cs.length := (List.getElem?_eq_some_iff.mp hc).1
  obtain ⟨ext', inv'⟩ := stmtStep_inv inv hc h
  refine ⟨ext', inv', ?_⟩
  have hsame : st'.g.nodes = st.g.nodes → ext' = ext := by
    intro hn
    rw [inv'.shape.nodes, inv.shape.nodes, List.append_cancel_left_eq] at hn
    have : Function.Injective (fun n => mkNode n none false) := by
      intro a b hab
      simpa [mkNode] using hab
    exact List.map_injective_iff.mpr this hn
  have hshape : ∀ ext'', Shape base cs ext'' st' → ext' = ext'' := by
    intro ext'' hs
    have hn := inv'.shape.nodes
    rw [hs.nodes, List.append_cancel_left_eq] at hn
    have : Function.Injective (fun n => mkNode n none false) := by
      intro a b hab
      simpa [mkNode] using hab
    exact (List.map_injective_iff.mpr this hn).symm
  have hquiet : st'.g.nodes = st.g.nodes → (∀ n, WhyExt p.target.isThumb st0.aliases p.undefined s n →
      n ∈ cs ++ ext) →
      (∀ n, n ∈ cs ++ ext' ↔ n ∈ cs ++ ext ∨ WhyExt p.target.isThumb st0.aliases p.undefined s n) ∧
      (∀ (k : Nat) (n : Str), (cs ++ ext)[k]? = some n → (cs ++ ext')[k]? = some n) := by
    intro hn hw
    rw [hsame hn]
    exact ⟨fun n => ⟨Or.inl, fun h => h.elim id (hw n)⟩, fun _ _ h => h⟩
  have hadd : ∀ name, ext' = ext ∧ name ∈ cs ++ ext ∨ ext' = ext ++ [name] →
      (∀ n, WhyExt p.target.isThumb st0.aliases p.undefined s n → n = name) →
      (name ∉ cs ++ ext → WhyExt p.target.isThumb st0.aliases p.undefined s name) →
      (∀ n, n ∈ cs ++ ext' ↔ n ∈ cs ++ ext ∨ WhyExt p.target.isThumb st0.aliases p.undefined s n) ∧
      (∀ (k : Nat) (n : Str), (cs ++ ext)[k]? = some n → (cs ++ ext')[k]? = some n) := by
    intro name hn h1 h2
    constructor
    · intro n
      constructor
      · intro hm
        by_cases hin : n ∈ cs ++ ext
        · exact Or.inl hin
        · right
          rcases hn with ⟨hn, _⟩ | hn
          · rw [hn] at hm; exact absurd hm hin
          · rw [hn, ← List.append_assoc, List.mem_append, List.mem_singleton] at hm
            rcases hm with hm | hm
            · exact absurd hm hin
            · subst hm; exact h2 hin
      · rintro (hm | hm)
        · rcases hn with ⟨hn, _⟩ | hn
          · rw [hn]; exact hm
          · rw [hn, ← List.append_assoc, List.mem_append]; exact Or.inl hm
        · have := h1 n hm
          subst this
          rcases hn with ⟨hn, hin⟩ | hn
          · rw [hn]; exact hin
          · rw [hn]; simp
    · intro k n hk
      rcases hn with ⟨hn, _⟩ | hn
      · rw [hn]; exact hk
      · rw [hn, ← List.append_assoc, getElem?_snoc]; exact Or.inl hk
  have hinj := fun {n : Str} {a b : Nat} => inv'.shape.idx.inj (name := n) (i := a) (j := b)
  unfold stmtStep at h
  split at h
  · simp only [Except.ok.injEq] at h
    obtain ⟨h1, h2⟩ := hquiet (by rw [← h]) (by simp [WhyExt])
    exact ⟨h1, h2, by rw [← h]; simp [EdgeTarget]⟩
  · simp at h
  · -- bitcast
    rename_i sym
    simp only [Except.ok.injEq] at h
    obtain ⟨ext1, s1, s2, s3, s4, s5⟩ := getOrAddNode_spec inv.shape sym
    have he : ext' = ext1 := by
      have hn := inv'.shape.nodes
      rw [← h] at hn
      simp only [Graph.addEdge] at hn
      rw [s1.nodes, List.append_cancel_left_eq] at hn
      have : Function.Injective (fun n => mkNode n none false) := by
        intro a b hab
        simpa [mkNode] using hab
      exact (List.map_injective_iff.mpr this hn).symm
    subst he
    obtain ⟨h1, h2⟩ := hadd sym (by
      rcases s3 with s3 | ⟨s3, _⟩
      · exact Or.inl ⟨s3, s3 ▸ List.mem_of_getElem? s2⟩
      · exact Or.inr s3) (by simp [WhyExt, eq_comm]) (by simp [WhyExt])
    refine ⟨h1, h2, ?_⟩
    rintro ⟨a, b⟩
    rw [← h]
    simp only [Graph.addEdge, List.mem_append, List.mem_singleton, Prod.mk.injEq, s4, EdgeTarget]
    constructor
    · rintro (h | ⟨rfl, rfl⟩)
      · exact Or.inl h
      · exact Or.inr ⟨rfl, sym, s2, rfl⟩
    · rintro (h | ⟨rfl, name, h3, rfl⟩)
      · exact Or.inl h
      · exact Or.inr ⟨rfl, hinj h3 s2⟩
  · -- direct call
    rename_i f
    split at h
    · rename_i hcl
      simp only [Except.ok.injEq] at h
      obtain ⟨h1, h2⟩ := hquiet (by rw [← h]) (by
        rintro n (hw | ⟨hw, hw', _⟩)
        · simp at hw
        · simp only [Stmt.directCall.injEq] at hw
          rw [← hw, hcl] at hw'
          simp at hw')
      exact ⟨h1, h2, by rw [← h]; simp [EdgeTarget, hcl]⟩
    · rename_i routines hcl
      simp only [Except.ok.injEq] at h
      obtain ⟨r1, r2, r3⟩ := callRoutines_spec i hi routines inv.shape
      have hn := (callRoutines_frame i routines st).1
      have hn' : st'.g.nodes = st.g.nodes := by rw [← h]; exact hn
      obtain ⟨h1, h2⟩ := hquiet hn' (by
        rintro n (hw | ⟨hw, hw', _⟩)
        · simp at hw
        · simp only [Stmt.directCall.injEq] at hw
          rw [← hw, hcl] at hw'
          simp at hw')
      refine ⟨h1, h2, ?_⟩
      rintro e
      rw [← h, r2, hsame hn']
      simp only [EdgeTarget, hcl]
      constructor
      · rintro (h | ⟨r, h3, h4, h5⟩)
        · exact Or.inl h
        · exact Or.inr ⟨h4, r, h5, Or.inl ⟨routines, rfl, h3, List.mem_of_getElem? h5⟩⟩
      · rintro (h | ⟨h4, name, h5, ⟨rs, h6, h7, _⟩ | ⟨h6, _⟩⟩)
        · exact Or.inl h
        · simp only [CallKind.memory.injEq] at h6
          subst h6
          exact Or.inr ⟨name, h7, h4, h5⟩
        · simp at h6
    · simp at h
    · rename_i hcl
      unfold plainCall at h
      split at h
      · -- memcmp without a node
        rename_i hsym
        simp only [Except.ok.injEq] at h
        simp only [Bool.and_eq_true, Option.isNone_iff_eq_none] at hsym
        have hs1 : f ∈ symbollessIntrinsics := by simpa using hsym.1
        have hs2 := inv.shape.idx.none.mp hsym.2
        obtain ⟨h1, h2⟩ := hquiet (by rw [← h]) (by
          rintro n (hw | ⟨hw, _, _, _, hw'⟩)
          · simp at hw
          · simp only [Stmt.directCall.injEq] at hw
            rw [← hw] at hw'
            exact absurd hs1 hw')
        refine ⟨h1, h2, ?_⟩
        intro e
        rw [← h]
        simp only [EdgeTarget, hcl]
        constructor
        · exact Or.inl
        · rintro (h | ⟨_, name, _, ⟨_, h6, _⟩ | ⟨_, h6, _⟩⟩)
          · exact h
          · simp at h6
          · exact absurd (h6 hs1) hs2
      · rename_i hsym
        have hns : f ∈ symbollessIntrinsics → f ∈ cs ++ ext := by
          intro hf
          refine Classical.byContradiction fun hne => ?_
          apply hsym
          simp only [Bool.and_eq_true, Option.isNone_iff_eq_none]
          exact ⟨by simpa using hf, inv.shape.idx.none.mpr hne⟩
        split at h
        · -- a live function
          rename_i canon hal
          rw [inv.aliases] at hal
          split at h
          · rename_i callee hcal
            simp only [Except.ok.injEq] at h
            have hname := (inv.shape.idx canon callee).mp hcal
            have hn' : st'.g.nodes = st.g.nodes := by rw [← h]; exact (call_frame st i callee).1
            obtain ⟨h1, h2⟩ := hquiet hn' (by
              rintro n (hw | ⟨hw, _, hw', _⟩)
              · simp at hw
              · simp only [Stmt.directCall.injEq] at hw
                rw [← hw, hal] at hw'
                simp at hw')
            refine ⟨h1, h2, ?_⟩
            rintro ⟨a, b⟩
            rw [← h, mem_call_edges (inv.shape.seen _ _)]
            simp only [EdgeTarget, hcl, Prod.mk.injEq]
            constructor
            · rintro (h | ⟨rfl, rfl⟩)
              · exact Or.inl h
              · exact Or.inr ⟨rfl, canon, h2 _ _ hname, Or.inr ⟨trivial, hns, Or.inl hal⟩⟩
            · rintro (h | ⟨rfl, name, h5, ⟨_, h6, _⟩ | ⟨_, _, h6 | ⟨h6, _⟩⟩⟩)
              · exact Or.inl h
              · simp at h6
              · rw [hal] at h6
                obtain rfl := Option.some.inj h6
                exact Or.inr ⟨rfl, hinj h5 (h2 _ _ hname)⟩
              · rw [hal] at h6
                simp at h6
          · simp at h
        · rename_i hal
          rw [inv.aliases] at hal
          split at h
          · -- an external function
            rename_i hund
            have hund' : f ∈ p.undefined := by simpa using hund
            simp only [Except.ok.injEq] at h
            obtain ⟨ext1, s1, s2, s3, s4, s5⟩ := getOrAddNode_spec inv.shape f
            generalize hk : (st.getOrAddNode f).2 = k at h s2
            generalize hst1 : (st.getOrAddNode f).1 = st1 at *
            have hklt := (List.getElem?_eq_some_iff.mp s2).1
            have he := hshape ext1 (h ▸ s1.call hi hklt)
            subst he
            obtain ⟨h1, h2⟩ := hadd f (by
              rcases s3 with s3 | ⟨s3, _⟩
              · exact Or.inl ⟨s3, s3 ▸ List.mem_of_getElem? s2⟩
              · exact Or.inr s3) (by
                rintro n (hw | ⟨hw, _⟩)
                · simp at hw
                · simp only [Stmt.directCall.injEq] at hw
                  exact hw.symm) (fun hnew => Or.inr ⟨rfl, hcl, hal, hund', fun hf => hnew (hns hf)⟩)
            refine ⟨h1, h2, ?_⟩
            rintro ⟨a, b⟩
            rw [← h, mem_call_edges (s1.seen _ _), s4]
            simp only [EdgeTarget, hcl, Prod.mk.injEq]
            constructor
            · rintro (h | ⟨rfl, rfl⟩)
              · exact Or.inl h
              · exact Or.inr ⟨rfl, f, s2, Or.inr ⟨trivial, hns, Or.inr ⟨hal, hund', rfl⟩⟩⟩
            · rintro (h | ⟨rfl, name, h5, ⟨_, h6, _⟩ | ⟨_, _, h6 | ⟨_, _, h6⟩⟩⟩)
              · exact Or.inl h
              · simp at h6
              · rw [hal] at h6
                simp at h6
              · subst h6
                exact Or.inr ⟨rfl, hinj h5 s2⟩
          · simp at h
  · simp only [Except.ok.injEq] at h
    obtain ⟨h1, h2⟩ := hquiet (by rw [← h]) (by simp [WhyExt])
    exact ⟨h1, h2, by rw [← h]; simp [EdgeTarget]⟩
  all_goals
    simp only [Except.ok.injEq] at h
    obtain ⟨h1, h2⟩ := hquiet (by rw [← h]) (by simp [WhyExt])
    exact ⟨h1, h2, by rw [← h]; simp [EdgeTarget]⟩

/-- The names with a node after the statements `B`. -/
def NodeNames (p : Program) (cs : List Str) (al : List (Str × Str)) (B : Stmt → Prop) (n : Str) : Prop :=
  n ∈ cs ∨ ∃ s, B s ∧ WhyExt p.target.isThumb al p.undefined s n

theorem NodeNames.congr {al : List (Str × Str)} {B B' : Stmt → Prop} (h : ∀ s, B s ↔ B' s) {n : Str} :
    NodeNames p cs al B n ↔ NodeNames p cs al B' n := by
  have : B = B' := funext fun s => propext (h s)
  rw [this]

/-- An edge from `a` to the node with the name `name`. -/
def EdgeTo (cs ext : List Str) (st : Build) (a : Nat) (name : Str) : Prop :=
  ∃ k : Nat, (cs ++ ext)[k]? = some name ∧ (a, k) ∈ st.g.edges

/-- What a list of statements of the `i`-th function, read after the statements `B`, leads to. -/
def StmtsTarget (p : Program) (cs : List Str) (al : List (Str × Str)) (B : Stmt → Prop) (ss : List Stmt)
    (name : Str) : Prop :=
  ∃ pre s post, ss = pre ++ s :: post ∧
    EdgeTarget p.target.isThumb al p.undefined (NodeNames p cs al (fun t => B t ∨ t ∈ pre)) s name

theorem stmtStep_edges (inv : IrInv p base cs st0 P ext st) {i : Nat} {c : Str}
    (hcanon : ∀ (n c : Str), mget n st0.aliases = some c → c ∈ cs)
    (hc : cs[i]? = some c) {s : Stmt} {st' : Build} {B : Stmt → Prop}
    (hB : ∀ n, n ∈ cs ++ ext ↔ NodeNames p cs st0.aliases B n) (h : stmtStep p c i st s = .ok st') :
    ∃ ext', IrInv p base cs st0 (addStmt P i s) ext' st' ∧
      (∀ n, n ∈ cs ++ ext' ↔ NodeNames p cs st0.aliases (fun t => B t ∨ t = s) n) ∧
      ∀ a name, EdgeTo cs ext' st' a name ↔ EdgeTo cs ext st a name ∨
        (a = i ∧ EdgeTarget p.target.isThumb st0.aliases p.undefined (NodeNames p cs st0.aliases B) s name) := by
  obtain ⟨ext', inv', h1, h2, h3⟩ := stmtStep_exact inv hc h
  have hN : ∀ name, EdgeTarget p.target.isThumb st0.aliases p.undefined (· ∈ cs ++ ext) s name ↔
      EdgeTarget p.target.isThumb st0.aliases p.undefined (NodeNames p cs st0.aliases B) s name :=
    fun name => EdgeTarget.congr hB
  refine ⟨ext', inv', ?_, ?_⟩
  · intro n
    rw [h1, hB]
    unfold NodeNames
    constructor
    · rintro ((h | ⟨t, h4, h5⟩) | h)
      · exact Or.inl h
      · exact Or.inr ⟨t, Or.inl h4, h5⟩
      · exact Or.inr ⟨s, Or.inr rfl, h⟩
    · rintro (h | ⟨t, h4 | rfl, h5⟩)
      · exact Or.inl (Or.inl h)
      · exact Or.inl (Or.inr ⟨t, h4, h5⟩)
      · exact Or.inr h5
  · have hin : ∀ name, EdgeTarget p.target.isThumb st0.aliases p.undefined (· ∈ cs ++ ext) s name →
        name ∈ cs ++ ext' := by
      intro name ht
      rw [h1]
      unfold EdgeTarget at ht
      split at ht
      · exact Or.inr (Or.inl (by rw [ht]))
      · rename_i f
        rcases ht with ⟨_, _, _, h4⟩ | ⟨h4, h5, h6 | ⟨h6, h7, h8⟩⟩
        · exact Or.inl h4
        · exact Or.inl (List.mem_append.mpr (Or.inl (hcanon _ _ h6)))
        · subst h8
          by_cases hf : name ∈ symbollessIntrinsics
          · exact Or.inl (h5 hf)
          · exact Or.inr (Or.inr ⟨rfl, h4, h6, h7, hf⟩)
      · exact ht.elim
    intro a name
    constructor
    · rintro ⟨k, h4, h5⟩
      rcases (h3 _).mp h5 with h5 | ⟨h5, name', h6, h7⟩
      · left
        have hlt := (inv.shape.wf _ h5).2
        have h6 := h2 k _ (List.getElem?_eq_getElem hlt)
        simp only at h6
        rw [h4] at h6
        have h7 := Option.some.inj h6
        exact ⟨k, by rw [h7]; exact List.getElem?_eq_getElem hlt, h5⟩
      · right
        simp only at h5 h6
        rw [h4] at h6
        obtain rfl := Option.some.inj h6
        exact ⟨h5, (hN _).mp h7⟩
    · rintro (⟨k, h4, h5⟩ | ⟨rfl, h4⟩)
      · exact ⟨k, h2 k _ h4, (h3 _).mpr (Or.inl h5)⟩
      · have h5 := (hN _).mpr h4
        obtain ⟨k, hk⟩ := List.getElem?_of_mem (hin _ h5)
        exact ⟨k, hk, (h3 _).mpr (Or.inr ⟨rfl, name, hk, h5⟩)⟩

theorem StmtsTarget.cons {al : List (Str × Str)} {B : Stmt → Prop} {s : Stmt} {ss : List Stmt} {name : Str} :
    StmtsTarget p cs al B (s :: ss) name ↔
      EdgeTarget p.target.isThumb al p.undefined (NodeNames p cs al B) s name ∨
      StmtsTarget p cs al (fun t => B t ∨ t = s) ss name := by
  constructor
  · rintro ⟨pre, s', post, h1, h2⟩
    cases pre with
    | nil =>
      simp only [List.nil_append, List.cons.injEq] at h1
      rw [← h1.1] at h2
      exact Or.inl ((EdgeTarget.congr fun n => NodeNames.congr (by simp)).mp h2)
    | cons s0 pre =>
      simp only [List.cons_append, List.cons.injEq] at h1
      refine Or.inr ⟨pre, s', post, h1.2, ?_⟩
      rw [h1.1]
      exact (EdgeTarget.congr fun n => NodeNames.congr (by simp [or_assoc])).mp h2
  · rintro (h | ⟨pre, s', post, rfl, h2⟩)
    · exact ⟨[], s, ss, rfl, (EdgeTarget.congr fun n => NodeNames.congr (by simp)).mp h⟩
    · exact ⟨s :: pre, s', post, rfl, (EdgeTarget.congr fun n => NodeNames.congr (by simp [or_assoc])).mp h2⟩

theorem stmtsPass_edges {i : Nat} {c : Str} (hcanon : ∀ (n c : Str), mget n st0.aliases = some c → c ∈ cs)
    (hc : cs[i]? = some c) (ss : List Stmt) :
    ∀ {P : Nat → Stmt → Prop} {ext : List Str} {st st' : Build} {B : Stmt → Prop}, IrInv p base cs st0 P ext st →
      (∀ n, n ∈ cs ++ ext ↔ NodeNames p cs st0.aliases B n) → stmtsPass p c i st ss = .ok st' →
      ∃ ext', IrInv p base cs st0 (fun i' s' => P i' s' ∨ (i' = i ∧ s' ∈ ss)) ext' st' ∧
        (∀ n, n ∈ cs ++ ext' ↔ NodeNames p cs st0.aliases (fun t => B t ∨ t ∈ ss) n) ∧
        ∀ a name, EdgeTo cs ext' st' a name ↔ EdgeTo cs ext st a name ∨
          (a = i ∧ StmtsTarget p cs st0.aliases B ss name) := by
  induction ss with
  | nil =>
    intro P ext st st' B inv hB h
    simp only [stmtsPass, Except.ok.injEq] at h
    subst h
    refine ⟨ext, inv.congr (by simp), fun n => ?_, fun a name => ?_⟩
    · rw [hB]; exact NodeNames.congr (by simp)
    · simp [StmtsTarget]
  | cons s ss ih =>
    intro P ext st st' B inv hB h
    unfold stmtsPass at h
    split at h
    · simp at h
    rename_i st1 h1
    obtain ⟨ext1, inv1, hB1, he1⟩ := stmtStep_edges inv hcanon hc hB h1
    obtain ⟨ext2, inv2, hB2, he2⟩ := ih inv1 hB1 h
    refine ⟨ext2, inv2.congr ?_, fun n => ?_, fun a name => ?_⟩
    · intro i' s'
      simp only [addStmt, List.mem_cons]
      tauto
    · rw [hB2]; exact NodeNames.congr (by simp [or_assoc])
    · rw [he2, he1, StmtsTarget.cons]
      tauto

/-- The statements of live functions among the definitions `ds`. -/
def LiveStmts (al : List (Str × Str)) (ds : List Define) (s : Stmt) : Prop :=
  ∃ d ∈ ds, mget d.name al ≠ none ∧ s ∈ d.stmts

/-- What a definition, read after the statements `B`, leads to. -/
def DefineTarget (p : Program) (cs : List Str) (al : List (Str × Str)) (B : Stmt → Prop) (d : Define) (i : Nat)
    (name : Str) : Prop :=
  ∃ c, mget d.name al = some c ∧ cs[i]? = some c ∧ StmtsTarget p cs al B d.stmts name

theorem DefineTarget.congr {al : List (Str × Str)} {B B' : Stmt → Prop} (h : ∀ s, B s ↔ B' s) {d : Define}
    {i : Nat} {name : Str} : DefineTarget p cs al B d i name ↔ DefineTarget p cs al B' d i name := by
  have : B = B' := funext fun s => propext (h s)
  rw [this]

theorem defineStep_edges (inv : IrInv p base cs st0 P ext st)
    (hcanon : ∀ (n c : Str), mget n st0.aliases = some c → c ∈ cs)
    (hidx : Indexed cs st0.indices) {d : Define} {st' : Build} {B : Stmt → Prop}
    (hB : ∀ n, n ∈ cs ++ ext ↔ NodeNames p cs st0.aliases B n) (h : defineStep p st d = .ok st') :
    ∃ ext', IrInv p base cs st0 (fun i s => P i s ∨ StmtsOf cs st0.aliases [d] i s) ext' st' ∧
      (∀ n, n ∈ cs ++ ext' ↔ NodeNames p cs st0.aliases (fun t => B t ∨ LiveStmts st0.aliases [d] t) n) ∧
      ∀ a name, EdgeTo cs ext' st' a name ↔ EdgeTo cs ext st a name ∨
        DefineTarget p cs st0.aliases B d a name := by
  have hal0 := inv.aliases
  unfold defineStep at h
  split at h
  · rename_i hn
    rw [hal0] at hn
    simp only [Except.ok.injEq] at h
    subst h
    refine ⟨ext, inv.congr ?_, fun n => ?_, fun a name => ?_⟩
    · intro i s
      simp only [StmtsOf, List.mem_singleton, exists_eq_left, hn, reduceCtorEq, false_and, exists_false,
        or_false]
    · rw [hB]; exact NodeNames.congr (by simp [LiveStmts, hn])
    · simp [DefineTarget, hn]
  · rename_i c hal
    rw [hal0] at hal
    split at h
    · simp at h
    · rename_i caller hcal
      have hcn := (inv.shape.idx c caller).mp hcal
      have hcc := hcanon _ _ hal
      obtain ⟨k, hk⟩ := List.getElem?_of_mem hcc
      have hk' : (cs ++ ext)[k]? = some c := by
        rw [List.getElem?_append_left (List.getElem?_eq_some_iff.mp hk).1]
        exact hk
      have hck := inv.shape.idx.inj hcn hk'
      subst hck
      obtain ⟨ext', inv', hB', he'⟩ := stmtsPass_edges hcanon hk d.stmts (inv.touch caller _) hB h
      refine ⟨ext', inv'.congr ?_, fun n => ?_, fun a name => ?_⟩
      · intro i s
        simp only [StmtsOf, List.mem_singleton, exists_eq_left, hal, Option.some.injEq]
        constructor
        · rintro (h0 | ⟨rfl, h0⟩)
          · exact Or.inl h0
          · exact Or.inr ⟨c, rfl, hk, h0⟩
        · rintro (h0 | ⟨c', rfl, h1, h2⟩)
          · exact Or.inl h0
          · exact Or.inr ⟨hidx.inj h1 hk, h2⟩
      · rw [hB']; exact NodeNames.congr (by simp [LiveStmts, hal])
      · rw [he']
        apply or_congr Iff.rfl
        unfold DefineTarget
        constructor
        · rintro ⟨rfl, h1⟩
          exact ⟨c, hal, hk, h1⟩
        · rintro ⟨c', h1, h2, h3⟩
          rw [hal] at h1
          obtain rfl := Option.some.inj h1
          exact ⟨hidx.inj h2 hk, h3⟩

theorem definePass_edges (hcanon : ∀ (n c : Str), mget n st0.aliases = some c → c ∈ cs)
    (hidx : Indexed cs st0.indices) (ds : List Define) :
    ∀ {P : Nat → Stmt → Prop} {ext : List Str} {st st' : Build} {B : Stmt → Prop}, IrInv p base cs st0 P ext st →
      (∀ n, n ∈ cs ++ ext ↔ NodeNames p cs st0.aliases B n) → definePass p st ds = .ok st' →
      ∃ ext', IrInv p base cs st0 (fun i s => P i s ∨ StmtsOf cs st0.aliases ds i s) ext' st' ∧
        (∀ n, n ∈ cs ++ ext' ↔ NodeNames p cs st0.aliases (fun t => B t ∨ LiveStmts st0.aliases ds t) n) ∧
        ∀ a name, EdgeTo cs ext' st' a name ↔ EdgeTo cs ext st a name ∨
          ∃ ds₁ d ds₂, ds = ds₁ ++ d :: ds₂ ∧
            DefineTarget p cs st0.aliases (fun t => B t ∨ LiveStmts st0.aliases ds₁ t) d a name := by
  induction ds with
  | nil =>
    intro P ext st st' B inv hB h
    simp only [definePass, Except.ok.injEq] at h
    subst h
    refine ⟨ext, inv.congr (by simp [StmtsOf]), fun n => ?_, by simp⟩
    rw [hB]; exact NodeNames.congr (by simp [LiveStmts])
  | cons d ds ih =>
    intro P ext st st' B inv hB h
    unfold definePass at h
    split at h
    · simp at h
    rename_i st1 h1
    obtain ⟨ext1, inv1, hB1, he1⟩ := defineStep_edges inv hcanon hidx hB h1
    obtain ⟨ext2, inv2, hB2, he2⟩ := ih inv1 hB1 h
    have hcons : ∀ (ds' : List Define) (t : Stmt),
        ((B t ∨ LiveStmts st0.aliases [d] t) ∨ LiveStmts st0.aliases ds' t) ↔
        (B t ∨ LiveStmts st0.aliases (d :: ds') t) := by
      intro ds' t
      unfold LiveStmts
      simp only [List.mem_cons, List.not_mem_nil, or_false, exists_eq_left, exists_eq_or_imp, or_assoc]
    refine ⟨ext2, inv2.congr ?_, fun n => ?_, fun a name => ?_⟩
    · intro i s
      simp only [StmtsOf, List.mem_cons, exists_eq_or_imp, List.not_mem_nil, exists_eq_left,
        or_false]
      rw [or_assoc]
    · rw [hB2]; exact NodeNames.congr (hcons ds)
    · rw [he2, he1, or_assoc]
      apply or_congr Iff.rfl
      constructor
      · rintro (h | ⟨ds₁, d', ds₂, rfl, hd⟩)
        · exact ⟨[], d, ds, rfl, (DefineTarget.congr (by simp [LiveStmts])).mp h⟩
        · exact ⟨d :: ds₁, d', ds₂, rfl, (DefineTarget.congr (hcons ds₁)).mp hd⟩
      · rintro ⟨ds₁, d', ds₂, h1, h⟩
        cases ds₁ with
        | nil =>
          simp only [List.nil_append, List.cons.injEq] at h1
          rw [← h1.1] at h
          exact Or.inl ((DefineTarget.congr (by simp [LiveStmts])).mp h)
        | cons d0 ds₁ =>
          simp only [List.cons_append, List.cons.injEq] at h1
          refine Or.inr ⟨ds₁, d', ds₂, h1.2, ?_⟩
          rw [← h1.1] at h
          exact (DefineTarget.congr (hcons ds₁)).mpr h

theorem whyExt_iff {demangle : Str → Str} (r : IrFacts demangle p cs ext st0 st) (s : Stmt) (n : Str) :
    WhyExt p.target.isThumb st0.aliases p.undefined s n ↔ s = .bitcastCall (some n) ∨
      (s = .directCall n ∧ ¬ IsIntrinsic n ∧ n ≠ c!"memcmp" ∧ p.NotLive n ∧ n ∈ p.undefined) := by
  have hmemcmp : n ∈ symbollessIntrinsics ↔ n = c!"memcmp" := by simp [symbollessIntrinsics]
  unfold WhyExt
  rw [classify_plain, r.dead, hmemcmp]
  tauto

theorem nodeNames_iff {demangle : Str → Str} (r : IrFacts demangle p cs ext st0 st) (B : Stmt → Prop) (n : Str) :
    NodeNames p cs st0.aliases B n ↔ p.NodeAfter B n := by
  unfold NodeNames Program.NodeAfter
  rw [r.mem_cs]
  apply or_congr Iff.rfl
  simp only [whyExt_iff r]
  constructor
  · rintro ⟨s, h1, rfl | ⟨rfl, h2⟩⟩
    · exact Or.inl h1
    · exact Or.inr ⟨h1, h2⟩
  · rintro (h1 | ⟨h1, h2⟩)
    · exact ⟨_, h1, Or.inl rfl⟩
    · exact ⟨_, h1, Or.inr ⟨rfl, h2⟩⟩

theorem edgeTarget_iff {demangle : Str → Str} (r : IrFacts demangle p cs ext st0 st) (B : Stmt → Prop) (s : Stmt)
    (name : Str) :
    EdgeTarget p.target.isThumb st0.aliases p.undefined (NodeNames p cs st0.aliases B) s name ↔
      p.LeadsTo B s name := by
  rw [EdgeTarget.congr (nodeNames_iff r B)]
  have hmemcmp : ∀ f, f ∈ symbollessIntrinsics ↔ f = c!"memcmp" := by simp [symbollessIntrinsics]
  have hthumb : p.target ≠ .other → p.target.isThumb = true := by
    cases p.target <;> simp [Target.isThumb]
  constructor
  · intro h
    unfold EdgeTarget at h
    split at h
    · subst h
      exact .bitcast _
    · rename_i f
      rcases h with ⟨rs, h1, h2, h3⟩ | ⟨h1, h2, h3⟩
      · by_cases ht : p.target = .other
        · rcases classify_memory h1 with ⟨h4, rfl⟩ | ⟨h4, rfl⟩
          · exact .copy ht h4 h2 h3
          · exact .fill ht h4 h2 h3
        · rw [hthumb ht] at h1
          exact absurd h1 classify_thumb_memory
      · rw [hmemcmp] at h2
        rcases h3 with h3 | ⟨h3, h4, rfl⟩
        · obtain ⟨j, h4, h5⟩ := (r.alias_iff f name).mp h3
          exact .live (classify_plain.mp h1) h5 h4 h2
        · exact .external (classify_plain.mp h1) ((r.dead _).mp h3) h4 h2
    · exact h.elim
  · intro h
    unfold EdgeTarget
    cases h with
    | bitcast => rfl
    | live h1 h2 h3 h4 =>
      exact Or.inr ⟨classify_plain.mpr h1, fun h => h4 ((hmemcmp _).mp h), Or.inl ((r.alias_iff _ _).mpr ⟨_, h3, h2⟩)⟩
    | external h1 h2 h3 h4 =>
      exact Or.inr ⟨classify_plain.mpr h1, fun h => h4 ((hmemcmp _).mp h), Or.inr ⟨(r.dead _).mpr h2, h3, rfl⟩⟩
    | copy h1 h2 h3 h4 =>
      refine Or.inl ⟨_, ?_, h3, h4⟩
      rw [h1]
      exact classify_memcpy h2
    | fill h1 h2 h3 h4 =>
      refine Or.inl ⟨_, ?_, h3, h4⟩
      rw [h1]
      exact classify_memset h2

/-- Names and edges after the pass over the LLVM-IR. -/
theorem irGraph_edges {demangle : Str → Str} (h : irGraph demangle p = .ok st)
    (r : IrFacts demangle p cs ext st0 st) :
    (∀ n, n ∈ cs ++ ext ↔ p.NodeAfter (fun s => ∃ i, p.Contains i s) n) ∧
    ∀ a name, EdgeTo cs ext st a name ↔ ∃ before s, p.StmtAt before a s ∧ p.LeadsTo before s name := by
  have hcanon : ∀ (n c : Str), mget n st0.aliases = some c → c ∈ cs := by
    intro n c hn
    obtain ⟨i, e, _, h2, _⟩ := r.sym.aliases_some n c hn
    exact List.mem_of_getElem? h2
  unfold irGraph at h
  rw [r.symOk] at h
  simp only at h
  obtain ⟨ext', inv, h1, h2⟩ := definePass_edges (B := fun _ => False) hcanon r.idx0 p.defines
    (IrInv.init r.sym r.idx0) (by simp [NodeNames]) h
  have he : ext' = ext := by
    have hn := inv.shape.nodes
    rw [r.ir.shape.nodes, List.append_cancel_left_eq] at hn
    have : Function.Injective (fun n => mkNode n none false) := by
      intro a b hab
      simpa [mkNode] using hab
    exact (List.map_injective_iff.mpr this hn).symm
  subst he
  have hlive : ∀ f, mget f st0.aliases ≠ none ↔ ∃ j, p.LiveAt f j := by
    intro f
    rw [ne_eq, r.dead f]
    exact not_forall_not
  refine ⟨fun n => ?_, fun a name => ?_⟩
  · rw [h1, nodeNames_iff r]
    have : (fun t => False ∨ LiveStmts st0.aliases p.defines t) = fun s => ∃ i, p.Contains i s := by
      funext t
      simp only [false_or, LiveStmts, Program.Contains, eq_iff_iff]
      constructor
      · rintro ⟨d, h3, h4, h5⟩
        obtain ⟨j, hj⟩ := (hlive _).mp h4
        exact ⟨j, d, h3, hj, h5⟩
      · rintro ⟨j, d, h3, hj, h5⟩
        exact ⟨d, h3, (hlive _).mpr ⟨j, hj⟩, h5⟩
    rw [this]
  · rw [h2]
    have h0 : ¬ EdgeTo cs [] st0 a name := by
      rintro ⟨k, _, h4⟩
      rw [r.sym.gedges] at h4
      simp at h4
    constructor
    · rintro (h3 | ⟨ds₁, d, ds₂, h3, c, h4, h5, pre, s, post, h6, h7⟩)
      · exact absurd h3 h0
      · refine ⟨_, s, ⟨ds₁, d, ds₂, pre, post, h3, (r.live _ _ _ h5).mp h4, h6, fun t => ?_⟩,
          (edgeTarget_iff r _ s name).mp h7⟩
        simp only [false_or, LiveStmts, hlive]
        exact or_comm
    · rintro ⟨before, s, ⟨ds₁, d, ds₂, pre, post, h3, h4, h5, h6⟩, h7⟩
      right
      obtain ⟨e, he, _⟩ := (liveAt_iff p d.name a).mp h4
      obtain ⟨c, hc⟩ := r.sym.idx_lt he
      refine ⟨ds₁, d, ds₂, h3, c, (r.live _ _ _ hc).mpr h4, hc, pre, s, post, h5, ?_⟩
      rw [← edgeTarget_iff r] at h7
      refine (EdgeTarget.congr fun n => NodeNames.congr fun t => ?_).mp h7
      rw [h6]
      simp only [false_or, LiveStmts, hlive]
      exact or_comm

/-! ### Order of the definitions -/

theorem nodeAfter_iff (p : Program) (B : Stmt → Prop) (n : Str) :
    p.NodeAfter B n ↔ (∃ j, p.Principal j n) ∨ ∃ s, B s ∧ p.Creates s n := by
  unfold Program.NodeAfter Program.Creates
  apply or_congr Iff.rfl
  constructor
  · rintro (h1 | ⟨h1, h2⟩)
    · exact ⟨_, h1, Or.inl rfl⟩
    · exact ⟨_, h1, Or.inr ⟨rfl, h2⟩⟩
  · rintro ⟨s, h1, rfl | ⟨rfl, h2⟩⟩
    · exact Or.inl h1
    · exact Or.inr ⟨h1, h2⟩

theorem NodeAfter.mono {B B' : Stmt → Prop} (hB : ∀ s, B s → B' s) {n : Str} (h : p.NodeAfter B n) :
    p.NodeAfter B' n := by
  rw [nodeAfter_iff] at h ⊢
  rcases h with h | ⟨s, h1, h2⟩
  · exact Or.inl h
  · exact Or.inr ⟨s, hB s h1, h2⟩

theorem LeadsTo.mono {B B' : Stmt → Prop} (hB : ∀ s, B s → B' s) {s : Stmt} {n : Str} (h : p.LeadsTo B s n) :
    p.LeadsTo B' s n := by
  cases h with
  | bitcast => exact .bitcast _
  | live h1 h2 h3 h4 => exact .live h1 h2 h3 fun h => NodeAfter.mono hB (h4 h)
  | external h1 h2 h3 h4 => exact .external h1 h2 h3 fun h => NodeAfter.mono hB (h4 h)
  | copy h1 h2 h3 h4 => exact .copy h1 h2 h3 (NodeAfter.mono hB h4)
  | fill h1 h2 h3 h4 => exact .fill h1 h2 h3 (NodeAfter.mono hB h4)

theorem Creates.leads {B : Stmt → Prop} {s : Stmt} {r : Str} (h : p.Creates s r) : p.LeadsTo B s r := by
  rcases h with rfl | ⟨rfl, h1, h2, h3, h4⟩
  · exact .bitcast _
  · exact .external h1 h3 h4 fun h => absurd h h2

theorem StmtAt.contains {B : Stmt → Prop} {i : Nat} {s : Stmt} (h : p.StmtAt B i s) :
    p.Contains i s ∧ ∀ t, B t → ∃ k, p.Contains k t := by
  obtain ⟨ds₁, d, ds₂, pre, post, h1, h2, h3, h4⟩ := h
  refine ⟨⟨d, by rw [h1]; simp, h2, by rw [h3]; simp⟩, fun t ht => ?_⟩
  rcases (h4 t).mp ht with h5 | ⟨d', h5, ⟨j, h6⟩, h7⟩
  · exact ⟨i, d, by rw [h1]; simp, h2, by rw [h3]; simp [h5]⟩
  · exact ⟨j, d', by rw [h1]; simp [h5], h6, h7⟩

theorem Contains.stmtAt {i : Nat} {s : Stmt} (h : p.Contains i s) : ∃ B, p.StmtAt B i s := by
  obtain ⟨d, h1, h2, h3⟩ := h
  obtain ⟨ds₁, ds₂, e⟩ := List.append_of_mem h1
  obtain ⟨pre, post, e'⟩ := List.append_of_mem h3
  exact ⟨_, ds₁, d, ds₂, pre, post, e, h2, e', fun t => Iff.rfl⟩

/-- If the order does not matter, a statement leads to what it leads to after all statements. -/
theorem leads_orderSafe (safe : p.OrderSafe) (i : Nat) (name : Str) :
    (∃ before s, p.StmtAt before i s ∧ p.LeadsTo before s name) ↔
      ∃ s, p.Contains i s ∧ p.LeadsTo (fun t => ∃ k, p.Contains k t) s name := by
  constructor
  · rintro ⟨before, s, h1, h2⟩
    exact ⟨s, (StmtAt.contains h1).1, LeadsTo.mono (StmtAt.contains h1).2 h2⟩
  · rintro ⟨s, h1, h2⟩
    have key : ∀ r, p.Needs s r → p.NodeAfter (fun t => ∃ k, p.Contains k t) r →
        (∃ j, p.Principal j r) ∨ ∃ before s, p.StmtAt before i s ∧ p.LeadsTo before s r := by
      intro r h3 h4
      rcases safe i s r h1 h3 with h5 | ⟨⟨s', h5, h6⟩, _⟩ | h5
      · exact Or.inl h5
      · obtain ⟨B, hB⟩ := Contains.stmtAt h5
        exact Or.inr ⟨B, s', hB, Creates.leads h6⟩
      · rcases (nodeAfter_iff _ _ _).mp h4 with h6 | ⟨s', ⟨k, h6⟩, h7⟩
        · exact Or.inl h6
        · exact absurd h7 (h5 k s' h6)
    obtain ⟨B, hB⟩ := Contains.stmtAt h1
    cases h2 with
    | bitcast => exact ⟨B, _, hB, .bitcast _⟩
    | live h2 h3 h4 h5 =>
      refine ⟨B, _, hB, .live h2 h3 h4 ?_⟩
      rintro rfl
      rcases safe i _ _ h1 .memcmp with h6 | ⟨_, h6⟩ | h6
      · exact Or.inl h6
      · exact absurd h3 ((h6 rfl).1 _)
      · rcases (nodeAfter_iff _ _ _).mp (h5 rfl) with h7 | ⟨s', ⟨k, h7⟩, h8⟩
        · exact Or.inl h7
        · exact absurd h8 (h6 k s' h7)
    | external h2 h3 h4 h5 =>
      by_cases hf : name = c!"memcmp"
      · subst hf
        rcases key _ .memcmp (h5 rfl) with h6 | h6
        · exact ⟨B, _, hB, .external h2 h3 h4 fun _ => Or.inl h6⟩
        · exact h6
      · exact ⟨B, _, hB, .external h2 h3 h4 fun h => absurd h hf⟩
    | copy h2 h3 h4 h5 =>
      rcases key _ (.copy h2 h3 h4) h5 with h6 | h6
      · exact ⟨B, _, hB, .copy h2 h3 h4 (Or.inl h6)⟩
      · exact h6
    | fill h2 h3 h4 h5 =>
      rcases key _ (.fill h2 h3 h4) h5 with h6 | h6
      · exact ⟨B, _, hB, .fill h2 h3 h4 (Or.inl h6)⟩
      · exact h6

theorem contains_perm {ds : List Define} (hp : ds.Perm p.defines) (i : Nat) (s : Stmt) :
    Program.Contains { p with defines := ds } i s ↔ p.Contains i s := by
  unfold Program.Contains
  constructor
  · rintro ⟨d, h1, h2⟩
    exact ⟨d, hp.mem_iff.mp h1, h2⟩
  · rintro ⟨d, h1, h2⟩
    exact ⟨d, hp.mem_iff.mpr h1, h2⟩

theorem leadsTo_defines {ds : List Define} {B : Stmt → Prop} {s : Stmt} {n : Str} :
    Program.LeadsTo { p with defines := ds } B s n ↔ p.LeadsTo B s n := by
  constructor
  · intro h
    cases h with
    | bitcast => exact .bitcast _
    | live h1 h2 h3 h4 => exact .live h1 h2 h3 h4
    | external h1 h2 h3 h4 => exact .external h1 h2 h3 h4
    | copy h1 h2 h3 h4 => exact .copy h1 h2 h3 h4
    | fill h1 h2 h3 h4 => exact .fill h1 h2 h3 h4
  · intro h
    cases h with
    | bitcast => exact .bitcast _
    | live h1 h2 h3 h4 => exact .live h1 h2 h3 h4
    | external h1 h2 h3 h4 => exact .external h1 h2 h3 h4
    | copy h1 h2 h3 h4 => exact .copy h1 h2 h3 h4
    | fill h1 h2 h3 h4 => exact .fill h1 h2 h3 h4

theorem needs_defines {ds : List Define} {s : Stmt} {r : Str} :
    Program.Needs { p with defines := ds } s r ↔ p.Needs s r := by
  constructor
  · intro h
    cases h with
    | memcmp => exact .memcmp
    | copy h1 h2 h3 => exact .copy h1 h2 h3
    | fill h1 h2 h3 => exact .fill h1 h2 h3
  · intro h
    cases h with
    | memcmp => exact .memcmp
    | copy h1 h2 h3 => exact .copy h1 h2 h3
    | fill h1 h2 h3 => exact .fill h1 h2 h3

theorem orderSafe_perm {ds : List Define} (hp : ds.Perm p.defines) :
    Program.OrderSafe { p with defines := ds } ↔ p.OrderSafe := by
  unfold Program.OrderSafe
  simp only [contains_perm hp, needs_defines]
  exact Iff.rfl

/-- After the same statements as those of `i` itself, a statement that needs a node does not find it. -/
theorem not_leads {B : Stmt → Prop} {i : Nat} {s : Stmt} {r : Str} (hs : p.Contains i s)
    (hB : ∀ t, B t → p.Contains i t) (h1 : ¬ ∃ j, p.Principal j r)
    (h2 : ¬ ∃ s', p.Contains i s' ∧ p.Creates s' r) : ¬ p.LeadsTo B s r := by
  have hn : ¬ p.NodeAfter B r := by
    rw [nodeAfter_iff]
    rintro (h | ⟨t, h3, h4⟩)
    · exact h1 h
    · exact h2 ⟨t, hB t h3, h4⟩
  intro h
  cases h with
  | bitcast => exact h2 ⟨_, hs, Or.inl rfl⟩
  | live h3 h4 h5 h6 => exact h1 ⟨_, h5⟩
  | external h3 h4 h5 h6 =>
    by_cases hr : r = c!"memcmp"
    · exact hn (h6 hr)
    · exact h2 ⟨_, hs, Or.inr ⟨rfl, h3, hr, h4, h5⟩⟩
  | copy h3 h4 h5 h6 => exact hn h6
  | fill h3 h4 h5 h6 => exact hn h6

theorem split_filter {α : Type} {f : α → Bool} {l a c : List α} {x : α}
    (h : l.filter f ++ l.filter (fun y => !f y) = a ++ x :: c) (hx : f x = true) : ∀ y ∈ a, f y = true := by
  have hlen : a.length < (l.filter f).length := by
    by_contra hlt
    have hx' : (l.filter f ++ l.filter (fun y => !f y))[a.length]? = some x := by rw [h]; simp
    rw [List.getElem?_append_right (by omega)] at hx'
    have := (List.mem_filter.mp (List.mem_of_getElem? hx')).2
    rw [hx] at this
    simp at this
  intro y hy
  obtain ⟨k, hk⟩ := List.getElem?_of_mem hy
  have hka := (List.getElem?_eq_some_iff.mp hk).1
  have h3 : (l.filter f ++ l.filter (fun y => !f y))[k]? = some y := by
    rw [h, List.getElem?_append_left hka]; exact hk
  rw [List.getElem?_append_left (by omega)] at h3
  exact (List.mem_filter.mp (List.mem_of_getElem? h3)).2

end CallStack
