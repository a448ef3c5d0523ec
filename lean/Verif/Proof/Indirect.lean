import Verif.Model.Build
import Verif.Proof.Maps

/-!
What the loop over the signatures (fictitious nodes) adds to the graph.
-/

namespace CallStack

theorem addEdges_from {f : Nat → Nat × Nat} (l : List Nat) (g : Graph) :
    l.foldl (fun g a => g.addEdge (f a).1 (f a).2) g =
      { g with edges := g.edges ++ l.map f } := by
  induction l generalizing g with
  | nil => simp
  | cons a l ih =>
    rw [List.foldl_cons, ih]
    simp [Graph.addEdge]

/-- Callees of the fictitious node. -/
def dashedCallees (fmts : List Nat) (void : Option Str) (e : FnSig × Indirect) : List Nat :=
  if isFormatter void e.1 then fmts else e.2.callees

/-- The fictitious node. -/
def dashedNode (void : Option Str) (e : FnSig × Indirect) : Node :=
  mkNode ((labelSig void e.1).show ++ c!"*") (some 0) true

/-- The node for untyped symbols. -/
def questionNode : Node := mkNode c!"?" none false

/-- The nodes and edges added for a called signature if the graph has `n` nodes. -/
def newNodes (hasUntyped : Bool) (void : Option Str) (e : FnSig × Indirect) : List Node :=
  dashedNode void e :: if hasUntyped then [questionNode] else []

def newEdges (ord : HashOrder) (hasUntyped : Bool) (fmts : List Nat) (void : Option Str) (k n : Nat)
    (e : FnSig × Indirect) : List (Nat × Nat) :=
  (ord.perm Nat (3 * k + 2) e.2.callers).map (fun a => (a, n)) ++
  ((if hasUntyped then [(n, n + 1)] else []) ++
  (ord.perm Nat (3 * k + 3) (dashedCallees fmts void e)).map (fun b => (n, b)))

theorem indirectStep_called {ord : HashOrder} {hasUntyped : Bool} {fmts : List Nat}
    {void : Option Str} {k : Nat} {g : Graph} {e : FnSig × Indirect} (h : e.2.called = true) :
    indirectStep ord hasUntyped fmts void k g e =
      { nodes := g.nodes ++ newNodes hasUntyped void e
        edges := g.edges ++ newEdges ord hasUntyped fmts void k g.nodes.length e } := by
  unfold indirectStep
  simp only [h, Bool.not_true, Bool.false_eq_true, if_false, Graph.addNode]
  rw [addEdges_from (f := fun a => (a, g.nodes.length))]
  cases hasUntyped with
  | false =>
    simp only [Bool.false_eq_true, if_false]
    rw [addEdges_from (f := fun b => (g.nodes.length, b))]
    simp [newNodes, newEdges, dashedNode, dashedCallees]
  | true =>
    simp only [if_true]
    rw [addEdges_from (f := fun b => (g.nodes.length, b))]
    simp [newNodes, newEdges, dashedNode, dashedCallees, questionNode, Graph.addEdge]

theorem indirectStep_not_called {ord : HashOrder} {hasUntyped : Bool} {fmts : List Nat}
    {void : Option Str} {k : Nat} {g : Graph} {e : FnSig × Indirect} (h : ¬ e.2.called = true) :
    indirectStep ord hasUntyped fmts void k g e = g := by
  unfold indirectStep
  simp [h]

theorem mem_newEdges {ord : HashOrder} {hasUntyped : Bool} {fmts : List Nat} {void : Option Str}
    {k n : Nat} {e : FnSig × Indirect} (a b : Nat) :
    (a, b) ∈ newEdges ord hasUntyped fmts void k n e ↔
      (b = n ∧ a ∈ e.2.callers) ∨ (hasUntyped = true ∧ a = n ∧ b = n + 1) ∨
      (a = n ∧ b ∈ dashedCallees fmts void e) := by
  unfold newEdges
  simp only [List.mem_append, List.mem_map, Prod.mk.injEq, (ord.isPerm _ _ _).mem_iff]
  have h1 : (∃ a' ∈ e.2.callers, a' = a ∧ n = b) ↔ b = n ∧ a ∈ e.2.callers :=
    ⟨fun ⟨_, h1, h2, h3⟩ => ⟨h3.symm, h2 ▸ h1⟩, fun ⟨h1, h2⟩ => ⟨a, h2, rfl, h1.symm⟩⟩
  have h2 : (∃ b' ∈ dashedCallees fmts void e, n = a ∧ b' = b) ↔
      a = n ∧ b ∈ dashedCallees fmts void e :=
    ⟨fun ⟨_, h1, h2, h3⟩ => ⟨h2.symm, h3 ▸ h1⟩, fun ⟨h1, h2⟩ => ⟨b, h2, h1.symm, rfl⟩⟩
  rw [h1, h2]
  cases hasUntyped <;> simp

/-- Node `k` of `g` is the fictitious node of the entry `e`. -/
structure DashedFor (hasUntyped : Bool) (fmts : List Nat) (void : Option Str) (e : FnSig × Indirect)
    (g : Graph) (k : Nat) : Prop where
  node : g.nodes[k]? = some (dashedNode void e)
  pred : ∀ a, (a, k) ∈ g.edges ↔ a ∈ e.2.callers
  succ : ∀ b, (k, b) ∈ g.edges ↔
    b ∈ dashedCallees fmts void e ∨ (hasUntyped = true ∧ b = k + 1)
  extern : hasUntyped = true → g.nodes[k + 1]? = some questionNode

/-- Result of the loop over the entries `L`, started with the graph `g`. -/
structure IndirectOut (hasUntyped : Bool) (fmts : List Nat) (void : Option Str) (g : Graph)
    (L : List (FnSig × Indirect)) (g' : Graph) : Prop where
  nodes : ∃ ns, g'.nodes = g.nodes ++ ns
  edges : ∃ es, g'.edges = g.edges ++ es ∧
    ∀ x ∈ es, (g.nodes.length ≤ x.1 ∨ g.nodes.length ≤ x.2) ∧ x.1 < g'.nodes.length ∧
      x.2 < g'.nodes.length
  called : ∀ e ∈ L, e.2.called = true →
    ∃ k, g.nodes.length ≤ k ∧ DashedFor hasUntyped fmts void e g' k
  new : ∀ k, g.nodes.length ≤ k → k < g'.nodes.length →
    (∃ e ∈ L, e.2.called = true ∧ DashedFor hasUntyped fmts void e g' k) ∨
    (hasUntyped = true ∧ g'.nodes[k]? = some questionNode ∧ (∀ b, (k, b) ∉ g'.edges) ∧
      ∃ k', k = k' + 1 ∧ g.nodes.length ≤ k' ∧
        (∃ e ∈ L, e.2.called = true ∧ DashedFor hasUntyped fmts void e g' k') ∧
        ∀ a, (a, k) ∈ g'.edges → a = k')

theorem indirectLoop_spec (ord : HashOrder) (hasUntyped : Bool) (fmts : List Nat)
    (void : Option Str) (n0 : Nat) (hf : ∀ i ∈ fmts, i < n0) (L : List (FnSig × Indirect)) :
    ∀ (g : Graph) (k : Nat), n0 ≤ g.nodes.length →
      (∀ x ∈ g.edges, x.1 < g.nodes.length ∧ x.2 < g.nodes.length) →
      (∀ e ∈ L, (∀ i ∈ e.2.callers, i < n0) ∧ ∀ i ∈ e.2.callees, i < n0) →
      IndirectOut hasUntyped fmts void g L (indirectLoop ord hasUntyped fmts void k g L) := by
  induction L with
  | nil =>
    intro g k hn hg hL
    refine ⟨⟨[], by simp [indirectLoop]⟩, ⟨[], by simp [indirectLoop]⟩, by simp, ?_⟩
    intro k h1 h2
    simp only [indirectLoop] at h2
    omega
  | cons e L ih =>
    intro g k hn hg hL
    have hLe := hL e List.mem_cons_self
    have hLr : ∀ e' ∈ L, (∀ i ∈ e'.2.callers, i < n0) ∧ ∀ i ∈ e'.2.callees, i < n0 :=
      fun e' he' => hL e' (List.mem_cons_of_mem _ he')
    unfold indirectLoop
    by_cases hc : e.2.called = true
    · -- a called signature
      rw [indirectStep_called hc]
      generalize hm : g.nodes.length = m at *
      have hcal : ∀ i ∈ dashedCallees fmts void e, i < n0 := by
        intro i hi
        unfold dashedCallees at hi
        split at hi
        · exact hf i hi
        · exact hLe.2 i hi
      have hlen : (newNodes hasUntyped void e).length = if hasUntyped then 2 else 1 := by
        unfold newNodes
        split <;> rfl
      have hpos : 1 ≤ (newNodes hasUntyped void e).length := by
        rw [hlen]; split <;> omega
      have hpos2 : hasUntyped = true → (newNodes hasUntyped void e).length = 2 := by
        intro h; rw [hlen, h]; rfl
      have hpos3 : hasUntyped = false → (newNodes hasUntyped void e).length = 1 := by
        intro h; rw [hlen, h]; rfl
      generalize hg1 : ({ nodes := g.nodes ++ newNodes hasUntyped void e
                          edges := g.edges ++ newEdges ord hasUntyped fmts void k m e } : Graph)
        = g1
      have hn1 : g1.nodes = g.nodes ++ newNodes hasUntyped void e := by rw [← hg1]
      have he1 : g1.edges = g.edges ++ newEdges ord hasUntyped fmts void k m e := by rw [← hg1]
      have hl1 : g1.nodes.length = m + (newNodes hasUntyped void e).length := by
        rw [hn1, List.length_append, hm]
      have hwf1 : ∀ x ∈ g1.edges, x.1 < g1.nodes.length ∧ x.2 < g1.nodes.length := by
        rintro ⟨a, b⟩ hx
        rw [he1, List.mem_append, mem_newEdges] at hx
        rcases hx with hx | ⟨h1, h2⟩ | ⟨h0, h1, h2⟩ | ⟨h1, h2⟩
        · have := hg _ hx
          simp only at this ⊢
          omega
        · have := hLe.1 a h2
          simp only
          omega
        · have := hpos2 h0
          simp only
          omega
        · have := hcal b h2
          simp only
          omega
      have out := ih g1 (k + 1) (by omega) hwf1 hLr
      generalize hg2 : indirectLoop ord hasUntyped fmts void (k + 1) g1 L = g2 at *
      obtain ⟨ns, hns⟩ := out.nodes
      obtain ⟨es, hes, hesr⟩ := out.edges
      have hl2 : g2.nodes.length = g1.nodes.length + ns.length := by
        rw [hns, List.length_append]
      -- an edge of the result that touches a node between m and g1.nodes.length
      have hold : ∀ a b, (a, b) ∈ g2.edges → (a < g1.nodes.length ∧ b < g1.nodes.length) →
          (a, b) ∈ g1.edges := by
        intro a b hab hlt
        rw [hes, List.mem_append] at hab
        rcases hab with hab | hab
        · exact hab
        · have := (hesr _ hab).1
          simp only at this
          omega
      -- edges at a node at or above g1.nodes.length: the other end
      have hnew : ∀ a b, (a, b) ∈ g2.edges →
          (g1.nodes.length ≤ b → a < g1.nodes.length → a < n0) ∧
          (g1.nodes.length ≤ a → b < g1.nodes.length → b < n0) := by
        intro a b hab
        have hlt : a < g2.nodes.length ∧ b < g2.nodes.length := by
          rw [hes, List.mem_append] at hab
          rcases hab with hab | hab
          · have := hwf1 _ hab
            simp only at this
            omega
          · have := (hesr _ hab).2
            simpa using this
        constructor
        · intro hb ha
          rcases out.new b hb hlt.2 with ⟨e', he', _, hd⟩ | ⟨_, _, _, k', hk', hkk, _, hp⟩
          · exact (hLr e' he').1 a ((hd.pred a).mp hab)
          · have := hp a hab
            omega
        · intro ha hb
          rcases out.new a ha hlt.1 with ⟨e', he', _, hd⟩ | ⟨_, _, hno, _⟩
          · rcases (hd.succ b).mp hab with h | ⟨_, h⟩
            · unfold dashedCallees at h
              split at h
              · exact hf b h
              · exact (hLr e' he').2 b h
            · omega
          · exact absurd hab (hno b)
      have hdash : DashedFor hasUntyped fmts void e g2 m := by
        constructor
        · rw [hns, hn1, List.getElem?_append_left (by simp [hm]; omega),
            List.getElem?_append_right (by omega), hm]
          simp [newNodes]
        · intro a
          constructor
          · intro ha
            by_cases hlt : a < g1.nodes.length
            · have := hold a m ha ⟨hlt, by omega⟩
              rw [he1, List.mem_append, mem_newEdges] at this
              rcases this with h | ⟨_, h⟩ | ⟨_, h1, h2⟩ | ⟨h1, h2⟩
              · have := (hg _ h).2
                simp only at this
                omega
              · exact h
              · omega
              · have := hcal _ h2
                omega
            · have := (hnew a m ha).2 (by omega) (by omega)
              omega
          · intro ha
            rw [hes, he1]
            simp only [List.mem_append, mem_newEdges]
            exact Or.inl (Or.inr (Or.inl ⟨trivial, ha⟩))
        · intro b
          constructor
          · intro hb
            by_cases hlt : b < g1.nodes.length
            · have := hold m b hb ⟨by omega, hlt⟩
              rw [he1, List.mem_append, mem_newEdges] at this
              rcases this with h | ⟨h1, h⟩ | ⟨h0, h1, h2⟩ | ⟨h1, h2⟩
              · have := (hg _ h).1
                simp only at this
                omega
              · have := hLe.1 m h
                omega
              · exact Or.inr ⟨h0, h2⟩
              · exact Or.inl h2
            · have := (hnew m b hb).1 (by omega) (by omega)
              omega
          · rintro (hb | ⟨h0, hb⟩)
            · rw [hes, he1]
              simp only [List.mem_append, mem_newEdges]
              exact Or.inl (Or.inr (Or.inr (Or.inr ⟨trivial, hb⟩)))
            · rw [hes, he1]
              simp only [List.mem_append, mem_newEdges]
              exact Or.inl (Or.inr (Or.inr (Or.inl ⟨h0, trivial, hb⟩)))
        · intro h0
          have := hpos2 h0
          rw [hns, hn1, List.getElem?_append_left (by simp [hm]; omega),
            List.getElem?_append_right (by omega), hm]
          simp [newNodes, h0]
      refine ⟨?_, ?_, ?_, ?_⟩
      · exact ⟨newNodes hasUntyped void e ++ ns, by rw [hns, hn1, List.append_assoc]⟩
      · refine ⟨newEdges ord hasUntyped fmts void k m e ++ es, by rw [hes, he1, List.append_assoc], ?_⟩
        rintro ⟨a, b⟩ hx
        rw [hm]
        simp only [List.mem_append, mem_newEdges] at hx
        rcases hx with (⟨h1, h2⟩ | ⟨h0, h1, h2⟩ | ⟨h1, h2⟩) | hx
        · have := hLe.1 a h2
          simp only
          omega
        · have := hpos2 h0
          simp only
          omega
        · have := hcal b h2
          simp only
          omega
        · have := hesr _ hx
          simp only at this ⊢
          omega
      · intro e' he' hc'
        rw [hm]
        rcases List.mem_cons.mp he' with h | h
        · subst h
          exact ⟨m, Nat.le_refl _, hdash⟩
        · obtain ⟨k', hk', hd⟩ := out.called e' h hc'
          exact ⟨k', by omega, hd⟩
      · intro j hj1 hj2
        rw [hm] at hj1
        by_cases hj : g1.nodes.length ≤ j
        · rcases out.new j hj hj2 with ⟨e', he', hc', hd⟩ | ⟨h0, h1, h2, k', h3, h4, ⟨e', he', hd⟩, h5⟩
          · exact Or.inl ⟨e', List.mem_cons_of_mem _ he', hc', hd⟩
          · refine Or.inr ⟨h0, h1, h2, k', h3, by omega, ⟨e', List.mem_cons_of_mem _ he', hd⟩, h5⟩
        · by_cases hjm : j = m
          · subst hjm
            exact Or.inl ⟨e, List.mem_cons_self, hc, hdash⟩
          · have h0 : hasUntyped = true := by
              cases hu : hasUntyped with
              | true => rfl
              | false =>
                have := hpos3 hu
                omega
            have hj' : j = m + 1 := by
              have := hpos2 h0
              omega
            refine Or.inr ⟨h0, hj' ▸ hdash.extern h0, ?_, m, hj', by omega,
              ⟨e, List.mem_cons_self, hc, hdash⟩, ?_⟩
            · intro b hb
              by_cases hlt : b < g1.nodes.length
              · have := hold j b hb ⟨by omega, hlt⟩
                rw [he1, List.mem_append, mem_newEdges] at this
                rcases this with h | ⟨h1, h⟩ | ⟨_, h1, h2⟩ | ⟨h1, h2⟩
                · have := (hg _ h).1
                  simp only at this
                  omega
                · have := hLe.1 j h
                  omega
                · omega
                · omega
              · have := (hnew j b hb).1 (by omega) (by omega)
                omega
            · intro a ha
              by_cases hlt : a < g1.nodes.length
              · have := hold a j ha ⟨hlt, by omega⟩
                rw [he1, List.mem_append, mem_newEdges] at this
                rcases this with h | ⟨h1, h⟩ | ⟨_, h1, h2⟩ | ⟨h1, h2⟩
                · have := (hg _ h).2
                  simp only at this
                  omega
                · omega
                · exact h1
                · have := hcal j h2
                  omega
              · have := (hnew a j ha).2 (by omega) (by omega)
                omega
    · rw [indirectStep_not_called hc]
      have out := ih g (k + 1) hn hg hLr
      refine ⟨out.nodes, out.edges, ?_, ?_⟩
      · intro e' he' hc'
        rcases List.mem_cons.mp he' with h | h
        · subst h
          exact absurd hc' hc
        · exact out.called e' h hc'
      · intro j h1 h2
        rcases out.new j h1 h2 with ⟨e', he', hd⟩ | ⟨h0, h1, h2, k', h3, h4, ⟨e', he', hd⟩, h5⟩
        · exact Or.inl ⟨e', List.mem_cons_of_mem _ he', hd⟩
        · exact Or.inr ⟨h0, h1, h2, k', h3, h4, ⟨e', List.mem_cons_of_mem _ he', hd⟩, h5⟩

end CallStack
