import Verif.Proof.Calls
import Verif.Proof.Names
import Verif.Proof.Chains

/-!
The printed graph, without a start point, against the call graph it was computed from.
-/

namespace CallStack

theorem shortenNodes_fields {demangle : Str → Str} {amb : List (Str × Nat)} {l l' : List Node}
    (h : shortenNodes demangle amb l = .ok l') :
    l'.map (fun nd => (nd.loc, nd.max, nd.dashed)) = l.map (fun nd => (nd.loc, nd.max, nd.dashed)) := by
  induction l generalizing l' with
  | nil =>
    simp only [shortenNodes, Except.ok.injEq] at h
    subst h
    rfl
  | cons nd rest ih =>
    unfold shortenNodes at h
    split at h
    · simp at h
    · split at h
      · simp at h
      · rename_i name _ _ rest' hr
        simp only [Except.ok.injEq] at h
        subst h
        simp [ih hr]

theorem fields_at {l l' : List Node}
    (h : l'.map (fun nd => (nd.loc, nd.max, nd.dashed)) = l.map (fun nd => (nd.loc, nd.max, nd.dashed)))
    (i : Nat) : l'[i]?.map (fun nd => (nd.loc, nd.max, nd.dashed)) =
      l[i]?.map (fun nd => (nd.loc, nd.max, nd.dashed)) := by
  have := congrArg (fun x => x[i]?) h
  simpa [List.getElem?_map] using this

theorem shortenNodes_iff {demangle : Str → Str} {amb : List (Str × Nat)} {l l' : List Node} :
    shortenNodes demangle amb l = .ok l' ↔
      List.Forall₂ (fun nd nd' => ∃ name, shortenName demangle amb nd.name = .ok name ∧
        nd' = { nd with name }) l l' := by
  induction l generalizing l' with
  | nil => simp [shortenNodes, eq_comm]
  | cons nd rest ih =>
    rw [List.forall₂_cons_left_iff]
    unfold shortenNodes
    constructor
    · intro h
      split at h
      · simp at h
      · split at h
        · simp at h
        · rename_i name hn _ rest' hr
          simp only [Except.ok.injEq] at h
          exact ⟨_, rest', ⟨name, hn, rfl⟩, ih.mp hr, h.symm⟩
    · rintro ⟨nd', rest', ⟨name, hn, rfl⟩, hr, rfl⟩
      rw [hn, ih.mpr hr]

theorem forall₂_at {α β : Type} {R : α → β → Prop} {l : List α} {l' : List β}
    (h : List.Forall₂ R l l') (i : Nat) :
    (∀ a, l[i]? = some a → ∃ b, l'[i]? = some b ∧ R a b) ∧ (l[i]? = none → l'[i]? = none) := by
  induction h generalizing i with
  | nil => simp
  | cons hab _ ih =>
    cases i with
    | zero => simpa using hab
    | succ i => simpa using ih i

theorem forall₂_of_at {α β : Type} {R : α → β → Prop} {l : List α}
    (h : ∀ a ∈ l, ∃ b, R a b) : ∃ l', List.Forall₂ R l l' := by
  induction l with
  | nil => exact ⟨[], .nil⟩
  | cons a l ih =>
    obtain ⟨b, hb⟩ := h a List.mem_cons_self
    obtain ⟨l', hl⟩ := ih fun x hx => h x (List.mem_cons_of_mem _ hx)
    exact ⟨b :: l', .cons hb hl⟩

/-- The printed graph `g'` comes from the call graph `g`. -/
structure FinalFacts (info : Bool) (g g' : Graph) (cycles : List (List Nat)) : Prop where
  analysis : ∃ g1, analyzeMax info g = .ok (g1, cycles) ∧ g'.edges = g1.edges ∧
    (∀ i, g'.locOf i = g1.locOf i) ∧ (∀ i, g'.maxOf? i = g1.maxOf? i)

theorem finalGraph_facts {demangle : Str → Str} {ord : HashOrder} {search : TagSearch} {p : Program}
    {elf : Elf} {g' : Graph} {cycles : List (List Nat)}
    (h : finalGraph demangle ord search p elf none = .ok (g', cycles)) :
    ∃ (st : Build) (g : Graph), callGraph demangle ord search p elf = .ok (st, g) ∧
      FinalFacts st.hasStackUsageInfo g g' cycles := by
  unfold finalGraph at h
  split at h
  · simp at h
  · rename_i st g hc
    simp only [applyStart] at h
    split at h
    · simp at h
    · rename_i g1 cyc ha
      split at h
      · simp at h
      · rename_i nodes hs
        simp only [Except.ok.injEq, Prod.mk.injEq] at h
        obtain ⟨rfl, rfl⟩ := h
        refine ⟨st, g, hc, g1, ha, rfl, ?_, ?_⟩
        · intro i
          have := fields_at (shortenNodes_fields hs) i
          unfold Graph.locOf
          cases h1 : nodes[i]? <;> cases h2 : g1.nodes[i]? <;> rw [h1, h2] at this <;> simp_all
        · intro i
          have := fields_at (shortenNodes_fields hs) i
          unfold Graph.maxOf?
          cases h1 : nodes[i]? <;> cases h2 : g1.nodes[i]? <;> rw [h1, h2] at this <;> simp_all

theorem FinalFacts.calls {info : Bool} {g g' : Graph} {cycles : List (List Nat)} (hwf : g.WF)
    (hu : g.LocalsU64) (h : FinalFacts info g g' cycles) :
    g'.Calls = g.Calls ∧ (∀ i, g'.locOf i = g.locOf i) := by
  obtain ⟨g1, ha, he, hl, _⟩ := h.analysis
  cases info with
  | false =>
    unfold analyzeMax at ha
    simp only [Bool.not_false, if_true, Except.ok.injEq, Prod.mk.injEq] at ha
    obtain ⟨rfl, _⟩ := ha
    exact ⟨by funext a b; simp [Graph.Calls, he], hl⟩
  | true =>
    obtain ⟨h1, _⟩ := analyzeMax_ok hwf hu ha
    have := h1.calls
    have h2 := h1.locOf
    refine ⟨?_, fun i => by rw [hl, h2]⟩
    rw [← this]
    funext a b
    simp [Graph.Calls, he]

/-- A function from which an unknown function is reachable has no exact max. -/
theorem FinalFacts.inexact {demangle : Str → Str} {ord : HashOrder} {search : TagSearch} {p : Program}
    {elf : Elf} {cs ext : List Str} {st0 stIr st : Build} {info : Bool} {g g' : Graph}
    {cycles : List (List Nat)} (f : RunFacts demangle ord search p elf cs ext st0 stIr st g)
    (hu : g.LocalsU64) (hfin : FinalFacts info g g' cycles) {v u : Nat}
    (hr : Reach g'.Calls v u) (hl : g.locOf u = .unknown) (n : Nat) :
    g'.maxOf? v ≠ some (.exact n) := by
  intro hv
  obtain ⟨g1, ha, he, hloc, hmax⟩ := hfin.analysis
  cases info with
  | false =>
    unfold analyzeMax at ha
    simp only [Bool.not_false, if_true, Except.ok.injEq, Prod.mk.injEq] at ha
    obtain ⟨rfl, _⟩ := ha
    rw [hmax] at hv
    unfold Graph.maxOf? at hv
    cases hn : g.nodes[v]? with
    | none => rw [hn] at hv; simp at hv
    | some nd =>
      rw [hn] at hv
      simp only at hv
      rw [f.max_none hn] at hv
      simp at hv
  | true =>
    obtain ⟨h1, h2, _⟩ := analyzeMax_ok f.wf hu ha
    rw [hmax] at hv
    obtain ⟨⟨_, h3⟩, _⟩ := analyzeMax_maxSpec f.wf hu ha hv
    have hcalls : g'.Calls = g1.Calls := by
      funext a b
      simp [Graph.Calls, he]
    rw [hcalls] at hr
    have := (h3.mp trivial u hr).1
    rw [h1.locOf, hl] at this
    exact this

end CallStack
