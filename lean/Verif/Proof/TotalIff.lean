import Verif.Props.Shown
import Verif.Props.Total
import Verif.Props.LogEnd

/-! Lemmas for C75, exactly: output from the part of the graph that is kept. -/

namespace CallStack

/-- Calls and frames carried over by an embedding: the heaviest chains weigh the same. -/
theorem Embed.heaviest {D : Nat → Prop} {E₁ E₂ : Nat → Nat → Prop} {loc₁ loc₂ : Nat → Local} {π : Nat → Nat}
    (h : Embed D E₁ loc₁ E₂ loc₂ π) {v k : Nat} (hv : D v) (hk : Heaviest E₁ loc₁ v k) :
    Heaviest E₂ loc₂ (π v) k := by
  by_cases hb : BoundedKnown E₁ loc₁ v
  · exact (h.maxSpec (m := .exact k) hv ⟨hk, by simp [Max.IsExact, hb]⟩).1
  · exact (h.maxSpec (m := .lowerBound k) hv ⟨hk, by simp [Max.IsExact, hb]⟩).1

/-- When there is output, in terms of the graph that is kept. -/
theorem output_kept_iff {demangle : Str → Str} {ord : HashOrder} {search : TagSearch} {p : Program} {elf : Elf}
    {cs : List Str} {st0 stIr st : Build} {g gk : Graph} {start : Option Str}
    (r : SharedFacts demangle ord search p elf cs st0 stIr st g)
    (hc : callGraph demangle ord search p elf = .ok (st, g)) (format : OutputFormat)
    (hk : applyStart demangle st.indices start g = .ok gk) (hw : gk.WF) (hu : gk.LocalsU64) :
    (∃ text, runText demangle ord search p elf start format = .ok text) ↔
      (∀ nd ∈ gk.nodes, ∀ path, HashOf path (demangle nd.name) →
        ∃ i other, p.Principal i other ∧ HashOf path (demangle other)) ∧
      ((∃ i k, p.Frame i k) →
        ∀ v < gk.nodes.length, ∀ k, Heaviest gk.Calls gk.locOf v k → k < 2 ^ 64) := by
  have hrun : (∃ text, runText demangle ord search p elf start format = .ok text) ↔
      ∃ g1 cyc nodes, analyzeMax st.hasStackUsageInfo gk = .ok (g1, cyc) ∧
        shortenNodes demangle st.ambiguous g1.nodes = .ok nodes := by
    unfold runText finalGraph
    simp only [hc, hk]
    cases ha : analyzeMax st.hasStackUsageInfo gk with
    | error e => simp
    | ok x =>
      obtain ⟨g1, cyc⟩ := x
      simp only [Except.ok.injEq, Prod.mk.injEq]
      cases hs : shortenNodes demangle st.ambiguous g1.nodes with
      | error e =>
        constructor
        · rintro ⟨t, ht⟩; simp at ht
        · rintro ⟨_, _, nodes, ⟨rfl, rfl⟩, h⟩
          rw [hs] at h
          simp at h
      | ok nodes =>
        refine ⟨fun _ => ⟨g1, cyc, nodes, ⟨rfl, rfl⟩, hs⟩, fun _ => ?_⟩
        cases format <;> exact ⟨_, rfl⟩
  have hamb := r.ambiguous
  have hshort : ∀ g1 cyc, analyzeMax st.hasStackUsageInfo gk = .ok (g1, cyc) →
      ((∃ nodes, shortenNodes demangle st.ambiguous g1.nodes = .ok nodes) ↔
        ∀ nd ∈ gk.nodes, ∀ path, HashOf path (demangle nd.name) →
          ∃ i other, p.Principal i other ∧ HashOf path (demangle other)) := by
    intro g1 cyc ha
    have hsame : SameButMax gk g1 := by
      cases hinfo : st.hasStackUsageInfo with
      | false =>
        rw [hinfo] at ha
        simp only [analyzeMax, Bool.not_false, if_true, Except.ok.injEq, Prod.mk.injEq] at ha
        rw [← ha.1]
        exact SameButMax.refl gk
      | true => rw [hinfo] at ha; exact (analyzeMax_ok hw hu ha).1
    rw [hamb, C20_shortening_iff]
    have hcs : ∀ path, (∃ other ∈ cs, HashOf path (demangle other)) ↔
        ∃ i other, p.Principal i other ∧ HashOf path (demangle other) := by
      intro path
      constructor
      · rintro ⟨o, ho, h⟩
        obtain ⟨i, hi⟩ := List.getElem?_of_mem ho
        exact ⟨i, o, r.principal.mpr hi, h⟩
      · rintro ⟨i, o, ho, h⟩
        exact ⟨o, List.mem_of_getElem? (r.principal.mp ho), h⟩
    have hnames : ∀ P : Str → Prop, (∀ nd ∈ g1.nodes, P nd.name) ↔ ∀ nd ∈ gk.nodes, P nd.name := by
      intro P
      have hn : ∀ k : Nat, g1.nodes[k]?.map Node.name = gk.nodes[k]?.map Node.name := by
        intro k
        have h1 := hsame.at_ k
        cases hk : g1.nodes[k]? <;> cases hkz : gk.nodes[k]? <;> rw [hk, hkz] at h1 <;> simp at h1 ⊢
        exact h1.1
      constructor
      · intro h nd hnd
        obtain ⟨k, hk⟩ := List.getElem?_of_mem hnd
        have := hn k
        rw [hk] at this
        cases hk1 : g1.nodes[k]? with
        | none => rw [hk1] at this; simp at this
        | some nd1 =>
          rw [hk1] at this
          simp only [Option.map_some, Option.some.injEq] at this
          rw [← this]
          exact h _ (List.mem_of_getElem? hk1)
      · intro h nd hnd
        obtain ⟨k, hk⟩ := List.getElem?_of_mem hnd
        have := hn k
        rw [hk] at this
        cases hk1 : gk.nodes[k]? with
        | none => rw [hk1] at this; simp at this
        | some nd1 =>
          rw [hk1] at this
          simp only [Option.map_some, Option.some.injEq] at this
          rw [this]
          exact h _ (List.mem_of_getElem? hk1)
    rw [hnames (fun name => ∀ path, HashOf path (demangle name) → ∃ other ∈ cs, HashOf path (demangle other))]
    simp only [hcs]
  have hana : (∃ g1 cyc, analyzeMax st.hasStackUsageInfo gk = .ok (g1, cyc)) ↔
      ((∃ i k, p.Frame i k) → ∀ v < gk.nodes.length, ∀ k, Heaviest gk.Calls gk.locOf v k → k < 2 ^ 64) := by
    rw [← r.info_iff]
    cases st.hasStackUsageInfo with
    | false => simp [analyzeMax]
    | true =>
      have h6 := C06_abort_iff hw hu
      constructor
      · rintro ⟨g1, cyc, ha⟩ - v hv k hk
        by_contra hlt
        obtain ⟨e, he⟩ := h6.mpr ⟨v, hv, k, Nat.le_of_not_lt hlt, hk⟩
        rw [ha] at he
        simp at he
      · intro h
        cases ha : analyzeMax true gk with
        | ok x => exact ⟨_, _, rfl⟩
        | error e =>
          obtain ⟨v, hv, k, hk, hh⟩ := h6.mp ⟨e, ha⟩
          have := h rfl v hv k hh
          omega
  rw [hrun, ← hana]
  constructor
  · rintro ⟨g1, cyc, nodes, h1, h2⟩
    exact ⟨(hshort g1 cyc h1).mp ⟨nodes, h2⟩, g1, cyc, h1⟩
  · rintro ⟨h1, g1, cyc, h2⟩
    obtain ⟨nodes, h3⟩ := (hshort g1 cyc h2).mpr h1
    exact ⟨g1, cyc, nodes, h2, h3⟩


end CallStack
