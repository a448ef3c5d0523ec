import Verif.Props.HashOrder
import Verif.Props.Thumb

/-!
Property C82: whether maxima are shown at all.
-/

namespace CallStack

/-- **C82** A maximum is shown for every node or for none: for every node exactly if the compiler reports the
frame of some live function. -/
theorem C82_shown_iff {demangle : Str → Str} {ord : HashOrder} {search : TagSearch} {p : Program}
    {elf : Elf} {g' : Graph} {cycles : List (List Nat)} (sizes : p.SizesU64)
    (fits : elf.Fits32) (h : finalGraph demangle ord search p elf none = .ok (g', cycles)) {v : Nat}
    (hv : v < g'.nodes.length) : (∃ m, g'.maxOf? v = some m) ↔ ∃ i k, p.Frame i k := by
  obtain ⟨st, g, h1, h2⟩ := finalGraph_facts h
  obtain ⟨cs, st0, stIr, r⟩ := callGraph_shared h1
  have hu := r.u64 sizes fits
  obtain ⟨g1, ha, he, hloc, hmx⟩ := h2.analysis
  have hinfo := r.info_iff
  have hlen : g'.nodes.length = g.nodes.length := by
    obtain ⟨st', ga, gb, a1, a2, a3, _⟩ := finalGraph_steps h
    rw [h1] at a1
    simp only [Except.ok.injEq, Prod.mk.injEq] at a1
    obtain ⟨rfl, rfl⟩ := a1
    rw [← (shortenNodes_iff.mp a3).length_eq, (analyzeMax_edges r.wf hu a2).length]
  rw [← hinfo, hmx]
  cases hb : st.hasStackUsageInfo with
  | false =>
    rw [hb] at ha
    simp only [analyzeMax, Bool.not_false, if_true, Except.ok.injEq, Prod.mk.injEq] at ha
    obtain ⟨rfl, _⟩ := ha
    simp only [Bool.false_eq_true, iff_false, not_exists]
    intro m hm
    have hn := List.getElem?_eq_getElem (show v < g.nodes.length by omega)
    unfold Graph.maxOf? at hm
    rw [hn] at hm
    simp only at hm
    rw [r.max_none hn] at hm
    cases hm
  | true =>
    rw [hb] at ha
    simp only [iff_true]
    obtain ⟨_, h3, _⟩ := analyzeMax_ok r.wf hu ha
    obtain ⟨m, hm, _⟩ := h3 v (by omega)
    exact ⟨m, hm⟩

/-- In `exThumb` the compiler reports the frame of `main`, and the maximum of `main` is shown. -/
example : exThumb.Frame 0 8 ∧
    (finalGraph id sameOrder linearSearch exThumb exThumbElf none).toOption.map (fun r => r.1.maxOf? 0) =
      some (some (.lowerBound 8)) :=
  ⟨⟨_, _, [], c!"main", [], rfl, rfl, by rw [← isTag_iff]; decide, rfl, by simp⟩, by decide +kernel⟩

/-- **C82** If some figure is known, a maximum is shown for every node. Partial: for targets other than thumb,
where all figures come from the compiler; see `C82_not_shown`. -/
theorem C82_shown_if_known_partial {demangle : Str → Str} {ord : HashOrder} {search : TagSearch} {p : Program}
    {elf : Elf} {g' : Graph} {cycles : List (List Nat)} (other : p.target = .other)
    (sizes : p.SizesU64) (fits : elf.Fits32)
    (h : finalGraph demangle ord search p elf none = .ok (g', cycles)) {i k : Nat}
    (known : p.Figure search elf i k) {v : Nat} (hv : v < g'.nodes.length) : ∃ m, g'.maxOf? v = some m := by
  refine (C82_shown_iff sizes fits h hv).mpr ?_
  rcases known with hf | ⟨ht, _⟩
  · exact ⟨i, k, hf⟩
  · rw [other] at ht
    cases ht

/-- **C82** does not hold: figures that are found in the machine code are shown but no maximum is computed from
them, unless the compiler reports the frame of at least one function. -/
theorem C82_not_shown :
    ∃ (p : Program) (elf : Elf) (g : Graph), p.NamesOnce ∧ p.Figure linearSearch elf 0 8 ∧
      finalGraph id sameOrder linearSearch p elf none = .ok (g, []) ∧
      g.locOf 0 = .exact 8 ∧ g.locOf 1 = .exact 0 ∧ g.Calls 0 1 ∧ g.maxOf? 0 = none := by
  refine ⟨{ exThumb with stackSizes := [] }, exThumbElf,
    ⟨[⟨c!"main", .exact 8, none, false⟩, ⟨c!"f", .exact 0, none, false⟩, ⟨c!"?", .unknown, none, false⟩],
      [(0, 1), (1, 2)]⟩, namesOnce_of (by decide), ?_, by decide +kernel, rfl, rfl, ?_, rfl⟩
  · exact Or.inr ⟨rfl, 256, 8, ⟨[8], [], false, true, some 8⟩, decoded_iff.mpr ⟨_, _, _, _, rfl, rfl, rfl,
      by decide +kernel, by decide, by decide, by decide +kernel⟩, rfl⟩
  · simp [Graph.Calls]

end CallStack
