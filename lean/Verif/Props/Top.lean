import Verif.Props.EndToEnd
import Verif.Props.Output

/-!
Property C80: the first line of the listing that `--format top` prints.
-/

namespace CallStack

/-- **C80** The number in the line `MAX` covers every chain of calls from every function whose maximum is
exact. Partial: besides the assumptions of C41, the maximum must be exact, which the listing does not show, see
`C80_lower_bound_hidden` and `C80_recursion_hidden`. -/
theorem C80_max_line_partial {demangle : Str → Str} {ord : HashOrder} {search : TagSearch}
    {p : Program} {elf : Elf} {g' : Graph} {cycles : List (List Nat)} {out : Str} (once : p.NamesOnce)
    (declares : p.DeclaresOnce) (un : p.Unambiguous) (sizes : p.SizesU64) (fits : elf.Fits32)
    (h : finalGraph demangle ord search p elf none = .ok (g', cycles))
    (hn : ∀ nd ∈ g'.nodes, '\\' ∉ demangle nd.name ∧ '\n' ∉ demangle nd.name)
    (hout : runText demangle ord search p elf none .top = .ok out) :
    ∃ m usages, readTop out = some (m, usages) ∧
      ∀ i n, g'.maxOf? i = some (.exact n) → ∃ k, m = some k ∧ ∀ c, CallChain p.Call i c →
        (∀ j ∈ c, (g'.locOf j).Known) ∧ weight g'.locOf c ≤ k ∧
        (p.target = .other → i < p.defined.length →
          ∃ frames, List.Forall₂ p.Frame c frames ∧ frames.sum ≤ k) := by
  unfold runText at hout
  rw [h] at hout
  simp only [Except.ok.injEq] at hout
  subst hout
  obtain ⟨m, h1, h2, h3⟩ := C24_top_faithful demangle g' hn
  refine ⟨m, _, h1, ?_⟩
  intro i n hmax
  have hnode : ∃ nd ∈ g'.nodes, shownMax nd = n := by
    have hm := hmax
    unfold Graph.maxOf? at hm
    cases hnd : g'.nodes[i]? with
    | none => rw [hnd] at hm; simp at hm
    | some nd =>
      rw [hnd] at hm
      simp only at hm
      exact ⟨nd, List.mem_of_getElem? hnd, by simp [shownMax, hm]⟩
  obtain ⟨nd, m1, m2⟩ := hnode
  cases m with
  | none => rw [h2.mp rfl] at m1; simp at m1
  | some k =>
    have hle : n ≤ k := m2 ▸ (h3 k rfl).2 nd m1
    refine ⟨k, rfl, fun c hc => ?_⟩
    obtain ⟨k1, k2⟩ := C41_printed_locals_partial once declares un sizes fits h hmax hc
    refine ⟨k1, Nat.le_trans k2 hle, fun other hi => ?_⟩
    obtain ⟨frames, f1, f2⟩ := C41_end_to_end_partial other once declares un sizes h hi hmax hc
    exact ⟨frames, f1, Nat.le_trans f2 hle⟩

theorem runText_other {demangle : Str → Str} {ord : HashOrder} {p : Program}
    (ht : p.target.isThumb = false) (search search' : TagSearch) (elf elf' : Elf)
    {start : Option Str} {format : OutputFormat} :
    runText demangle ord search p elf start format = runText demangle ord search' p elf' start format := by
  unfold runText
  rw [finalGraph_other ht search search' elf elf']

/-- Two functions: `main` calls `f`. -/
def exTop (sizes : List (Str × Nat)) : Program where
  target := .other
  defined := [(8, ⟨[c!"main"], 4⟩), (16, ⟨[c!"f"], 8⟩)]
  undefined := []
  stackSizes := sizes
  defines := [⟨c!"main", ⟨[], none⟩, [.directCall c!"f"]⟩, ⟨c!"f", ⟨[], none⟩, [.other]⟩]
  declares := []

/-- **C80** is false: the listing is the same whether or not the stack usage of `f` is known, so a lower bound
cannot be told from a maximum. -/
theorem C80_lower_bound_hidden (search : TagSearch) : ∃ known unknown : Program,
    (∀ k, ¬ unknown.Frame 1 k) ∧ unknown.Call 0 1 ∧
    (∃ g cycles, finalGraph id sameOrder search known ⟨[], none⟩ none = .ok (g, cycles) ∧
      g.maxOf? 0 = some (.exact 8)) ∧
    (∃ g cycles, finalGraph id sameOrder search unknown ⟨[], none⟩ none = .ok (g, cycles) ∧
      g.maxOf? 0 = some (.lowerBound 8)) ∧
    runText id sameOrder search known ⟨[], none⟩ none .top = .ok c!"8 MAX\nUsage Function\n8 main\n0 f\n" ∧
    runText id sameOrder search unknown ⟨[], none⟩ none .top =
      .ok c!"8 MAX\nUsage Function\n8 main\n0 f\n" := by
  refine ⟨exTop [(c!"main", 8), (c!"f", 0)], exTop [(c!"main", 8)], ?_, ?_, ?_, ?_, ?_, ?_⟩
  · rintro k ⟨a, s, pre, n, post, h1, h2, _, h3, _⟩
    simp only [exTop, List.getElem?_cons_succ, List.getElem?_cons_zero, Option.some.injEq, Prod.mk.injEq] at h1
    obtain ⟨_, rfl⟩ := h1
    have hn : n ∈ [c!"f"] := by
      have : n ∈ pre ++ n :: post := by simp
      rwa [← h2] at this
    simp only [List.mem_singleton] at hn
    subst hn
    have h4 : mget c!"f" [(c!"main", 8)] = none := by decide
    have h3 : mget c!"f" [(c!"main", 8)] = some k := h3
    rw [h4] at h3
    simp at h3
  · exact Or.inl ⟨c!"f", ⟨_, List.mem_cons_self, mem_live rfl List.mem_cons_self rfl, by simp⟩,
      by rw [← classify_plain (t := false)]; rfl, mem_live rfl List.mem_cons_self rfl⟩
  · exact finalGraph_eval rfl search _ none (fun g _ => g.maxOf? 0 = _) (by decide +kernel)
  · exact finalGraph_eval rfl search _ none (fun g _ => g.maxOf? 0 = _) (by decide +kernel)
  · rw [runText_other rfl search linearSearch ⟨[], none⟩ ⟨[], none⟩]
    decide +kernel
  · rw [runText_other rfl search linearSearch ⟨[], none⟩ ⟨[], none⟩]
    decide +kernel

/-- A function that calls itself. -/
def exLoop : Program where
  target := .other
  defined := [(8, ⟨[c!"f"], 4⟩)]
  undefined := []
  stackSizes := [(c!"f", 8)]
  defines := [⟨c!"f", ⟨[], none⟩, [.directCall c!"f"]⟩]
  declares := []

/-- **C80** is false even if the stack usage of every function is known: with recursion there are chains of
calls that need more than the number in the line `MAX`, whatever the number. -/
theorem C80_recursion_hidden (search : TagSearch) :
    runText id sameOrder search exLoop ⟨[], none⟩ none .top = .ok c!"8 MAX\nUsage Function\n8 f\n" ∧
    ∀ n, ∃ c frames, CallChain exLoop.Call 0 c ∧ List.Forall₂ exLoop.Frame c frames ∧ n < frames.sum := by
  constructor
  · rw [runText_other rfl search linearSearch ⟨[], none⟩ ⟨[], none⟩]
    decide +kernel
  · have hcall : exLoop.Call 0 0 :=
      Or.inl ⟨c!"f", ⟨_, List.mem_cons_self, mem_live rfl List.mem_cons_self rfl, by simp⟩,
        by rw [← classify_plain (t := false)]; rfl, mem_live rfl List.mem_cons_self rfl⟩
    have hframe : exLoop.Frame 0 8 :=
      ⟨8, ⟨[c!"f"], 4⟩, [], c!"f", [], rfl, rfl, by rw [← isTag_iff]; decide, rfl, by simp⟩
    intro n
    induction n with
    | zero => exact ⟨[0], [8], .single 0, .cons hframe .nil, by decide⟩
    | succ n ih =>
      obtain ⟨c, frames, h1, h2, h3⟩ := ih
      exact ⟨0 :: c, 8 :: frames, .call hcall h1, .cons hframe h2, by
        rw [List.sum_cons]; omega⟩

/-- The partial theorem applies to the program whose figures are all known. -/
example (search : TagSearch) : (exTop [(c!"main", 8), (c!"f", 24)]).NamesOnce ∧
    (∃ g cycles, finalGraph id sameOrder search (exTop [(c!"main", 8), (c!"f", 24)]) ⟨[], none⟩ none =
      .ok (g, cycles) ∧ g.maxOf? 0 = some (.exact 32) ∧
      ∀ nd ∈ g.nodes, '\\' ∉ nd.name ∧ '\n' ∉ nd.name) ∧
    runText id sameOrder search (exTop [(c!"main", 8), (c!"f", 24)]) ⟨[], none⟩ none .top =
      .ok c!"32 MAX\nUsage Function\n24 f\n8 main\n" := by
  refine ⟨namesOnce_of (by decide), ?_, ?_⟩
  · exact finalGraph_eval rfl search _ none
      (fun g _ => g.maxOf? 0 = _ ∧ ∀ nd ∈ g.nodes, '\\' ∉ nd.name ∧ '\n' ∉ nd.name) (by decide +kernel)
  · rw [runText_other rfl search linearSearch ⟨[], none⟩ ⟨[], none⟩]
    decide +kernel

end CallStack
