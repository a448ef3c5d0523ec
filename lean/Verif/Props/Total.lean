import Verif.Props.Abort
import Verif.Props.EndToEnd
import Verif.Props.Names

/-!
Property C75: a run of the whole tool ends with output.
-/

namespace CallStack

theorem sum_le_range : ∀ (l : List Nat) (n : Nat) (b : Nat → Nat),
    (∀ i x, l[i]? = some x → if i < n then x ≤ b i else x = 0) →
    l.sum ≤ ((List.range n).map b).sum := by
  intro l
  induction l with
  | nil => intro n b _; simp
  | cons x l ih =>
    intro n b h
    cases n with
    | zero =>
      have h0 := h 0 x rfl
      have := ih 0 b (fun i y hy => h (i + 1) y (by simpa using hy))
      simp only [Nat.lt_irrefl, if_false] at h0
      simp only [List.sum_cons, List.range_zero, List.map_nil, List.sum_nil] at this ⊢
      omega
    | succ n =>
      have h0 := h 0 x rfl
      have := ih n (fun i => b (i + 1)) (fun i y hy => by
        have := h (i + 1) y (by simpa using hy)
        simpa using this)
      rw [List.range_succ_eq_map]
      simp only [Nat.zero_lt_succ, if_true] at h0
      simp only [List.sum_cons, List.map_cons, List.map_map, Function.comp_def, Nat.succ_eq_add_one] at this ⊢
      omega

section run

variable {demangle : Str → Str} {ord : HashOrder} {search : TagSearch} {p : Program} {elf : Elf}
  {cs ext : List Str} {st0 stIr st : Build} {g : Graph}

/-- The local usage of a live function is one of its figures, or zero. -/
theorem RunFacts.figure (h : RunFacts demangle ord search p elf cs ext st0 stIr st g)
    (once : p.NamesOnce) (hc : callGraph demangle ord search p elf = .ok (st, g)) {i n : Nat}
    (hi : i < p.defined.length) (hl : g.locOf i = .exact n) : n = 0 ∨ p.Figure search elf i n := by
  by_cases ht : p.target.isThumb = true ∧ ∃ stext text, elf.text = some (stext, text)
  · obtain ⟨ht, stext, text, hx⟩ := ht
    obtain ⟨address, size, r, llvm, name, h1, h2, _, h4⟩ := C50_in_call_graph once ht hx hc hi
    rw [hl] at h4
    have hd : ∀ k, r.stack = some k → p.Figure search elf i k :=
      fun k hk => Or.inr ⟨ht, _, _, r, h1, hk⟩
    generalize hr : r.stack = ours at h4
    cases h4 with
    | ours k _ => exact Or.inr (hd _ hr)
    | zero _ => exact Or.inl rfl
    | only n _ => exact Or.inr (Or.inl h2)
    | agree n _ => exact Or.inr (Or.inl h2)
    | asm n k _ _ _ => exact Or.inr (hd _ hr)
    | outlinedZero k _ _ _ _ => exact Or.inr (hd _ hr)
    | outlined n k _ _ _ _ _ _ => exact Or.inr (Or.inl h2)
  · have hq : st = stIr := by
      rcases h.ran with hq | hr
      · exact hq
      · obtain ⟨stext, text, hx, _⟩ := hr.facts
        exact absurd ⟨hr.thumb, stext, text, hx⟩ ht
    have he := List.getElem?_eq_getElem hi
    obtain ⟨c, hcs⟩ := h.ir.sym.idx_lt he
    have hnd := h.llvm_local hcs
    have hlt := (List.getElem?_eq_some_iff.mp hnd).1
    rw [← hq] at hlt hnd
    rw [← h.node_st hlt] at hnd
    unfold Graph.locOf at hl
    rw [hnd] at hl
    refine Or.inr (Or.inl ((frame_iff he (h.ir.sym.canon i _ c he hcs) n).mpr ?_))
    cases hm : mget c p.stackSizes with
    | none => simp [mkNode, hm] at hl
    | some v =>
      simp only [mkNode, hm, Local.exact.injEq] at hl
      rw [hl]

/-- The sum of all local usages. -/
theorem RunFacts.total_le (h : RunFacts demangle ord search p elf cs ext st0 stIr st g)
    (once : p.NamesOnce) (hc : callGraph demangle ord search p elf = .ok (st, g)) {b : Nat → Nat}
    (hb : ∀ i k, i < p.defined.length → p.Figure search elf i k → k ≤ b i) :
    g.totalKnown ≤ ((List.range p.defined.length).map b).sum := by
  unfold Graph.totalKnown
  refine sum_le_range _ _ _ ?_
  intro i x hx
  rw [List.getElem?_map, Option.map_eq_some_iff] at hx
  obtain ⟨nd, hnd, rfl⟩ := hx
  split
  · rename_i hi
    cases hl : nd.loc with
    | unknown => exact Nat.zero_le _
    | exact n =>
      have hloc : g.locOf i = .exact n := by
        unfold Graph.locOf
        rw [hnd, ← hl]
      simp only [Local.bytes]
      rcases h.figure once hc hi hloc with rfl | hf
      · exact Nat.zero_le _
      · exact hb i n hi hf
  · rename_i hi
    rcases h.node_cases hnd with ⟨c, h1, _⟩ | ⟨_, h2, _⟩
    · have := (List.getElem?_eq_some_iff.mp h1).1
      rw [h.live_length] at this
      exact absurd this hi
    · exact h2

/-- The names of all nodes. -/
theorem RunFacts.names (h : RunFacts demangle ord search p elf cs ext st0 stIr st g)
    (hashes : p.HashesLive demangle) {nd : Node} (hn : nd ∈ g.nodes) :
    nd.name ∈ cs ∨ NoHash demangle nd.name := by
  obtain ⟨k, hk⟩ := List.getElem?_of_mem hn
  rcases h.node_cases hk with ⟨c, h1, rfl⟩ | ⟨_, _, h2 | h2 | ⟨void, e, he, hcalled, h2⟩⟩
  · exact Or.inl (List.mem_of_getElem? h1)
  · obtain ⟨i, s, h3, h4⟩ := h.ir.ir.extWhy _ h2
    rcases h4 with rfl | ⟨rfl, _, h5, h6, _⟩
    · rcases hashes.bitcast i _ h3 with ⟨j, hj⟩ | hno
      · exact Or.inl (List.mem_of_getElem? (h.ir.principal.mp hj))
      · exact Or.inr hno
    · exact Or.inr (hashes.external i _ h3 ((h.ir.dead _).mp h5) h6)
  · rw [h2]
    exact Or.inr hashes.unknown
  · right
    subst h2
    unfold dashedNode labelSig
    simp only [mkNode]
    split
    · rename_i hf
      simp only [Bool.and_eq_true] at hf
      obtain ⟨⟨t, hi⟩, ho⟩ := isFormatter_fmt hf.1
      rw [hi, ho]
      exact hashes.formatter
    · obtain ⟨i0, h3, h4⟩ := indirect_mem h.ir he
      have h5 := (h.ir.sym.fresh _ h3).2.2
      rw [h4] at h5
      obtain ⟨j, hj⟩ := List.exists_mem_of_ne_nil _ h5
      obtain ⟨s, h6, h7⟩ := (callees_iff h.ir he j).mp hj
      exact hashes.type j _ ((symSig_some h6 h7).imp id (·.2))

/-- **C75** The call graph can be built exactly if every symbol has a name, the live functions contain only
statements that the tool knows how to handle, a `memcmp` that exists nowhere is not called directly after it was
called through a bitcast, and the machine code is fit where it is analysed. -/
theorem C75_graph_iff (once : p.NamesOnce) :
    (∃ out, callGraph demangle ord search p elf = .ok out) ↔
      (∀ e ∈ p.defined, ∃ n, e.2.Named n) ∧ (∀ i s, p.Contains i s → p.Acceptable s) ∧
      (p.CallsAfterBitcast c!"memcmp" → (∃ j, p.LiveAt c!"memcmp" j) ∨ c!"memcmp" ∈ p.undefined) ∧
      (p.target.isThumb = true → elf.text ≠ none → ∀ i, i < p.defined.length → p.CodeOk search elf i) := by
  have hir := C69_no_abort_iff (demangle := demangle) once
  have skip : ¬ (p.target.isThumb = true ∧ elf.text ≠ none) →
      ((∃ out, callGraph demangle ord search p elf = .ok out) ↔ ∃ st, irGraph demangle p = .ok st) := by
    intro hno
    have hm : ∀ st, machinePass search p elf st = .ok st := by
      intro st
      unfold machinePass
      cases ht : p.target.isThumb with
      | false => simp
      | true =>
        cases hx : elf.text with
        | none => simp
        | some x => exact absurd ⟨ht, by simp [hx]⟩ hno
    unfold callGraph
    cases hi : irGraph demangle p with
    | error e => simp
    | ok st => simp [hm]
  by_cases hno : p.target.isThumb = true ∧ elf.text ≠ none
  · obtain ⟨ht, hx⟩ := hno
    obtain ⟨⟨stext, text⟩, hx'⟩ := Option.ne_none_iff_exists'.mp hx
    rw [C74_machine_abort_iff once ht hx', hir]
    constructor
    · rintro ⟨⟨h1, h2, h3⟩, h4⟩
      exact ⟨h1, h2, h3, fun _ _ => h4⟩
    · rintro ⟨h1, h2, h3, h4⟩
      exact ⟨⟨h1, h2, h3⟩, h4 ht hx⟩
  · rw [skip hno, hir]
    constructor
    · rintro ⟨h1, h2, h3⟩
      exact ⟨h1, h2, h3, fun ht hx => absurd ⟨ht, hx⟩ hno⟩
    · rintro ⟨h1, h2, h3, _⟩
      exact ⟨h1, h2, h3⟩

/-- **C75** The tool ends with output, in either format and with any start point, if
- every symbol has a name,
- the live functions contain only statements that the tool knows how to handle,
- a `memcmp` that exists nowhere is not called directly after it was called through a bitcast,
- the machine code, where it is analysed, is fit,
- only live functions have names that look as if they ended in a hash, and
- the figures of all live functions together fit into 64 bits. -/
theorem C75_run_ends_with_output (once : p.NamesOnce) (sizes : p.SizesU64) (fits : elf.Fits32)
    (named : ∀ e ∈ p.defined, ∃ n, e.2.Named n) (hacc : ∀ i s, p.Contains i s → p.Acceptable s)
    (hmem : p.CallsAfterBitcast c!"memcmp" → (∃ j, p.LiveAt c!"memcmp" j) ∨ c!"memcmp" ∈ p.undefined)
    (code : p.target.isThumb = true → elf.text ≠ none →
      ∀ i, i < p.defined.length → p.CodeOk search elf i)
    (hashes : p.HashesLive demangle) {b : Nat → Nat}
    (hb : ∀ i k, i < p.defined.length → p.Figure search elf i k → k ≤ b i)
    (hsum : ((List.range p.defined.length).map b).sum < 2 ^ 64)
    (start : Option Str) (format : OutputFormat) :
    ∃ text, runText demangle ord search p elf start format = .ok text := by
  obtain ⟨⟨st, g⟩, hc⟩ := (C75_graph_iff (demangle := demangle) (ord := ord) once).mpr ⟨named, hacc, hmem, code⟩
  obtain ⟨cs, ext, st0, stIr, r⟩ := callGraph_facts once hc
  have htot : g.totalKnown < 2 ^ 64 := Nat.lt_of_le_of_lt (r.total_le once hc hb) hsum
  have hana : ∃ g1 cyc, analyzeMax st.hasStackUsageInfo g = .ok (g1, cyc) ∧ SameButMax g g1 := by
    cases st.hasStackUsageInfo with
    | false => exact ⟨g, [], by simp [analyzeMax], .refl g⟩
    | true =>
      obtain ⟨g1, cyc, h1, _⟩ := C06_total r.wf htot
      exact ⟨g1, cyc, h1, (analyzeMax_ok r.wf (r.u64 once sizes fits) h1).1⟩
  obtain ⟨g1, cyc, ha, hsame⟩ := hana
  have hnames : ∀ nd ∈ g1.nodes, nd.name ∈ cs ∨ ∀ d, ¬ HashOf d (demangle nd.name) := by
    intro nd hnd
    obtain ⟨k, hk⟩ := List.getElem?_of_mem hnd
    have h1 := hsame.at_ k
    rw [hk] at h1
    cases hk0 : g.nodes[k]? with
    | none => rw [hk0] at h1; simp at h1
    | some nd0 =>
      rw [hk0] at h1
      simp only [Option.map_some, Option.some.injEq, Node.mk.injEq] at h1
      rw [h1.1]
      exact r.names hashes (List.mem_of_getElem? hk0)
  have hamb : st.ambiguous = ambiguousOf demangle cs := by
    rw [r.machine.ambiguous, r.ir.ir.ambiguous, r.ir.sym.ambiguous]
  obtain ⟨nodes, hs, _⟩ := C20_shortening_total_partial demangle cs g1.nodes hnames
  have hfinal : finalGraph demangle ord search p elf none = .ok ({ g1 with nodes }, cyc) := by
    unfold finalGraph
    simp only [hc, applyStart, ha, hamb, hs]
  have hany : ∃ out, finalGraph demangle ord search p elf start = .ok out := by
    cases start with
    | none => exact ⟨_, hfinal⟩
    | some s =>
      obtain ⟨_, _, g', cyc', _, h2, _⟩ := C15_printed_graph sizes fits hfinal s
      exact ⟨_, h2⟩
  obtain ⟨⟨g', cyc'⟩, hf⟩ := hany
  unfold runText
  rw [hf]
  cases format <;> exact ⟨_, rfl⟩

/-- **C75** Conversely, if there is output then all of these but the last two hold. -/
theorem C75_output_only_if (once : p.NamesOnce) {start : Option Str} {format : OutputFormat} {text : Str}
    (h : runText demangle ord search p elf start format = .ok text) :
    (∀ e ∈ p.defined, ∃ n, e.2.Named n) ∧ (∀ i s, p.Contains i s → p.Acceptable s) ∧
      (p.CallsAfterBitcast c!"memcmp" → (∃ j, p.LiveAt c!"memcmp" j) ∨ c!"memcmp" ∈ p.undefined) ∧
      (p.target.isThumb = true → elf.text ≠ none →
        ∀ i, i < p.defined.length → p.CodeOk search elf i) := by
  refine (C75_graph_iff (ord := ord) (demangle := demangle) once).mp ?_
  cases hcg : callGraph demangle ord search p elf with
  | ok out => exact ⟨out, rfl⟩
  | error e =>
    unfold runText finalGraph at h
    rw [hcg] at h
    simp at h

end run

theorem noHash_of {demangle : Str → Str} {name : Str} (h : dehash (demangle name) = none) :
    NoHash demangle name := by
  intro path hp
  rw [(dehash_iff _ _).mpr hp] at h
  simp at h

/-- A program that meets the conditions: `main` pushes two registers and calls `f`, which calls through a
pointer. -/
example (start : Option Str) (format : OutputFormat) :
    ∃ text, runText id sameOrder linearSearch exThumb exThumbElf start format = .ok text := by
  have once : exThumb.NamesOnce := namesOnce_of (by decide)
  have hok : (callGraph id sameOrder linearSearch exThumb exThumbElf).isOk = true := by decide +kernel
  have hcg : ∃ out, callGraph id sameOrder linearSearch exThumb exThumbElf = .ok out := by
    cases h : callGraph id sameOrder linearSearch exThumb exThumbElf with
    | ok out => exact ⟨out, rfl⟩
    | error e => rw [h] at hok; simp [Except.isOk, Except.toBool] at hok
  have hcode := (C74_machine_abort_iff once rfl rfl).mp hcg
  obtain ⟨⟨stIr, hir⟩, hcode⟩ := hcode
  obtain ⟨named, hacc⟩ := C69_no_abort_only_if once hir
  have hstmt : ∀ i s, exThumb.Contains i s → s = .directCall c!"f" := by
    rintro i s ⟨d, hd, _, hs⟩
    simp only [exThumb, List.mem_singleton] at hd
    subst hd
    simpa using hs
  have hrep : ∀ n k, exThumb.Reported n k → k = 8 := by
    intro n k h
    simp only [Program.Reported, exThumb, mget] at h
    split at h <;> simp_all
  have d0 : exThumb.Decoded linearSearch exThumbElf 0 256 8 ⟨[8], [], false, true, some 8⟩ :=
    decoded_iff.mpr ⟨_, _, _, _, rfl, rfl, rfl, by decide +kernel, by decide, by decide, by decide +kernel⟩
  have d1 : exThumb.Decoded linearSearch exThumbElf 1 264 4 ⟨[], [], true, false, some 0⟩ :=
    decoded_iff.mpr ⟨_, _, _, _, rfl, rfl, rfl, by decide +kernel, by decide, by decide, by decide +kernel⟩
  refine C75_run_ends_with_output (b := fun _ => 8) once ?_ ?_ named hacc ?_ (fun _ _ => hcode) ?_ ?_ ?_
    start format
  · intro n k h
    rw [hrep n k h]
    decide
  · rintro a b h
    simp only [exThumbElf, Option.some.injEq, Prod.mk.injEq] at h
    rw [← h.2]
    decide
  · intro h
    obtain ⟨i, h⟩ := h.contains
    exact absurd (hstmt _ _ h) (by decide)
  · refine ⟨?_, ?_, ?_, noHash_of (by decide +kernel), noHash_of (by decide +kernel)⟩
    · intro i f _ _ h
      simp [exThumb] at h
    · intro i f h
      have := hstmt _ _ h
      simp at this
    · rintro j sig (⟨d, hd, _, rfl⟩ | ⟨d, hd, _⟩)
      · simp only [exThumb, List.mem_singleton] at hd
        subst hd
        exact noHash_of (by decide +kernel)
      · simp [exThumb] at hd
  · rintro i k hi (⟨_, _, _, n, _, _, _, _, h, _⟩ | ⟨_, address, size, r, h1, h2⟩)
    · exact Nat.le_of_eq (hrep n k h)
    · have hi' : i = 0 ∨ i = 1 := by
        simp only [exThumb, List.length_cons, List.length_nil] at hi
        omega
      rcases hi' with rfl | rfl
      · rw [(analyzed_of rfl rfl h1).1.unique (analyzed_of rfl rfl d0).1] at h2
        simp only [Option.some.injEq] at h2
        omega
      · rw [(analyzed_of rfl rfl h1).1.unique (analyzed_of rfl rfl d1).1] at h2
        simp only [Option.some.injEq] at h2
        omega
  · decide

end CallStack
