import Verif.Props.TotalIff
import Verif.Props.Total
import Verif.Props.SharedAbort

/-!
Property C121: when a run ends with output, if several functions may have the same names.
-/

namespace CallStack

section run

variable {demangle : Str → Str} {ord : HashOrder} {search : TagSearch} {p : Program} {elf : Elf}

/-- A figure at a node was found for one of the functions that share it. -/
theorem Program.LocalAfter.figure {m k n : Nat} {l : Local} (ht : p.target.isThumb = true)
    (h : p.LocalAfter search elf m k l) (hl : l = .exact n) :
    n = 0 ∨ p.Frame m n ∨ ∃ i, p.LastOf i m ∧ p.Figure search elf i n := by
  have known : ∀ {known : Option Nat} {a : Nat}, known = some a → figureLocal known = .exact a := by
    rintro _ a rfl
    rfl
  induction h generalizing n with
  | @compiler llvm hf =>
    cases llvm with
    | none => cases hl
    | some k =>
      cases hl
      exact .inr (.inl hf)
  | other _ _ ih => exact ih hl
  | @code i known address size r name l h1 h2 h3 h4 h5 ih =>
    subst hl
    have code : ∀ k, r.stack = some k → n = k → n = 0 ∨ p.Frame m n ∨ ∃ i, p.LastOf i m ∧ p.Figure search elf i n := by
      rintro k hr rfl
      exact .inr (.inr ⟨_, h2, .inr ⟨ht, _, _, r, h3, hr⟩⟩)
    generalize hr : r.stack = ours at h5
    cases h5 with
    | ours k _ => exact code _ hr rfl
    | zero _ => exact .inl rfl
    | only n _ => exact ih rfl
    | agree n _ => exact ih rfl
    | asm n k _ _ _ => exact code _ hr rfl
    | outlinedZero k _ _ _ _ => exact code _ hr rfl
    | outlined n k _ _ _ _ _ _ => exact ih rfl

/-- **C121** The tool ends with output, in either format and with any start point, as C75, if
- every symbol has a name,
- the live functions contain only statements that the tool knows how to handle,
- a `memcmp` that exists nowhere is not called directly after it was called through a bitcast,
- the machine code, where it is analysed, is fit,
- only live functions have names that look as if they ended in a hash, and
- the figures at all nodes of live functions together fit into 64 bits. -/
theorem C121_output (alike : p.NamesAlike) (defs : p.DefinesOnce) (decls : p.DeclaresOnce) (sizes : p.SizesU64)
    (fits : elf.Fits32)
    (named : ∀ e ∈ p.defined, ∃ n, e.2.Named n) (hacc : ∀ i s, p.Contains i s → p.Acceptable s)
    (hmem : p.CallsAfterBitcast c!"memcmp" → (∃ j, p.LiveAt c!"memcmp" j) ∨ c!"memcmp" ∈ p.undefined)
    (code : p.target.isThumb = true → elf.text ≠ none →
      ∀ i, i < p.defined.length → p.CodeFits search elf i)
    (hashes : p.HashesLive demangle) {b : Nat → Nat}
    (hown : ∀ m k, p.Frame m k → k ≤ b m) (hb : ∀ i m k, p.LastOf i m → p.Figure search elf i k → k ≤ b m)
    (hsum : ((List.range p.defined.length).map b).sum < 2 ^ 64)
    (start : Option Str) (format : OutputFormat) :
    ∃ text, runText demangle ord search p elf start format = .ok text := by
  have hir : ∃ st, irGraph demangle p = .ok st := C121_ir_iff.mpr ⟨named, hacc, hmem⟩
  obtain ⟨⟨st, g⟩, hc⟩ : ∃ out, callGraph demangle ord search p elf = .ok out := by
    by_cases hx : p.target.isThumb = false ∨ elf.text = none
    · exact (C121_no_code_iff hx).mpr hir
    · simp only [not_or, Bool.not_eq_false] at hx
      obtain ⟨⟨stext, text⟩, hx'⟩ := Option.ne_none_iff_exists'.mp hx.2
      exact (C121_machine_iff alike hx.1 hx').mpr ⟨hir, code hx.1 hx.2⟩
  obtain ⟨cs, st0, stIr, r⟩ := callGraph_shared hc
  have htot : g.totalKnown < 2 ^ 64 := by
    refine Nat.lt_of_le_of_lt ?_ hsum
    unfold Graph.totalKnown
    refine sum_le_range _ _ _ ?_
    intro i x hx
    rw [List.getElem?_map, Option.map_eq_some_iff] at hx
    obtain ⟨nd, hnd, rfl⟩ := hx
    have hloc : g.locOf i = nd.loc := by
      unfold Graph.locOf
      rw [hnd]
    split
    · rename_i hi
      have hs := r.localShared alike hi
      rw [hloc] at hs
      cases hl : nd.loc with
      | unknown => exact Nat.zero_le _
      | exact n =>
        rw [hl] at hs
        simp only [Local.bytes]
        generalize hq : Local.exact n = l at hs
        cases hs with
        | code ht _ ha =>
          rcases ha.figure ht hq.symm with rfl | hf | ⟨j, h1, h2⟩
          · exact Nat.zero_le _
          · exact hown i n hf
          · exact hb j i n h1 h2
        | @compiler llvm _ hf =>
          cases llvm with
          | none => cases hq
          | some k =>
            cases hq
            exact hown i n hf
    · rename_i hi
      rw [← hloc]
      exact (r.node_zero (Nat.le_of_not_lt hi)).1
  have hnone : ∃ text, runText demangle ord search p elf none .dot = .ok text := by
    refine (C75_output_iff sizes fits hc .dot).mpr ⟨?_, fun _ v hv k hk => ?_⟩
    · intro nd hnd path hp
      rcases r.node_names alike defs decls hnd with (⟨j, h1⟩ | h1) | h1 | ⟨i, sig, h1, h2⟩
      · exact ⟨j, _, h1, hp⟩
      · rcases h1 with ⟨⟨i, h2⟩, h3⟩ | ⟨⟨i, h2⟩, h3, h4, h5⟩
        · rcases hashes.bitcast i _ h2 with ⟨j, hj⟩ | hno
          · exact absurd hj (h3 j)
          · exact absurd hp (hno path)
        · rcases (hacc i _ h2).2 h3 with ⟨j, hj⟩ | hu | hm
          · exact absurd hj (h4 j)
          · exact absurd hp (hashes.external i _ h2 h4 hu path)
          · exact absurd hm h5
      · rw [h1] at hp
        exact absurd hp (hashes.unknown path)
      · rw [h2] at hp
        unfold labelSig at hp
        split at hp
        · rename_i hf
          simp only [Bool.and_eq_true] at hf
          obtain ⟨⟨t, hi⟩, ho⟩ := isFormatter_fmt hf.1
          rw [hi, ho] at hp
          exact absurd hp (hashes.formatter path)
        · obtain ⟨j, hj⟩ := h1.1
          refine absurd hp (hashes.type j _ ?_ path)
          rcases hj with hj | ⟨_, hj⟩
          · obtain ⟨a, s, pre, post, d, k1, k2, k3, k4, k5, _⟩ := hj
            exact .inl ⟨d, k4, ⟨a, s, k1, by rw [k2]; simp, k3⟩, k5⟩
          · obtain ⟨a, s, pre, post, d, k1, k2, k3, k4, k5, _⟩ := hj
            exact .inr ⟨d, k4, ⟨a, s, k1, by rw [k2]; simp, k3⟩, k5⟩
    · exact Nat.lt_of_le_of_lt (Heaviest.le_total r.wf hv hk) htot
  obtain ⟨text, hnone⟩ := hnone
  have hfinal : ∃ g1 cyc, finalGraph demangle ord search p elf none = .ok (g1, cyc) := by
    unfold runText at hnone
    cases hf : finalGraph demangle ord search p elf none with
    | error e => rw [hf] at hnone; cases hnone
    | ok out => exact ⟨out.1, out.2, rfl⟩
  obtain ⟨g1, cyc, hfinal⟩ := hfinal
  have hany : ∃ out, finalGraph demangle ord search p elf start = .ok out := by
    cases start with
    | none => exact ⟨_, hfinal⟩
    | some s =>
      obtain ⟨_, _, g', cyc', _, h2, _⟩ := C15_printed_graph sizes fits hfinal s
      exact ⟨_, h2⟩
  obtain ⟨⟨g', cyc'⟩, hf⟩ := hany
  unfold runText
  rw [hf]
  cases format <;> exact ⟨_, rfl⟩

end run

/-- The conditions of `C121_output` are met by functions that share a name. -/
example (search : TagSearch) (ord : HashOrder) (start : Option Str) (format : OutputFormat) :
    exIrTwins.NamesAlike ∧ ¬ exIrTwins.NamesOnce ∧
    ∃ text, runText id ord search exIrTwins ⟨[], none⟩ start format = .ok text := by
  obtain ⟨a1, a2, a3, a4, a5, a6, a7⟩ := exIrTwins_ok
  refine ⟨a1, a2, ?_⟩
  obtain ⟨st, h⟩ : ∃ st, irGraph id exIrTwins = .ok st := ⟨_, rfl⟩
  obtain ⟨named, hacc, hmem⟩ := C121_ir_iff.mp ⟨st, h⟩
  have hsize : ∀ n k, exIrTwins.Reported n k → k ≤ 24 := by
    intro n k h
    simp only [Program.Reported, exIrTwins, mget] at h
    split at h
    · simp at h; omega
    · split at h
      · simp at h; omega
      · split at h <;> simp at h; omega
  have hframe : ∀ m k, exIrTwins.Frame m k → k ≤ 24 := by
    rintro m k ⟨_, _, _, n, _, _, _, _, h, _⟩
    exact hsize n k h
  have hstmt : ∀ i s, exIrTwins.Contains i s → s = .directCall c!"helper" ∨ s = .directCall c!"leaf" := by
    rintro i s ⟨d, hd, _, hs⟩
    simp only [exIrTwins, List.mem_cons, List.not_mem_nil, or_false] at hd
    rcases hd with rfl | rfl | rfl <;> simp at hs <;> simp [hs]
  refine C121_output a1 a3 a4 a7 (by simp [Elf.Fits32]) named hacc hmem (fun ht => by cases ht) ?_ (b := fun _ => 24)
    hframe ?_ (by decide) start format
  · refine ⟨?_, ?_, ?_, noHash_of (by decide +kernel), noHash_of (by decide +kernel)⟩
    · intro i f _ _ h
      simp [exIrTwins] at h
    · intro i f h
      have := hstmt _ _ h
      simp at this
    · rintro j sig (⟨d, hd, _, rfl⟩ | ⟨d, hd, _⟩)
      · simp only [exIrTwins, List.mem_cons, List.not_mem_nil, or_false] at hd
        rcases hd with rfl | rfl | rfl <;> exact noHash_of (by decide +kernel)
      · simp [exIrTwins] at hd
  · rintro i m k _ (h | ⟨ht, _⟩)
    · exact hframe i k h
    · cases ht

end CallStack
