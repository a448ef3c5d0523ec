import Verif.Props.SharedTotal
import Verif.Props.AnyCode
import Verif.Proof.AnyAbort

/-!
Property C129: when a run ends, whatever the names of the functions.
-/

namespace CallStack

section run

variable {demangle : Str → Str} {ord : HashOrder} {search : TagSearch} {p : Program} {elf : Elf}

/-- **C129** On thumb targets the call graph can be built, as C121 but whatever the names of the functions, exactly if the
pass over the LLVM-IR ends and the code of every live function is fit: its bytes lie in the code section and can be
decoded, all its jumps go to starts of live functions, and its figure can be reconciled with the one that the compiler
reports for the function that this code counts for and all those found before it in code that counts for that one. -/
theorem C129_machine_iff (ht : p.target.isThumb = true) {stext : Nat}
    {text : List Nat} (hx : elf.text = some (stext, text)) :
    (∃ out, callGraph demangle ord search p elf = .ok out) ↔
      (∃ st, irGraph demangle p = .ok st) ∧ ∀ i, i < p.defined.length → p.CodeFitsNode search elf i := by
  constructor
  · rintro ⟨⟨st, g⟩, h⟩
    obtain ⟨cs, st0, stIr, f⟩ := callGraph_shared h
    have hir : irGraph demangle p = .ok stIr := by
      unfold irGraph
      simp only [f.symOk]
      exact f.definesOk
    refine ⟨⟨stIr, hir⟩, fun i hi => ?_⟩
    obtain ⟨hloop, m⟩ := f.loop stext text ht hx
    have he := List.getElem?_eq_getElem hi
    obtain ⟨_, _, r, _, n2, n3, _⟩ := m.complete _ (List.mem_of_getElem? he)
    obtain ⟨c', m', l, h1, h2⟩ := f.loop_fits_any hx p.defined 0 rfl (MachineInv.init rfl f.ir.wf f.ir.seen)
      (fun _ _ hm => f.local_start_any hm) hloop i (Nat.zero_le i) hi
    refine ⟨c', m', _, _, r, l, h1, decoded_of he hx n2, fun t hl => ?_, h2⟩
    obtain ⟨j, hj, _⟩ := n3 t (mem_calledAddrs.mpr hl)
    exact (f.resolves_iff t).mp ⟨j, hj⟩
  · rintro ⟨⟨stIr, hir⟩, hok⟩
    obtain ⟨cs, st0, _, _, f⟩ := irGraph_shared ord search elf.symtab hir
    obtain ⟨st, hs⟩ := f.fits_loop_any ht hx hok p.defined 0 rfl (MachineInv.init rfl f.ir.wf f.ir.seen)
      (fun _ _ hm => f.local_start_any hm)
    refine ⟨(st, addIndirects ord st), ?_⟩
    unfold callGraph machinePass
    simp only [hir, ht, if_true, hx, hs]

/-- **C129** The tool ends with output, in either format and with any start point, as C75 and whatever the
names of the functions, if
- every symbol has a name,
- the live functions contain only statements that the tool knows how to handle,
- a `memcmp` that exists nowhere is not called directly after it was called through a bitcast,
- the machine code, where it is analysed, is fit,
- only live functions have names that look as if they ended in a hash, and
- the figures that count for all live functions together fit into 64 bits. -/
theorem C129_output (defs : p.DefinesOnce) (decls : p.DeclaresOnce) (sizes : p.SizesU64)
    (fits : elf.Fits32)
    (named : ∀ e ∈ p.defined, ∃ n, e.2.Named n) (hacc : ∀ i s, p.Contains i s → p.Acceptable s)
    (hmem : p.CallsAfterBitcast c!"memcmp" → (∃ j, p.LiveAt c!"memcmp" j) ∨ c!"memcmp" ∈ p.undefined)
    (code : p.target.isThumb = true → elf.text ≠ none →
      ∀ i, i < p.defined.length → p.CodeFitsNode search elf i)
    (hashes : p.HashesLive demangle) {b : Nat → Nat}
    (hown : ∀ m k, p.Frame m k → k ≤ b m) (hb : ∀ i c m k, p.CodeFor i c m → p.CodeFigure search elf i k → k ≤ b m)
    (hsum : ((List.range p.defined.length).map b).sum < 2 ^ 64)
    (start : Option Str) (format : OutputFormat) :
    ∃ text, runText demangle ord search p elf start format = .ok text := by
  have hir : ∃ st, irGraph demangle p = .ok st := C121_ir_iff.mpr ⟨named, hacc, hmem⟩
  obtain ⟨⟨st, g⟩, hc⟩ : ∃ out, callGraph demangle ord search p elf = .ok out := by
    by_cases hx : p.target.isThumb = false ∨ elf.text = none
    · exact (C121_no_code_iff hx).mpr hir
    · simp only [not_or, Bool.not_eq_false] at hx
      obtain ⟨⟨stext, text⟩, hx'⟩ := Option.ne_none_iff_exists'.mp hx.2
      exact (C129_machine_iff hx.1 hx').mpr ⟨hir, code hx.1 hx.2⟩
  obtain ⟨cs, st0, stIr, r⟩ := callGraph_shared hc
  have htot : g.totalKnown < 2 ^ 64 := by
    refine Nat.lt_of_le_of_lt ?_ hsum
    unfold Graph.totalKnown
    refine sum_le_range _ _ _ ?_
    intro i x hx
    rw [List.getElem?_map, Option.map_eq_some_iff] at hx
    obtain ⟨nd, hnd, rfl⟩ := hx
    have hloc : g.locOf i = nd.loc := by
      unfold Graph.locOf
      rw [hnd]
    split
    · rename_i hi
      have hs := r.localNode hi
      rw [hloc] at hs
      cases hl : nd.loc with
      | unknown => exact Nat.zero_le _
      | exact n =>
        rw [hl] at hs
        simp only [Local.bytes]
        generalize hq : Local.exact n = l at hs
        cases hs with
        | code _ _ ha =>
          rcases ha.figure hq.symm with rfl | hf | ⟨j, c, h1, h2⟩
          · exact Nat.zero_le _
          · exact hown i n hf
          · exact hb j c i n h1 h2
        | @compiler llvm _ hf =>
          cases llvm with
          | none => cases hq
          | some k =>
            cases hq
            exact hown i n hf
    · rename_i hi
      rw [← hloc]
      exact (r.node_zero (Nat.le_of_not_lt hi)).1
  have hnone : ∃ text, runText demangle ord search p elf none .dot = .ok text := by
    refine (C75_output_iff sizes fits hc .dot).mpr ⟨?_, fun _ v hv k hk => ?_⟩
    · intro nd hnd path hp
      rcases r.node_names_any defs decls hnd with (⟨j, h1⟩ | h1) | h1 | ⟨sig, h1, h2⟩
      · exact ⟨j, _, h1, hp⟩
      · rcases h1 with ⟨⟨i, h2⟩, h3⟩ | ⟨⟨i, h2⟩, h3, h4, h5⟩
        · rcases hashes.bitcast i _ h2 with ⟨j, hj⟩ | hno
          · exact absurd hj (h3 j)
          · exact absurd hp (hno path)
        · rcases (hacc i _ h2).2 h3 with ⟨j, hj⟩ | hu | hm
          · exact absurd hj (h4 j)
          · exact absurd hp (hashes.external i _ h2 h4 hu path)
          · exact absurd hm h5
      · rw [h1] at hp
        exact absurd hp (hashes.unknown path)
      · rw [h2] at hp
        unfold labelSig at hp
        split at hp
        · rename_i hf
          simp only [Bool.and_eq_true] at hf
          obtain ⟨⟨t, hi⟩, ho⟩ := isFormatter_fmt hf.1
          rw [hi, ho] at hp
          exact absurd hp (hashes.formatter path)
        · obtain ⟨j, hj⟩ := h1.1
          refine absurd hp (hashes.type j _ ?_ path)
          rcases hj with hj | ⟨_, hj⟩
          · obtain ⟨a, s, pre, post, d, k1, k2, k3, k4, k5, _⟩ := hj
            exact .inl ⟨d, k4, ⟨a, s, k1, by rw [k2]; simp, k3⟩, k5⟩
          · obtain ⟨a, s, pre, post, d, k1, k2, k3, k4, k5, _⟩ := hj
            exact .inr ⟨d, k4, ⟨a, s, k1, by rw [k2]; simp, k3⟩, k5⟩
    · exact Nat.lt_of_le_of_lt (Heaviest.le_total r.wf hv hk) htot
  obtain ⟨text, hnone⟩ := hnone
  have hfinal : ∃ g1 cyc, finalGraph demangle ord search p elf none = .ok (g1, cyc) := by
    unfold runText at hnone
    cases hf : finalGraph demangle ord search p elf none with
    | error e => rw [hf] at hnone; cases hnone
    | ok out => exact ⟨out.1, out.2, rfl⟩
  obtain ⟨g1, cyc, hfinal⟩ := hfinal
  have hany : ∃ out, finalGraph demangle ord search p elf start = .ok out := by
    cases start with
    | none => exact ⟨_, hfinal⟩
    | some s =>
      obtain ⟨_, _, g', cyc', _, h2, _⟩ := C15_printed_graph sizes fits hfinal s
      exact ⟨_, h2⟩
  obtain ⟨⟨g', cyc'⟩, hf⟩ := hany
  unfold runText
  rw [hf]
  cases format <;> exact ⟨_, rfl⟩

/-- **C129** The orders of hash maps decide neither about the figures nor about whether there are any, whatever the names
of the functions: if a run without a start point ends with output for one order of the types, then it does for every
other one, and shows the same local usage and maximum for every live function. -/
theorem C129_orders {g : Graph} {cycles : List (List Nat)} (defs : p.DefinesOnce) (decls : p.DeclaresOnce)
    (addressed : p.Addressed) (one : p.OneVoid) (sizes : p.SizesU64) (fits : elf.Fits32)
    (unknown : NoHash demangle c!"?") (h : finalGraph demangle ord search p elf none = .ok (g, cycles))
    (ord' : HashOrder) :
    ∃ g' cycles', finalGraph demangle ord' search p elf none = .ok (g', cycles') ∧
      ∀ i < p.defined.length, g'.locOf i = g.locOf i ∧ g'.maxOf? i = g.maxOf? i := by
  suffices hs : ∃ out, finalGraph demangle ord' search p elf none = .ok out by
    obtain ⟨⟨g', cycles'⟩, h'⟩ := hs
    exact ⟨g', cycles', h', fun i hi => C128_orders defs decls addressed one sizes fits h h' hi⟩
  obtain ⟨st, ga, gb, a1, a2, a3, a4⟩ := finalGraph_steps h
  obtain ⟨cs, st0, stIr, r⟩ := callGraph_shared a1
  obtain ⟨⟨st', ga'⟩, b1⟩ : ∃ out, callGraph demangle ord' search p elf = .ok out := by
    unfold callGraph at a1 ⊢
    split at a1
    · cases a1
    rename_i s1 e1
    split at a1
    · cases a1
    rename_i s2 e2
    exact ⟨_, rfl⟩
  obtain ⟨cs', st0', stIr', r'⟩ := callGraph_shared b1
  have hu := r.u64 sizes fits
  have hu' := r'.u64 sizes fits
  have hs := SharedFacts.same_any defs decls addressed one r r'
  have hnames := fun nd' => SharedFacts.same_names_any defs decls one r r' (nd' := nd')
  have e1 : cs' = cs := by
    apply List.ext_getElem?
    intro i
    apply Option.ext
    intro c
    rw [← r'.principal, ← r.principal]
  subst e1
  have hinfo : st'.hasStackUsageInfo = st.hasStackUsageInfo := by
    rw [Bool.eq_iff_iff, r'.info_iff, r.info_iff]
  have hamb : st'.ambiguous = st.ambiguous := by
    rw [r'.ambiguous, r.ambiguous]
  have sb := analyzeMax_edges r.wf hu a2
  have hana : ∃ gb' cyc, analyzeMax st'.hasStackUsageInfo ga' = .ok (gb', cyc) := by
    rw [hinfo]
    cases hi : st.hasStackUsageInfo with
    | false => exact ⟨ga', [], by simp [analyzeMax]⟩
    | true =>
      rw [hi] at a2
      rcases analyzeMax_spec r'.wf hu' with ⟨_, hov⟩ | ⟨gb', cyc, e, _⟩
      · refine absurd hov (hs.not_overflows ?_ (analyzeMax_ok r.wf hu a2).2.1)
        have := r.live_length
        obtain ⟨ns, hns⟩ := r.out.nodes
        rw [hns, List.length_append]
        omega
      · exact ⟨gb', cyc, e⟩
  obtain ⟨gb', cyc, b2⟩ := hana
  have sb' := analyzeMax_edges r'.wf hu' b2
  have hex : ∀ nd ∈ gb'.nodes, ∃ nd', ∃ name,
      shortenName demangle st'.ambiguous nd.name = .ok name ∧ nd' = { nd with name } := by
    intro nd hnd
    suffices hh : ∃ name, shortenName demangle st'.ambiguous nd.name = .ok name by
      obtain ⟨name, hh⟩ := hh
      exact ⟨_, name, hh, rfl⟩
    have lift : ∀ {g g1 : Graph}, SameButMax g g1 → ∀ x ∈ g1.nodes, ∃ y ∈ g.nodes, y.name = x.name := by
      intro g g1 hsame x hx
      obtain ⟨k, hk⟩ := List.getElem?_of_mem hx
      have h1 := hsame.at_ k
      rw [hk] at h1
      cases hk0 : g.nodes[k]? with
      | none => rw [hk0] at h1; simp at h1
      | some y =>
        rw [hk0] at h1
        simp only [Option.map_some, Option.some.injEq, Node.mk.injEq] at h1
        exact ⟨y, List.mem_of_getElem? hk0, h1.1.symm⟩
    obtain ⟨x, hx, hxn⟩ := lift sb' nd hnd
    rw [← hxn]
    rcases hnames x hx with h1 | ⟨y, hy, hyn⟩
    · rw [h1]
      exact ⟨_, C19_no_hash demangle _ unknown⟩
    · obtain ⟨z, hz, hzn⟩ := lift sb.symm y hy
      obtain ⟨k, hk⟩ := List.getElem?_of_mem hz
      obtain ⟨b, _, n, c2, _⟩ := (forall₂_at (shortenNodes_iff.mp a3) k).1 _ hk
      rw [hzn, hyn] at c2
      rw [hamb]
      exact ⟨n, c2⟩
  obtain ⟨nodes, hn⟩ := forall₂_of_at hex
  refine ⟨({ gb' with nodes }, cyc), ?_⟩
  unfold finalGraph
  simp only [b1, applyStart, b2, shortenNodes_iff.mpr hn]

end run

/-! ### Examples -/

/-- The conditions of `C129_machine_iff` are met by functions that share only some of their names. -/
example : ¬ exThumbHomonyms.NamesAlike ∧
    ∀ i < 3, exThumbHomonyms.CodeFitsNode linearSearch exThumbTwinElf i := by
  constructor
  · intro h
    have := h 1 2 _ _ _ _ c!"swap" rfl rfl ⟨by simp, by rw [← isTag_iff]; decide⟩
      ⟨by simp, by rw [← isTag_iff]; decide⟩
    revert this
    decide
  · have hrun : ∃ out, callGraph id sameOrder linearSearch exThumbHomonyms exThumbTwinElf = .ok out := by
      have h := exThumbHomonyms_run
      cases hf : finalGraph id sameOrder linearSearch exThumbHomonyms exThumbTwinElf none with
      | error e =>
        rw [hf] at h
        cases h
      | ok r =>
        obtain ⟨st, ga, gb, a1, _⟩ := finalGraph_steps hf
        exact ⟨_, a1⟩
    exact (C129_machine_iff (stext := 256) rfl rfl).mp hrun |>.2

/-- The conditions of `C129_output` and `C129_orders` are met by them as well. -/
example (ord : HashOrder) (start : Option Str) (format : OutputFormat) :
    (∃ text, runText id ord linearSearch exThumbHomonyms exThumbTwinElf start format = .ok text) ∧
    ∃ g cycles, finalGraph id ord linearSearch exThumbHomonyms exThumbTwinElf none = .ok (g, cycles) ∧
      g.locOf 2 = .exact 0 := by
  have hdefs : exThumbHomonyms.DefinesOnce := by unfold Program.DefinesOnce; decide
  have hdecls : exThumbHomonyms.DeclaresOnce := by unfold Program.DeclaresOnce; decide
  have hfits : exThumbTwinElf.Fits32 := by
    rintro a b h
    simp only [exThumbTwinElf, Option.some.injEq, Prod.mk.injEq] at h
    rw [← h.2]
    decide
  have hsize : ∀ n k, exThumbHomonyms.Reported n k → k ≤ 8 := by
    intro n k hn
    simp only [Program.Reported, exThumbHomonyms, mget] at hn
    split_ifs at hn <;> simp only [Option.some.injEq] at hn <;> omega
  have hsizes : exThumbHomonyms.SizesU64 := fun n k hn => Nat.lt_of_le_of_lt (hsize n k hn) (by decide)
  have hsig : ∀ j sig, exThumbHomonyms.DefinedSig j sig ∨ exThumbHomonyms.DeclaredSig j sig → sig = exSig := by
    rintro j sig (⟨d, hd, _, rfl⟩ | ⟨d, hd, _⟩)
    · simp only [exThumbHomonyms, List.mem_singleton] at hd
      rw [hd]
    · simp [exThumbHomonyms] at hd
  have hone : exThumbHomonyms.OneVoid := by
    intro j j' sig sig' v v' h _ hf
    rw [hsig j sig h] at hf
    obtain ⟨_, hf, _⟩ := hf
  obtain ⟨g, cycles, hrun, hloc⟩ : ∃ g cycles,
      finalGraph id sameOrder linearSearch exThumbHomonyms exThumbTwinElf none = .ok (g, cycles) ∧
      g.locOf 2 = .exact 0 := by
    have h := exThumbHomonyms_run
    cases hf : finalGraph id sameOrder linearSearch exThumbHomonyms exThumbTwinElf none with
    | error e =>
      rw [hf] at h
      cases h
    | ok r =>
      rw [hf] at h
      obtain ⟨g, cycles⟩ := r
      simp only [Except.toOption, Option.map_some, Option.some.injEq, Prod.mk.injEq] at h
      refine ⟨g, cycles, rfl, ?_⟩
      have h2 := congrArg (fun l => l[2]?) h.1
      simp only [List.getElem?_map] at h2
      obtain ⟨nd, k1, k2⟩ := Option.map_eq_some_iff.mp h2
      unfold Graph.locOf
      rw [k1]
      exact congrArg Prod.fst k2
  obtain ⟨st, ga, gb, a1, _⟩ := finalGraph_steps hrun
  obtain ⟨⟨sti, hir⟩, hcode⟩ := (C129_machine_iff (stext := 256) rfl rfl).mp ⟨_, a1⟩
  obtain ⟨named, hacc, hmem⟩ := C121_ir_iff.mp ⟨sti, hir⟩
  have hstmt : ∀ i s, exThumbHomonyms.Contains i s → s = .directCall c!"left" := by
    rintro i s ⟨d, hd, _, hs⟩
    simp only [exThumbHomonyms, List.mem_singleton] at hd
    subst hd
    simpa using hs
  constructor
  · refine C129_output hdefs hdecls hsizes hfits named hacc hmem (fun _ _ => hcode) ?_ (b := fun _ => 8) ?_ ?_
      (by decide) start format
    · refine ⟨?_, ?_, ?_, noHash_of (by decide +kernel), noHash_of (by decide +kernel)⟩
      · intro i f _ _ h
        simp [exThumbHomonyms] at h
      · intro i f h
        have := hstmt _ _ h
        simp at this
      · intro j sig h
        rw [hsig j sig h]
        exact noHash_of (by decide +kernel)
    · rintro m k ⟨_, _, _, n, _, _, _, _, h, _⟩
      exact hsize n k h
    · rintro i c m k - ⟨address, size, r, hd, hr⟩
      have d0 : exThumbHomonyms.Decoded linearSearch exThumbTwinElf 0 256 8 ⟨[8], [], false, true, some 8⟩ :=
        decoded_iff.mpr ⟨_, _, _, _, rfl, rfl, rfl, by decide +kernel, by decide, by decide, by decide +kernel⟩
      have d1 : exThumbHomonyms.Decoded linearSearch exThumbTwinElf 1 264 4 ⟨[], [], true, false, some 0⟩ :=
        decoded_iff.mpr ⟨_, _, _, _, rfl, rfl, rfl, by decide +kernel, by decide, by decide, by decide +kernel⟩
      have d2 : exThumbHomonyms.Decoded linearSearch exThumbTwinElf 2 268 2 ⟨[], [], false, false, some 0⟩ :=
        decoded_iff.mpr ⟨_, _, _, _, rfl, rfl, rfl, by decide +kernel, by decide, by decide, by decide +kernel⟩
      obtain ⟨a, s, _, _, hi, _⟩ := decoded_iff.mp hd
      have hlt := (List.getElem?_eq_some_iff.mp hi).1
      match i, hlt with
      | 0, _ =>
        rw [(codeOf_iff.mpr ⟨rfl, hd⟩).unique (codeOf_iff.mpr ⟨rfl, d0⟩)] at hr
        simp only [Option.some.injEq] at hr
        omega
      | 1, _ =>
        rw [(codeOf_iff.mpr ⟨rfl, hd⟩).unique (codeOf_iff.mpr ⟨rfl, d1⟩)] at hr
        simp only [Option.some.injEq] at hr
        omega
      | 2, _ =>
        rw [(codeOf_iff.mpr ⟨rfl, hd⟩).unique (codeOf_iff.mpr ⟨rfl, d2⟩)] at hr
        simp only [Option.some.injEq] at hr
        omega
  · obtain ⟨g', cycles', h1, h2⟩ := C129_orders hdefs hdecls (by unfold Program.Addressed; decide) hone hsizes
      hfits (noHash_of (by decide +kernel)) hrun ord
    exact ⟨g', cycles', h1, by rw [(h2 2 (by decide)).1, hloc]⟩

/-- Two functions with the code of `exAsmTwins`, whose frames the compiler reports as well, and which have another
symbol name that comes first. -/
def exAsmHomonyms (name : Str) : Program :=
  { target := .thumbv7m
    defined := [(264, ⟨[c!"swap", c!"left"], 4⟩), (268, ⟨[name, c!"right"], 6⟩)]
    undefined := []
    stackSizes := [(c!"left", 8), (c!"right", 64)]
    defines := []
    declares := [] }

/-- **C129** Functions that share the first of their symbol names can stop the tool, although for either of them the
compiler and the machine code agree: the code of one is compared with the frame of the other. -/
theorem C129_homonyms_abort :
    (∀ x ∈ [(0, 8), (1, 64)], (exAsmHomonyms c!"swap").Frame x.1 x.2 ∧
      (exAsmHomonyms c!"swap").CodeFigure linearSearch exAsmTwinsElf x.1 x.2) ∧
    abortOf (exAsmHomonyms c!"swap") exAsmTwinsElf = some .llvmVsOurs ∧
    abortOf (exAsmHomonyms c!"other") exAsmTwinsElf = none := by
  refine ⟨?_, by decide +kernel, by decide +kernel⟩
  intro x hx
  simp only [List.mem_cons, List.not_mem_nil, or_false] at hx
  rcases hx with rfl | rfl
  · refine ⟨(frame_iff (c := c!"left") (e := (264, ⟨[c!"swap", c!"left"], 4⟩)) rfl (by decide +kernel) 8).mpr
      (by decide +kernel), _, _, ⟨[], [], false, true, some 8⟩, decoded_of rfl rfl ⟨_, rfl, by decide +kernel⟩, rfl⟩
  · refine ⟨(frame_iff (c := c!"right") (e := (268, ⟨[c!"swap", c!"right"], 6⟩)) rfl (by decide +kernel) 64).mpr
      (by decide +kernel), _, _, ⟨[], [], false, true, some 64⟩, decoded_of rfl rfl ⟨_, rfl, by decide +kernel⟩, rfl⟩

end CallStack
