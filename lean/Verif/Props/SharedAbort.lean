import Verif.Props.SharedChange
import Verif.Proof.SharedAbort

/-!
Property C121: when a run ends, if several functions may have the same names.
-/

namespace CallStack

section run

variable {demangle : Str → Str} {ord : HashOrder} {search : TagSearch} {p : Program} {elf : Elf}

/-- **C121** When the pass over the LLVM-IR ends, as `C69_no_abort_iff`, whatever the names of the functions are: exactly
if every symbol has a name, all live functions contain only statements that the tool knows how to handle, and a
`memcmp` that exists nowhere is not called directly after it was called through a bitcast. -/
theorem C121_ir_iff :
    (∃ st, irGraph demangle p = .ok st) ↔
      (∀ e ∈ p.defined, ∃ n, e.2.Named n) ∧ (∀ i s, p.Contains i s → p.Acceptable s) ∧
      (p.CallsAfterBitcast c!"memcmp" → (∃ j, p.LiveAt c!"memcmp" j) ∨ c!"memcmp" ∈ p.undefined) :=
  irGraph_fit

/-- **C121** Where no machine code is analysed, the call graph can be built exactly if that pass ends. -/
theorem C121_no_code_iff (hx : p.target.isThumb = false ∨ elf.text = none) :
    (∃ out, callGraph demangle ord search p elf = .ok out) ↔ ∃ st, irGraph demangle p = .ok st := by
  have hm : ∀ st, machinePass search p elf st = .ok st := by
    intro st
    unfold machinePass
    split
    · rename_i ht
      rw [ht] at hx
      rcases hx with hx | hx
      · cases hx
      · rw [hx]
    · rfl
  unfold callGraph
  cases hir : irGraph demangle p with
  | error e => simp
  | ok st => simp [hm]

/-- **C121** On thumb targets the call graph can be built, as C74, exactly if the pass over the LLVM-IR ends and the code
of every live function is fit: its first symbol name is not a mapping symbol, its bytes lie in the code section and can
be decoded, all its jumps go to starts of live functions, and its figure can be reconciled with the one that the
compiler reports for its names and all those found before it in the code of functions of the same names. -/
theorem C121_machine_iff (alike : p.NamesAlike) (ht : p.target.isThumb = true) {stext : Nat}
    {text : List Nat} (hx : elf.text = some (stext, text)) :
    (∃ out, callGraph demangle ord search p elf = .ok out) ↔
      (∃ st, irGraph demangle p = .ok st) ∧ ∀ i, i < p.defined.length → p.CodeFits search elf i := by
  constructor
  · rintro ⟨⟨st, g⟩, h⟩
    obtain ⟨cs, st0, stIr, f⟩ := callGraph_shared h
    have hir : irGraph demangle p = .ok stIr := by
      unfold irGraph
      simp only [f.symOk]
      exact f.definesOk
    refine ⟨⟨stIr, hir⟩, fun i hi => ?_⟩
    obtain ⟨hloop, m⟩ := f.loop stext text ht hx
    have he := List.getElem?_eq_getElem hi
    obtain ⟨c, k, r, n1, n2, n3, _⟩ := m.complete _ (List.mem_of_getElem? he)
    refine ⟨?_, _, _, r, decoded_of he hx n2, fun t hl => ?_, ?_⟩
    · obtain ⟨first, rest, k1, k2, _⟩ := n1
      refine ⟨_, _, first, rest, he, k1, ?_⟩
      rw [f.ir.aliases] at k2
      obtain ⟨_, _, _, _, k5⟩ := f.sym.aliases_some first c k2
      exact ((mem_realNames _ _).mp k5).2
    · obtain ⟨j, hj, _⟩ := n3 t (mem_calledAddrs.mpr hl)
      exact (f.resolves_iff t).mp ⟨j, hj⟩
    · exact f.loop_fits alike hx p.defined 0 rfl (MachineInv.init rfl f.ir.wf f.ir.seen)
        (fun _ _ hm => f.local_start hm) hloop i (Nat.zero_le i) hi
  · rintro ⟨⟨stIr, hir⟩, hok⟩
    obtain ⟨cs, st0, _, _, f⟩ := irGraph_shared ord search elf.symtab hir
    obtain ⟨st, hs⟩ := f.fits_loop alike ht hx hok p.defined 0 rfl (MachineInv.init rfl f.ir.wf f.ir.seen)
      (fun _ _ hm => f.local_start hm)
    refine ⟨(st, addIndirects ord st), ?_⟩
    unfold callGraph machinePass
    simp only [hir, ht, if_true, hx, hs]

/-- If the call graph can be built with one order it can be built with any. -/
theorem Program.Reordered.callGraph_shared_ok {ord' : HashOrder} {p' : Program} (same : p.Reordered p')
    (alike : p.NamesAlike) (safe : p.OrderSafe) (h : ∃ out, callGraph demangle ord search p elf = .ok out) :
    ∃ out, callGraph demangle ord' search p' elf = .ok out := by
  have alike' := same.namesAlike alike
  have hir : (∃ st, irGraph demangle p = .ok st) → ∃ st', irGraph demangle p' = .ok st' := by
    rw [C121_ir_iff, C121_ir_iff]
    rintro ⟨h1, h2, _⟩
    refine ⟨by rw [same.defined]; exact h1, fun i s hc => ?_, fun hb => ?_⟩
    · have := h2 i s ((same.contains i s).mp hc)
      unfold Program.Acceptable at this ⊢
      simp only [same.target, same.liveAt, same.undefined]
      exact this
    · obtain ⟨i', hc⟩ := hb.contains
      have hb' : ∃ i, p'.Contains i (.bitcastCall (some c!"memcmp")) := by
        obtain ⟨ds₁, d, ds₂, pre, post, k1, ⟨i, k2⟩, k3, k4 | ⟨d', k4, ⟨j, k5⟩, k6⟩⟩ := hb
        · exact ⟨i, d, by rw [k1]; simp, k2, by rw [k3]; simp [k4]⟩
        · exact ⟨j, d', by rw [k1]; simp [k4], k5, k6⟩
      obtain ⟨i, hb'⟩ := hb'
      rw [same.contains] at hb' hc
      rcases safe i' _ _ hc .memcmp with ⟨j, hj⟩ | ⟨_, hu⟩ | hno
      · refine Or.inl ⟨j, (same.liveAt _ _).mpr ?_⟩
        obtain ⟨a, s, pre, post, k1, k2, k3, _⟩ := hj
        exact ⟨a, s, k1, by rw [k2]; simp, k3⟩
      · exact Or.inr (by rw [same.undefined]; exact (hu rfl).2)
      · exact absurd (Or.inl rfl) (hno i _ hb')
  by_cases hx : p.target.isThumb = false ∨ elf.text = none
  · rw [C121_no_code_iff (by rw [same.target]; exact hx)]
    rw [C121_no_code_iff hx] at h
    exact hir h
  · simp only [not_or, Bool.not_eq_false] at hx
    obtain ⟨ht, hx⟩ := hx
    obtain ⟨⟨stext, text⟩, hx⟩ := Option.ne_none_iff_exists'.mp hx
    rw [C121_machine_iff alike' (by rw [same.target]; exact ht) hx]
    rw [C121_machine_iff alike ht hx] at h
    refine ⟨hir h.1, fun i hi => ?_⟩
    obtain ⟨h1, address, size, r, h2, h3, m, l, h4, h5⟩ := h.2 i (by rw [← same.defined]; exact hi)
    refine ⟨by rw [same.defined]; exact h1, address, size, r, same.decoded.mpr h2, ?_, m, l, same.lastOf.mpr h4, ?_⟩
    · unfold Program.StartsAt
      rw [same.defined]
      exact h3
    · exact localAfter_congr same.symm.target same.symm.defined (same.symm.principal m) (fun _ => same.symm.frame)
        (same.symm.contains m) h5

/-- **C121** The orders of hash maps decide neither about the figures nor about whether there are any, as C76: if a run
without a start point ends with output for one order of the definitions, the declarations and the types, then it does
for every other one, and shows the same name, local usage and maximum for every live function. -/
theorem C121_orders {p' : Program} {g : Graph} {cycles : List (List Nat)} (same : p.Reordered p')
    (alike : p.NamesAlike) (defs : p.DefinesOnce) (decls : p.DeclaresOnce) (addressed : p.Addressed)
    (safe : p.OrderSafe) (one : p.OneVoid) (sizes : p.SizesU64) (fits : elf.Fits32)
    (unknown : NoHash demangle c!"?") (h : finalGraph demangle ord search p elf none = .ok (g, cycles))
    (ord' : HashOrder) :
    ∃ g' cycles', finalGraph demangle ord' search p' elf none = .ok (g', cycles') ∧
      ∀ i < p.defined.length,
        (g.nodes[i]? ≠ none ∧ (g'.nodes[i]?).map Node.name = (g.nodes[i]?).map Node.name) ∧
        g'.locOf i = g.locOf i ∧ g'.maxOf? i = g.maxOf? i := by
  suffices hs : ∃ out, finalGraph demangle ord' search p' elf none = .ok out by
    obtain ⟨⟨g', cycles'⟩, h'⟩ := hs
    exact ⟨g', cycles', h', fun i hi => C120_orders same alike defs decls addressed safe one sizes fits h h' hi⟩
  obtain ⟨st, ga, gb, a1, a2, a3, a4⟩ := finalGraph_steps h
  obtain ⟨cs, st0, stIr, r⟩ := callGraph_shared a1
  obtain ⟨⟨st', ga'⟩, b1⟩ := same.callGraph_shared_ok (ord' := ord') alike safe ⟨_, a1⟩
  obtain ⟨cs', st0', stIr', r'⟩ := callGraph_shared b1
  have hu := r.u64 sizes fits
  have hu' := r'.u64 (same.sizesU64 sizes) fits
  have hs := SharedFacts.same same alike defs decls addressed safe one r r'
  have hnames := fun nd' => SharedFacts.same_names same alike defs decls one r r' (nd' := nd')
  have e1 : cs' = cs := by
    apply List.ext_getElem?
    intro i
    apply Option.ext
    intro c
    rw [← r'.principal, ← r.principal, same.principal]
  subst e1
  have hinfo : st'.hasStackUsageInfo = st.hasStackUsageInfo := by
    rw [Bool.eq_iff_iff, r'.info_iff, r.info_iff]
    simp only [same.frame]
  have hamb : st'.ambiguous = st.ambiguous := by
    rw [r'.ambiguous, r.ambiguous]
  have sb := analyzeMax_edges r.wf hu a2
  have hana : ∃ gb' cyc, analyzeMax st'.hasStackUsageInfo ga' = .ok (gb', cyc) := by
    rw [hinfo]
    cases hi : st.hasStackUsageInfo with
    | false => exact ⟨ga', [], by simp [analyzeMax]⟩
    | true =>
      rw [hi] at a2
      rcases analyzeMax_spec r'.wf hu' with ⟨_, hov⟩ | ⟨gb', cyc, e, _⟩
      · refine absurd hov (hs.not_overflows ?_ (analyzeMax_ok r.wf hu a2).2.1)
        have := r.live_length
        obtain ⟨ns, hns⟩ := r.out.nodes
        rw [hns, List.length_append]
        omega
      · exact ⟨gb', cyc, e⟩
  obtain ⟨gb', cyc, b2⟩ := hana
  have sb' := analyzeMax_edges r'.wf hu' b2
  have hex : ∀ nd ∈ gb'.nodes, ∃ nd', ∃ name,
      shortenName demangle st'.ambiguous nd.name = .ok name ∧ nd' = { nd with name } := by
    intro nd hnd
    suffices hh : ∃ name, shortenName demangle st'.ambiguous nd.name = .ok name by
      obtain ⟨name, hh⟩ := hh
      exact ⟨_, name, hh, rfl⟩
    have lift : ∀ {g g1 : Graph}, SameButMax g g1 → ∀ x ∈ g1.nodes, ∃ y ∈ g.nodes, y.name = x.name := by
      intro g g1 hsame x hx
      obtain ⟨k, hk⟩ := List.getElem?_of_mem hx
      have h1 := hsame.at_ k
      rw [hk] at h1
      cases hk0 : g.nodes[k]? with
      | none => rw [hk0] at h1; simp at h1
      | some y =>
        rw [hk0] at h1
        simp only [Option.map_some, Option.some.injEq, Node.mk.injEq] at h1
        exact ⟨y, List.mem_of_getElem? hk0, h1.1.symm⟩
    obtain ⟨x, hx, hxn⟩ := lift sb' nd hnd
    rw [← hxn]
    rcases hnames x hx with h1 | ⟨y, hy, hyn⟩
    · rw [h1]
      exact ⟨_, C19_no_hash demangle _ unknown⟩
    · obtain ⟨z, hz, hzn⟩ := lift sb.symm y hy
      obtain ⟨k, hk⟩ := List.getElem?_of_mem hz
      obtain ⟨b, _, n, c2, _⟩ := (forall₂_at (shortenNodes_iff.mp a3) k).1 _ hk
      rw [hzn, hyn] at c2
      rw [hamb]
      exact ⟨n, c2⟩
  obtain ⟨nodes, hn⟩ := forall₂_of_at hex
  refine ⟨({ gb' with nodes }, cyc), ?_⟩
  unfold finalGraph
  simp only [b1, applyStart, b2, shortenNodes_iff.mpr hn]

end run

/-! ### Examples -/

/-- Two functions of assembly files: at 264 there is `push {r7, lr}; pop {r7, pc}`, at 268
`sub sp, #64; add sp, #64; bx lr`. -/
def exAsmTwins (name : Str) : Program :=
  { target := .thumbv7m
    defined := [(264, ⟨[c!"helper"], 4⟩), (268, ⟨[name], 6⟩)]
    undefined := []
    stackSizes := []
    defines := []
    declares := [] }

def exAsmTwinsElf : Elf :=
  { symtab := [], text := some (264, [0x80, 0xB5, 0x80, 0xBD, 0x90, 0xB0, 0x10, 0xB0, 0x70, 0x47]) }

/-- **C121** Functions of the same name that use different amounts of stack stop the tool, although nothing is wrong with
either of them: with two names the call graph is built. -/
theorem C121_twins_abort :
    (exAsmTwins c!"helper").NamesAlike ∧
    (∀ i < 2, (exAsmTwins c!"helper").CodeOk linearSearch exAsmTwinsElf i) ∧
    abortOf (exAsmTwins c!"helper") exAsmTwinsElf = some .llvmVsOurs ∧
    abortOf (exAsmTwins c!"other") exAsmTwinsElf = none := by
  refine ⟨?_, ?_, by decide +kernel, by decide +kernel⟩
  · intro i j a s b t n hi hj _ _
    have hi' := (List.getElem?_eq_some_iff.mp hi).1
    have hj' := (List.getElem?_eq_some_iff.mp hj).1
    match i, j, hi', hj' with
    | 0, 0, _, _ | 0, 1, _, _ | 1, 0, _, _ | 1, 1, _, _ =>
      cases hi
      cases hj
      rfl
  · have hno : ∀ n k, ¬ (exAsmTwins c!"helper").Reported n k := fun n k h => by cases h
    intro i hi
    match i, hi with
    | 0, _ | 1, _ =>
      refine ⟨⟨_, _, _, _, rfl, rfl, by rw [← isTag_iff]; decide⟩, ?_⟩
      first
        | refine ⟨_, _, ⟨[], [], false, true, some 8⟩, none, c!"helper", .exact 8,
            decoded_of rfl rfl ⟨_, rfl, by decide +kernel⟩, ?_, ?_, .ours 8 (by decide), ?_⟩
        | refine ⟨_, _, ⟨[], [], false, true, some 64⟩, none, c!"helper", .exact 64,
            decoded_of rfl rfl ⟨_, rfl, by decide +kernel⟩, ?_, ?_, .ours 64 (by decide), ?_⟩
      · rintro k ⟨_, _, _, n, _, _, _, _, h, _⟩
        exact hno n k h
      · exact ⟨_, _, [], [], rfl, rfl, by rw [← isTag_iff]; decide, .inr ⟨fun n _ k => hno n k, by simp⟩⟩
      · rintro t (⟨off, h, _⟩ | ⟨off, h, _⟩) <;> cases h

/-- The hypotheses of `C121_machine_iff` are met by functions that share a name, and its condition holds. -/
example : exTwins.NamesAlike ∧ ¬ exTwins.NamesOnce ∧
    ∀ i, i < exTwins.defined.length → exTwins.CodeFits linearSearch exTwinsElf i := by
  have alike := C115_bound_violated.1
  refine ⟨alike, fun h => ?_, ?_⟩
  · exact absurd (h c!"OUTLINED_FUNCTION_0" 1 2 ⟨_, _, rfl, by decide, by rw [← isTag_iff]; decide⟩ ⟨_, _, rfl, by decide, by rw [← isTag_iff]; decide⟩)
      (by decide)
  · have hrun : (callGraph id sameOrder linearSearch exTwins exTwinsElf).toOption.isSome = true := by decide +kernel
    cases h : callGraph id sameOrder linearSearch exTwins exTwinsElf with
    | error e => rw [h] at hrun; cases hrun
    | ok out => exact ((C121_machine_iff alike rfl rfl).mp ⟨out, h⟩).2

/-- The condition of `C121_ir_iff` is met by a program with functions of the same name, and not if one of them calls a
function that is nowhere. -/
example : (∀ i s, exIrTwins.Contains i s → exIrTwins.Acceptable s) ∧
    ¬ ∀ i s, ({ exIrTwins with defines := [⟨c!"helper", exSig, [.directCall c!"nowhere"]⟩] } : Program).Contains i s →
      ({ exIrTwins with defines := [⟨c!"helper", exSig, [.directCall c!"nowhere"]⟩] } : Program).Acceptable s := by
  constructor
  · obtain ⟨st, h⟩ : ∃ st, irGraph id exIrTwins = .ok st := ⟨_, rfl⟩
    exact (C121_ir_iff.mp ⟨st, h⟩).2.1
  · intro h
    have := h 1 (.directCall c!"nowhere") ⟨_, List.mem_cons_self, ⟨_, _, rfl, by decide, by rw [← isTag_iff]; decide⟩, by decide⟩
    rcases this.2 (by unfold IsIntrinsic; decide) with ⟨j, a, s, h1, h2, _⟩ | h1 | h1
    · match j, (List.getElem?_eq_some_iff.mp h1).1 with
      | 0, _ | 1, _ | 2, _ | 3, _ =>
        cases h1
        revert h2
        decide
    · revert h1
      decide
    · revert h1
      decide

/-- The hypotheses of `C121_orders` are met by functions that share a name: there is output for all orders of the types,
with the definitions in the reverse order. -/
example (search : TagSearch) (ord : HashOrder) : ∃ g' cycles',
    finalGraph id ord search { exIrTwins with defines := exIrTwins.defines.reverse } ⟨[], none⟩ none =
      .ok (g', cycles') ∧ g'.maxOf? 0 = some (.exact 48) := by
  obtain ⟨a1, _, a3, a4, a5, a6, a7⟩ := exIrTwins_ok
  obtain ⟨g, cycles, h, hm⟩ := finalGraph_eval (p := exIrTwins) rfl search ⟨[], none⟩ none
    (fun g _ => g.maxOf? 0 = some (.exact 48)) (by decide +kernel)
  have same : exIrTwins.Reordered { exIrTwins with defines := exIrTwins.defines.reverse } :=
    ⟨rfl, rfl, rfl, rfl, List.reverse_perm _, .refl _⟩
  obtain ⟨g', cycles', h', hall⟩ := C121_orders same a1 a3 a4 a5 a6 exIrTwins_oneVoid a7 (by simp [Elf.Fits32]) (noHash_of (by decide +kernel)) h ord
  exact ⟨g', cycles', h', (hall 0 (by decide)).2.2.trans hm⟩

end CallStack
