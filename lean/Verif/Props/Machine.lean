import Verif.Props.Build
import Verif.Proof.Final
import Verif.Proof.MachineRun
import Verif.Proof.Shared
import Verif.Spec.Code
import Verif.Proof.Markers
import Verif.Proof.Names

/-!
Properties C49-C51: what is done with the result of the machine code analysis.
-/

namespace CallStack

section run

variable {demangle : Str → Str} {ord : HashOrder} {search : TagSearch} {p : Program} {elf : Elf}
  {cs ext : List Str} {st0 stIr st : Build} {g : Graph}

theorem decoded_of {i : Nat} {e : Nat × Sym} {r : ThumbState} {stext : Nat} {text : List Nat}
    (he : p.defined[i]? = some e) (ht : elf.text = some (stext, text))
    (h : Analyzed search (p.target == .thumbv7m) (elfTags elf.symtab) stext text e r) :
    p.Decoded search elf i (e.1 % 2 ^ 32) (sizeOf' search (elfTags elf.symtab) e) r := by
  obtain ⟨bytes, h1, h2⟩ := h
  unfold textSlice at h1
  split at h1
  · simp at h1
  · split at h1
    · simp only [Except.ok.injEq] at h1
      subst h1
      exact decoded_iff.mpr ⟨e.1, e.2, stext, text, he, ht, rfl, rfl, by omega, by assumption, h2⟩
    · simp at h1

theorem analyzed_of {i address size : Nat} {e : Nat × Sym} {r : ThumbState} {stext : Nat}
    {text : List Nat} (he : p.defined[i]? = some e) (ht : elf.text = some (stext, text))
    (h : p.Decoded search elf i address size r) :
    Analyzed search (p.target == .thumbv7m) (elfTags elf.symtab) stext text e r ∧
      address = e.1 % 2 ^ 32 ∧ size = sizeOf' search (elfTags elf.symtab) e := by
  obtain ⟨a, s, stext', text', h1, h2, rfl, rfl, h5, h6, h7⟩ := decoded_iff.mp h
  rw [he] at h1
  rw [ht] at h2
  simp only [Option.some.injEq, Prod.mk.injEq] at h1 h2
  obtain ⟨rfl, rfl⟩ := h2
  subst h1
  refine ⟨⟨_, ?_, h7⟩, rfl, rfl⟩
  unfold textSlice sizeOf'
  rw [if_neg (by omega), if_pos h6]

theorem mem_calledAddrs {r : ThumbState} {address size t : Nat} :
    t ∈ calledAddrs r address size ↔ LeavesTo r address size t := by
  unfold calledAddrs blAddrs bAddrs LeavesTo
  simp only [List.mem_append, List.mem_map, List.mem_filter, decide_eq_true_eq]
  refine or_congr ?_ ?_
  · constructor
    · rintro ⟨off, h, rfl⟩
      exact ⟨off, h, by omega⟩
    · rintro ⟨off, h, h'⟩
      exact ⟨off, h, by omega⟩
  · constructor
    · rintro ⟨⟨off, h, rfl⟩, h'⟩
      exact ⟨off, h, by omega, by omega⟩
    · rintro ⟨off, h, h', h''⟩
      exact ⟨⟨off, h, by omega⟩, by omega⟩

theorem RunFacts.resolves (h : RunFacts demangle ord search p elf cs ext st0 stIr st g) {t j : Nat}
    (hr : Resolves stIr t j) : p.StartsAt j t := by
  obtain ⟨name, h1, h2⟩ := hr
  rw [h.ir.ir.addr] at h1
  obtain ⟨i, s, h3, h4⟩ := h.ir.sym.addr_some t name h1
  have h5 := (h.ir.ir.shape.idx name j).mp h2
  have h6 : (cs ++ ext)[i]? = some name := by
    rw [List.getElem?_append_left (List.getElem?_eq_some_iff.mp h4).1]; exact h4
  exact ⟨s, by rw [h.ir.inj h5 h6]; exact h3⟩

/-- **C49** On thumb targets every live function is decoded; every address that it calls or jumps to
outside of itself is the start of a live function (otherwise the tool aborts) and there is an edge to that
function; exactly one, unless the function also contains bitcast calls (`C31_bitcast_duplicates`). -/
theorem C49_jumps_are_calls (once : p.NamesOnce) (ht : p.target.isThumb = true) {stext : Nat}
    {text : List Nat} (hx : elf.text = some (stext, text))
    (h : callGraph demangle ord search p elf = .ok (st, g)) {i : Nat} (hi : i < p.defined.length) :
    ∃ address size r, p.Decoded search elf i address size r ∧
      ∀ t, LeavesTo r address size t → ∃ j, p.StartsAt j t ∧ g.Calls i j ∧
        ((∀ x, ¬ p.Contains i (.bitcastCall x)) → g.edges.count (i, j) = 1) := by
  obtain ⟨cs, ext, st0, stIr, f⟩ := callGraph_facts once h
  have m := f.machine_facts ht hx
  have he := List.getElem?_eq_getElem hi
  obtain ⟨c, i', r, h1, h2, h3, _⟩ := m.complete _ (List.mem_of_getElem? he)
  obtain ⟨rfl, hc⟩ := f.nodeOf once he h1
  refine ⟨_, _, r, decoded_of he hx h2, ?_⟩
  intro t hl
  obtain ⟨j, h4, h5⟩ := h3 t (mem_calledAddrs.mpr hl)
  have hj := f.resolves h4
  obtain ⟨void, out⟩ := f.void
  obtain ⟨es, h6, _⟩ := out.edges
  have hcall : g.Calls i' j := by
    unfold Graph.Calls
    rw [h6]
    simp [h5]
  refine ⟨j, hj, hcall, fun hb => ?_⟩
  have hle : g.edges.count (i', j) ≤ 1 := by
    refine C31_single_edge once h hb ?_
    intro k nd hk hnd
    have hlive : k < p.defined.length := by
      obtain ⟨s, hs⟩ := hj
      have := (List.getElem?_eq_some_iff.mp hs).1
      rcases hk with rfl | rfl <;> omega
    have hk : k < cs.length := by rw [f.ir.sym.len]; exact hlive
    have hk' : (cs ++ ext)[k]? = some cs[k] := by
      rw [List.getElem?_append_left hk, List.getElem?_eq_getElem hk]
    obtain ⟨nd', h7, _, h8, _⟩ := f.node hk'
    rw [hnd] at h7
    rw [Option.some.inj h7]
    exact h8
  have hpos : 0 < g.edges.count (i', j) := List.count_pos_iff.mpr hcall
  omega

/-- **C49** A jump to an address outside of the function that is not the start of a live function makes the
tool abort. -/
theorem C49_unknown_target_aborts (ht : p.target.isThumb = true) {i : Nat}
    {address size : Nat} {r : ThumbState} (hd : p.Decoded search elf i address size r) {t : Nat}
    (hl : LeavesTo r address size t) (hno : ∀ j, ¬ p.StartsAt j t) :
    ∃ e, callGraph demangle ord search p elf = .error e := by
  cases h : callGraph demangle ord search p elf with
  | error e => exact ⟨e, rfl⟩
  | ok x =>
    obtain ⟨st, g⟩ := x
    obtain ⟨cs, st0, stIr, f⟩ := callGraph_shared h
    have hd' := hd
    obtain ⟨a, s, stext, text, _, h1, h2, _⟩ := hd
    obtain ⟨k1, rfl, rfl⟩ := analyzed_of h1 h2 hd'
    obtain ⟨c, i', r', _, k2, h3, _⟩ := (f.loop stext text ht h2).2.complete _ (List.mem_of_getElem? h1)
    rw [k1.unique k2] at hl
    obtain ⟨j, ⟨name, h4, _⟩, _⟩ := h3 t (mem_calledAddrs.mpr hl)
    rw [f.ir.addr] at h4
    obtain ⟨j, y, h5, _⟩ := f.sym.addr_some t name h4
    exact absurd ⟨y, h5⟩ (hno j)

/-- **C49** (and C30 for thumb targets) Every edge is justified by the LLVM-IR, by a jump out of the
function, or by an indirect call of a function without LLVM-IR; or it involves a fictitious (dashed)
node. In particular jumps inside of a function add no edge. -/
theorem C49_edges_justified (once : p.NamesOnce)
    (h : callGraph demangle ord search p elf = .ok (st, g)) {a b : Nat} (hab : g.Calls a b) :
    (∃ s nd, p.Contains a s ∧ g.nodes[b]? = some nd ∧ p.Justifies s b nd.name) ∨
    (∃ address size r t, p.Decoded search elf a address size r ∧ LeavesTo r address size t ∧
      p.StartsAt b t) ∨
    (∃ address size r nd, p.Decoded search elf a address size r ∧ r.indirect = true ∧
      p.NoIr a ∧ g.nodes[b]? = some nd ∧ nd.name = c!"?" ∧ nd.loc = .unknown) ∨
    (∃ k nd, (k = a ∨ k = b) ∧ g.nodes[k]? = some nd ∧ nd.dashed = true) := by
  obtain ⟨cs, ext, st0, stIr, f⟩ := callGraph_facts once h
  have hir : (a, b) ∈ stIr.g.edges →
      ∃ s nd, p.Contains a s ∧ g.nodes[b]? = some nd ∧ p.Justifies s b nd.name := by
    intro h1
    obtain ⟨s, nd, h4, h5, h6⟩ := C30_edges_justified once f.irOk h1
    have hb : b < (cs ++ ext).length := by
      rw [← irFacts_length f.ir]; exact (List.getElem?_eq_some_iff.mp h5).1
    obtain ⟨nd0, nd', k1, k2, k3⟩ := f.machine.old b hb
    rw [h5] at k1
    refine ⟨s, nd', h4, ?_, ?_⟩
    · rw [f.node_st (List.getElem?_eq_some_iff.mp k2).1]; exact k2
    · rw [k3, ← Option.some.inj k1]; exact h6
  rcases f.edge_cases hab with h1 | ⟨k, void, e, _, _, _, h2, h3⟩
  · rcases f.ran with hq | hr
    · rw [hq] at h1
      exact Or.inl (hir h1)
    · obtain ⟨stext, text, ht, m⟩ := hr.facts
      rcases m.sound _ h1 with h2 | ⟨e, he, c, r, h3, h4, h5⟩
      · exact Or.inl (hir h2)
      · obtain ⟨j, hj⟩ := List.getElem?_of_mem he
        obtain ⟨hja, hc⟩ := f.nodeOf once hj h3
        simp only at hja
        subst hja
        have hd := decoded_of hj ht h4
        rcases h5 with ⟨t, h5, h6⟩ | ⟨h5, h6, h7, _⟩
        · exact Or.inr (Or.inl ⟨_, _, r, t, hd, mem_calledAddrs.mp h5, f.resolves h6⟩)
        · refine Or.inr (Or.inr (Or.inl ⟨_, _, r, questionNode, hd, h6, ?_, ?_, rfl, rfl⟩))
          · intro d hd1 hd2
            exact h5 ((f.ir.defined c).mpr ⟨d, hd1, (f.ir.live d.name c a hc).mpr hd2⟩)
          · rw [f.node_st (List.getElem?_eq_some_iff.mp h7).1]; exact h7
  · exact Or.inr (Or.inr (Or.inr ⟨k, _, h2, h3.node, rfl⟩))

/-! ### C50 -/

theorem bne_decide {P : Prop} [Decidable P] (b : Bool) : (decide P != b) = false ↔ (P ↔ b = true) := by
  by_cases h : P <;> cases b <;> simp [h]

theorem ne_decide {k : Nat} {b : Bool} (h : k ≠ 0 ↔ b = true) : ¬ decide (k = 0) = b := by
  by_cases hk : k = 0 <;> cases b <;> simp_all

/-- **C50** The choice between the two figures, and when the tool refuses. -/
theorem C50_override_policy (llvm : Option Nat) (ours : Option Nat) (sp asm outlined : Bool) (l : Local) :
    overrideLocal (match llvm with | some n => .exact n | none => .unknown) ours sp asm outlined = .ok l ↔
      LocalPolicy (sp = true) (asm = true) (outlined = true) llvm ours l := by
  unfold overrideLocal overrideExact
  constructor
  · intro h
    rcases llvm with _ | n <;> rcases ours with _ | k
    · simp only [Option.any_none, Bool.false_eq_true, if_false] at h
      cases sp
      · simp only [Bool.not_false, if_true, Except.ok.injEq] at h
        subst h
        exact .zero (by simp)
      · simp only [Bool.not_true, Bool.false_eq_true, if_false, Except.ok.injEq] at h
        subst h
        exact .giveUp rfl
    · simp only [Option.any_some] at h
      split at h
      · simp at h
      · rename_i h1
        simp only [Except.ok.injEq] at h
        subst h
        exact .ours k ((bne_decide sp).mp (by simpa using h1))
    · simp only [Option.any_none, Bool.false_eq_true, if_false] at h
      split at h
      · simp at h
      · rename_i h1
        simp only [Except.ok.injEq] at h
        subst h
        exact .only n ((bne_decide sp).mp (by simpa using h1))
    · simp only [Option.any_some] at h
      split at h
      · simp at h
      · rename_i h1
        have hk : k ≠ 0 ↔ sp = true := (bne_decide sp).mp (by simpa using h1)
        have fin : ∀ m, (if (decide (m ≠ 0) != sp) = true then Except.error Panic.llvmVsSp
            else Except.ok (Local.exact m)) = Except.ok l → (m ≠ 0 ↔ sp = true) ∧ l = .exact m := by
          intro m hm
          split at hm
          · simp at hm
          · rename_i h2
            simp only [Except.ok.injEq] at hm
            exact ⟨(bne_decide sp).mp (by simpa using h2), hm.symm⟩
        by_cases c1 : n ≠ k ∧ asm = true
        · rw [if_pos c1] at h
          obtain ⟨h3, rfl⟩ := fin k h
          exact .asm n k c1.1 c1.2 h3
        · rw [if_neg c1] at h
          by_cases c2 : outlined = true
          · rw [if_pos c2] at h
            by_cases c3 : n = 0 ∧ k ≠ n
            · rw [if_pos c3] at h
              obtain ⟨h3, rfl⟩ := fin k h
              obtain ⟨rfl, c4⟩ := c3
              exact .outlinedZero k c4 (fun ha => c1 ⟨fun e => c4 e.symm, ha⟩) c2 (h3.mp c4)
            · rw [if_neg c3] at h
              obtain ⟨h3, rfl⟩ := fin n h
              by_cases c4 : n = k
              · subst c4
                exact .agree n h3
              · have c5 : n ≠ 0 := fun e => c3 ⟨e, fun e' => c4 e'.symm⟩
                exact .outlined n k c4 c5 (hk.mpr (h3.mp c5)) (fun ha => c1 ⟨c4, ha⟩) c2 (h3.mp c5)
          · rw [if_neg c2] at h
            by_cases c4 : n = k
            · rw [if_pos c4] at h
              obtain ⟨h3, rfl⟩ := fin n h
              subst c4
              exact .agree n h3
            · rw [if_neg c4] at h
              simp at h
  · intro h
    cases h with
    | ours k h => simp [ne_decide h]
    | zero h => simp only [Bool.not_eq_true] at h; simp [h]
    | giveUp h => simp [h]
    | only n h => simp [ne_decide h]
    | agree n h => cases outlined <;> simp [ne_decide h]
    | asm n k h1 h2 h3 => simp [ne_decide h3, h1, h2]
    | outlinedZero k h1 h2 h3 h4 =>
      simp only [Bool.not_eq_true] at h2
      simp [h1, h2, h3, h4]
    | outlined n k h1 h2 h3 h4 h5 h6 =>
      simp only [Bool.not_eq_true] at h4
      simp [h2, h3, h4, h5, h6]

/-- **C50** in the finished call graph: the local usage of every live function follows the policy, with
the compiler's figure, the decoded machine code, inline assembly in any definition of the function, and
the outliner's naming scheme. -/
theorem C50_in_call_graph (once : p.NamesOnce) (ht : p.target.isThumb = true) {stext : Nat}
    {text : List Nat} (hx : elf.text = some (stext, text))
    (h : callGraph demangle ord search p elf = .ok (st, g)) {i : Nat} (hi : i < p.defined.length) :
    ∃ address size r llvm name, p.Decoded search elf i address size r ∧ p.FrameOpt i llvm ∧
      p.Principal i name ∧
      LocalPolicy (r.modifiesSp = true) (∃ x, p.Contains i (.asm x)) (OutlinedName name) llvm r.stack
        (g.locOf i) := by
  obtain ⟨cs, ext, st0, stIr, f⟩ := callGraph_facts once h
  have m := f.machine_facts ht hx
  have he := List.getElem?_eq_getElem hi
  obtain ⟨c, i', r, nd, nd', h1, h2, h3, h4, h5⟩ :=
    m.loc (f.nodes_distinct once) _ (List.mem_of_getElem? he)
  obtain ⟨rfl, hc⟩ := f.nodeOf once he h1
  have hnd := f.llvm_local hc
  rw [h3] at hnd
  have hloc : nd.loc = match mget c p.stackSizes with | some n => .exact n | none => .unknown := by
    rw [Option.some.inj hnd]
    rfl
  rw [hloc] at h5
  have h6 := (C50_override_policy _ _ _ _ _ _).mp h5
  have hg : g.locOf i' = nd'.loc := by
    unfold Graph.locOf
    rw [f.node_st (List.getElem?_eq_some_iff.mp h4).1, h4]
  have hcan := f.ir.sym.canon i' _ c he hc
  have hframe : ∀ k, mget c p.stackSizes = some k ↔ p.Frame i' k :=
    fun k => (frame_iff he hcan k).symm
  refine ⟨_, _, r, mget c p.stackSizes, c, decoded_of he hx h2, ?_, ?_, ?_⟩
  · cases hm : mget c p.stackSizes with
    | none =>
      intro k hk
      rw [(hframe k).mpr hk] at hm
      simp at hm
    | some k => exact (hframe k).mp hm
  · exact (principal_iff he hcan c).mpr rfl
  · have ha := f.ir.asm_iff hc
    rw [hg]
    rw [ha, isOutlined_iff] at h6
    exact h6

/-! ### C51 -/

/-- **C51** A function that the LLVM-IR does not define and that performs an indirect call gets an edge to
a node with unknown usage, so neither it nor any function that reaches it is printed with an exact max. -/
theorem C51_indirect_without_ir (once : p.NamesOnce) (sizes : p.SizesU64) (fits : elf.Fits32)
    (ht : p.target.isThumb = true) {i address size : Nat} {r : ThumbState}
    (hd : p.Decoded search elf i address size r) (hind : r.indirect = true) (hno : p.NoIr i)
    {g' : Graph} {cycles : List (List Nat)}
    (h : finalGraph demangle ord search p elf none = .ok (g', cycles)) {v : Nat}
    (hr : Reach g'.Calls v i) (n : Nat) : g'.maxOf? v ≠ some (.exact n) := by
  obtain ⟨st, g, h1, h2⟩ := finalGraph_facts h
  obtain ⟨cs, ext, st0, stIr, f⟩ := callGraph_facts once h1
  have hu := f.u64 once sizes fits
  have hd' := hd
  obtain ⟨a, s, stext, text, _, he, hx, _⟩ := hd
  have m := f.machine_facts ht hx
  obtain ⟨c, i', r', k1, k2, _, k3⟩ := m.complete _ (List.mem_of_getElem? he)
  obtain ⟨rfl, hc⟩ := f.nodeOf once he k1
  obtain ⟨k4, _⟩ := analyzed_of he hx hd'
  rw [k4.unique k2] at hind
  have hnd : c ∉ stIr.defined := by
    intro hm
    obtain ⟨d, hd1, hd2⟩ := (f.ir.defined c).mp hm
    exact hno d hd1 ((f.ir.live d.name c i' hc).mp hd2)
  obtain ⟨k, _, h3, h4⟩ := k3 hnd hind
  obtain ⟨void, out⟩ := f.void
  obtain ⟨es, h6, _⟩ := out.edges
  have hcall : g'.Calls i' k := by
    rw [(h2.calls f.wf hu).1]
    unfold Graph.Calls
    rw [h6]
    simp [h4]
  refine h2.inexact f hu (hr.tail hcall) (u := k) ?_ n
  unfold Graph.locOf
  rw [f.node_st (List.getElem?_eq_some_iff.mp h3).1, h3]
  rfl

end run

/-! ### an example -/

/-- `main` pushes 8 bytes and calls `f`, which is written in assembly and calls through a register. -/
def exThumb : Program :=
  { target := .thumbv7m
    defined := [(256, ⟨[c!"main"], 8⟩), (264, ⟨[c!"f"], 4⟩)]
    undefined := []
    stackSizes := [(c!"main", 8)]
    defines := [⟨c!"main", exSig, [.directCall c!"f"]⟩]
    declares := [] }

/-- push {r7, lr}; bl f; pop {r7, pc}; blx r0; bx lr -/
def exThumbElf : Elf :=
  { symtab := [(256, c!"$t"), (264, c!"$t")]
    text := some (256, [0x80, 0xB5, 0x00, 0xF0, 0x01, 0xF8, 0x80, 0xBD, 0x80, 0x47, 0x70, 0x47]) }

/-- The hypotheses of C49-C51 are met. -/
example : exThumb.target.isThumb = true ∧ exThumb.NamesOnce ∧ exThumbElf.Fits32 ∧
    exThumb.Decoded linearSearch exThumbElf 0 256 8 ⟨[8], [], false, true, some 8⟩ ∧
    LeavesTo ⟨[8], [], false, true, some 8⟩ 256 8 264 ∧ exThumb.StartsAt 1 264 ∧
    exThumb.Decoded linearSearch exThumbElf 1 264 4 ⟨[], [], true, false, some 0⟩ ∧ exThumb.NoIr 1 ∧
    exThumb.Frame 0 8 ∧
    (finalGraph id sameOrder linearSearch exThumb exThumbElf none).toOption.map
      (fun x => (x.1.nodes.map (fun nd => (nd.loc, nd.max)), x.1.edges)) =
        some ([(.exact 8, some (.lowerBound 8)), (.exact 0, some (.lowerBound 0)),
          (.unknown, some (.lowerBound 0))], [(0, 1), (1, 2)]) := by
  refine ⟨rfl, namesOnce_of (by decide), ?_, ?_, ?_, ⟨_, rfl⟩, ?_, ?_, ?_, by decide +kernel⟩
  · rintro a b h
    simp only [exThumbElf, Option.some.injEq, Prod.mk.injEq] at h
    rw [← h.2]
    decide
  · exact decoded_iff.mpr ⟨_, _, _, _, rfl, rfl, rfl, by decide +kernel, by decide, by decide, by decide +kernel⟩
  · exact Or.inl ⟨8, by simp, by decide⟩
  · exact decoded_iff.mpr ⟨_, _, _, _, rfl, rfl, rfl, by decide +kernel, by decide, by decide, by decide +kernel⟩
  · intro d hd
    simp only [exThumb, List.mem_singleton] at hd
    subst hd
    rintro ⟨a, s, h1, h2, _⟩
    simp only [exThumb, List.getElem?_cons_succ, List.getElem?_cons_zero, Option.some.injEq,
      Prod.mk.injEq] at h1
    rw [← h1.2] at h2
    revert h2
    decide
  · refine ⟨_, _, [], _, [], rfl, rfl, ?_, rfl, by simp⟩
    rw [← isTag_iff]; decide

end CallStack
