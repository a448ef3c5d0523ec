import Verif.Props.SharedEdges
import Verif.Props.Thumb
import Verif.Proof.SharedExec

/-!
Properties C42, C49 and C51 of programs in which several functions may have the same names.
-/

namespace CallStack

variable {demangle : Str → Str} {ord : HashOrder} {search : TagSearch} {p : Program} {elf : Elf}

/-- **C49** On thumb targets the machine code of every live function is decoded, also that of functions hidden by a later
one with the same names. Each address that it calls or jumps to outside of itself is the start of a live function, and
there is an edge between the last functions with the names of both; exactly one, unless one of the functions with the
names of the caller contains bitcast calls. -/
theorem C49_jumps_are_calls_shared (alike : p.NamesAlike) (ht : p.target.isThumb = true) {stext : Nat}
    {text : List Nat} (hx : elf.text = some (stext, text)) {st : Build} {g : Graph}
    (h : callGraph demangle ord search p elf = .ok (st, g)) {i : Nat} (hi : i < p.defined.length) :
    ∃ address size r a, p.Decoded search elf i address size r ∧ p.LastOf i a ∧
      ∀ t, LeavesTo r address size t → ∃ j b, p.StartsAt j t ∧ p.LastOf j b ∧ g.Calls a b ∧
        ((∀ i', p.LastOf i' a → ∀ x, ¬ p.Contains i' (.bitcastCall x)) → g.edges.count (a, b) = 1) := by
  obtain ⟨cs, st0, stIr, f⟩ := callGraph_shared h
  have he := List.getElem?_eq_getElem hi
  obtain ⟨c, a, r, h1, h2, h3, _⟩ := (f.loop stext text ht hx).2.complete _ (List.mem_of_getElem? he)
  obtain ⟨hc, hla⟩ := f.nodeOf alike he h1
  refine ⟨_, _, r, a, decoded_of he hx h2, hla, fun t hl => ?_⟩
  obtain ⟨b, h4, h5⟩ := h3 t (mem_calledAddrs.mpr hl)
  obtain ⟨j, hj, hlj⟩ := f.resolves_last alike h4
  have hcall : g.Calls a b := f.edge_machine h5
  refine ⟨j, b, hj, hlj, hcall, fun hb => ?_⟩
  have hle : g.edges.count (a, b) ≤ 1 := by
    refine C31_single_edge_shared alike h hb ?_
    intro k nd hk hnd
    have hlive : k < cs.length := by
      rw [f.sym.len]
      obtain ⟨_, _, _, _, _, ha, _⟩ := hla
      obtain ⟨_, _, _, _, _, hb, _⟩ := hlj
      rcases hk with rfl | rfl
      · exact (List.getElem?_eq_some_iff.mp ha).1
      · exact (List.getElem?_eq_some_iff.mp hb).1
    obtain ⟨nd', h7, _, h8, _⟩ := f.live_node (List.getElem?_eq_getElem hlive)
    rw [hnd] at h7
    rw [Option.some.inj h7]
    exact h8
  have hpos : 0 < g.edges.count (a, b) := List.count_pos_iff.mpr hcall
  omega

/-- **C42**, **C43** The same in terms of the instructions: a `bl` and a branch out of the function make an edge from
the last function with the names of the one that contains them to the last one with the names of the one they go to. -/
theorem C42_edges_shared (alike : p.NamesAlike) (ht : p.target.isThumb = true) {st : Build} {g : Graph}
    (h : callGraph demangle ord search p elf = .ok (st, g)) {i address : Nat} {items : List CodeItem}
    (hc : p.HasCode search elf i address items) {pos t : Nat} {ins : Instr} {off : Int}
    (hi : InstrAt items pos ins) (hto : (t : Int) = address + pos + 4 + off)
    (hk : (ins = .bl off ∧ t < 2 ^ 64) ∨
      (ins.IsBranch off ∧ t < 2 ^ 32 ∧ (t < address ∨ address + (codeBytes items).length ≤ t))) :
    ∃ j a b, p.StartsAt j t ∧ p.LastOf i a ∧ p.LastOf j b ∧ g.Calls a b := by
  have hd := hc.decoded
  have hfit : CodeFits (p.target == .thumbv7m) (elfTags elf.symtab) address items := by
    obtain ⟨_, _, _, _, _, _, _, _, hm, _, _, _, _, hf⟩ := hc
    exact markers_iff.mp hm ▸ hf
  have hres := thumbAnalyze_eq (search := search) hfit.sorted hfit.valid hfit.tags
  obtain ⟨_, s, stext, text, _, he, hx, _⟩ := id hd
  obtain ⟨address', size', r', a, hd', hla, hall⟩ :=
    C49_jumps_are_calls_shared alike ht hx h (List.getElem?_eq_some_iff.mp he).1
  obtain ⟨k1, e1, e2⟩ := analyzed_of he hx hd
  obtain ⟨k2, e1', e2'⟩ := analyzed_of he hx hd'
  have hr := k1.unique k2
  subst hr
  rw [e1', ← e1, e2', ← e2] at hall
  have hl : LeavesTo (codeFacts items) address (codeBytes items).length t := by
    rcases hk with ⟨rfl, h64⟩ | ⟨hb, h32, hout⟩
    · left
      refine ⟨_, (C42_bl_targets hfit hres _).mpr ⟨pos, off, hi, rfl⟩, ?_⟩
      rw [show (address : Int) + (pos + 4 + off) = t by omega]
      omega
    · right
      refine ⟨_, (C43_b_targets_partial hfit hres _).mpr ⟨pos, ins, off, hi, hb, rfl⟩, ?_, hout⟩
      rw [show (address : Int) + (pos + 4 + off) = t by omega]
      omega
  obtain ⟨j, b, h1, h2, h3, _⟩ := hall t hl
  exact ⟨j, a, b, h1, hla, h2, h3⟩

/-- **C51** A function that the LLVM-IR does not define and that performs an indirect call makes the max of the last
function with its names, and of every function that reaches that one, inexact. -/
theorem C51_indirect_without_ir_shared (alike : p.NamesAlike) (sizes : p.SizesU64) (fits : elf.Fits32)
    (ht : p.target.isThumb = true) {i address size : Nat} {r : ThumbState}
    (hd : p.Decoded search elf i address size r) (hind : r.indirect = true) (hno : p.NoIr i)
    {g' : Graph} {cycles : List (List Nat)}
    (h : finalGraph demangle ord search p elf none = .ok (g', cycles)) {v a : Nat} (hla : p.LastOf i a)
    (hr : Reach g'.Calls v a) (n : Nat) : g'.maxOf? v ≠ some (.exact n) := by
  intro hv
  obtain ⟨st, g, h1, h2⟩ := finalGraph_facts h
  obtain ⟨cs, st0, stIr, f⟩ := callGraph_shared h1
  obtain ⟨a', k, h3, h4, h5⟩ := f.question alike ht hd hind hno
  obtain rfl := hla.unique h3
  rw [(h2.calls f.wf (f.u64 sizes fits)).1] at hr
  obtain ⟨l, h6, h7⟩ := (hr.tail h4).chain_mem
  have := (f.exact sizes fits h2 hv h6).1 k h7
  rw [h5] at this
  exact this

/-- Like `exThumb`, with a second function `f` that just returns. -/
def exThumbTwin : Program :=
  { exThumb with defined := [(256, ⟨[c!"main"], 8⟩), (264, ⟨[c!"f"], 4⟩), (268, ⟨[c!"f"], 2⟩)] }

def exThumbTwinElf : Elf :=
  { symtab := [(256, c!"$t"), (264, c!"$t"), (268, c!"$t")]
    text := some (256, [0x80, 0xB5, 0x00, 0xF0, 0x01, 0xF8, 0x80, 0xBD, 0x80, 0x47, 0x70, 0x47, 0x70, 0x47]) }

/-- The hypotheses are met. `main` calls the first function `f`, which calls through a register; both edges are those of
the second one. -/
example : exThumbTwin.target.isThumb = true ∧ exThumbTwin.NamesAlike ∧ ¬ exThumbTwin.NamesOnce ∧
    exThumbTwinElf.Fits32 ∧
    exThumbTwin.Decoded linearSearch exThumbTwinElf 0 256 8 ⟨[8], [], false, true, some 8⟩ ∧
    LeavesTo ⟨[8], [], false, true, some 8⟩ 256 8 264 ∧ exThumbTwin.StartsAt 1 264 ∧ exThumbTwin.LastOf 1 2 ∧
    exThumbTwin.Decoded linearSearch exThumbTwinElf 1 264 4 ⟨[], [], true, false, some 0⟩ ∧ exThumbTwin.NoIr 1 ∧
    (finalGraph id sameOrder linearSearch exThumbTwin exThumbTwinElf none).toOption.map
      (fun x => (x.1.nodes.map (fun nd => (nd.loc, nd.max)), x.1.edges)) =
        some ([(.exact 8, some (.lowerBound 8)), (.unknown, some (.lowerBound 0)),
          (.exact 0, some (.lowerBound 0)), (.unknown, some (.lowerBound 0))], [(0, 2), (2, 3)]) := by
  refine ⟨rfl, ?_, ?_, ?_, ?_, ?_, ⟨_, rfl⟩, ?_, ?_, ?_, by decide +kernel⟩
  · rintro (_ | _ | _ | i) (_ | _ | _ | j) a s b t n h1 h2 ⟨h3, _⟩ ⟨h4, _⟩ <;>
      simp [exThumbTwin] at h1 h2 <;> obtain ⟨rfl, rfl⟩ := h1 <;> obtain ⟨rfl, rfl⟩ := h2 <;>
      simp at h3 h4 ⊢ <;> subst h3 <;> simp at h4
  · intro h
    have := h c!"f" 1 2 ⟨_, _, rfl, by decide, by rw [← isTag_iff]; decide⟩
      ⟨_, _, rfl, by decide, by rw [← isTag_iff]; decide⟩
    omega
  · rintro a b h
    simp only [exThumbTwinElf, Option.some.injEq, Prod.mk.injEq] at h
    rw [← h.2]
    decide
  · exact decoded_iff.mpr ⟨_, _, _, _, rfl, rfl, rfl, by decide +kernel, by decide, by decide, by decide +kernel⟩
  · exact Or.inl ⟨8, by simp, by decide⟩
  · refine ⟨_, _, _, _, rfl, rfl, rfl, ?_⟩
    rintro (_ | _ | _ | k) c u hk hu
    · omega
    · omega
    · omega
    · simp [exThumbTwin] at hu
  · exact decoded_iff.mpr ⟨_, _, _, _, rfl, rfl, rfl, by decide +kernel, by decide, by decide, by decide +kernel⟩
  · intro d hd
    simp only [exThumbTwin, exThumb, List.mem_singleton] at hd
    subst hd
    rintro ⟨a, s, h1, h2, _⟩
    simp only [exThumbTwin, List.getElem?_cons_succ, List.getElem?_cons_zero, Option.some.injEq,
      Prod.mk.injEq] at h1
    rw [← h1.2] at h2
    revert h2
    decide

end CallStack
