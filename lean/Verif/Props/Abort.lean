import Verif.Props.Machine
import Verif.Proof.MachineOk
import Verif.Proof.Examples

/-!
Properties C74 and C75: when the tool aborts.
-/

namespace CallStack

section run

variable {demangle : Str → Str} {ord : HashOrder} {search : TagSearch} {p : Program} {elf : Elf}
  {cs ext : List Str} {st0 stIr : Build}

theorem IrFacts.resolves_iff (h : IrFacts demangle p cs ext st0 stIr) (t : Nat) :
    (∃ j, Resolves stIr t j) ↔ ∃ j, p.StartsAt j t := by
  constructor
  · rintro ⟨j, name, h1, _⟩
    rw [h.ir.addr] at h1
    obtain ⟨i, s, h3, _⟩ := h.sym.addr_some t name h1
    exact ⟨i, s, h3⟩
  · rintro ⟨j, s, h1⟩
    have h2 := h.sym.addr_ne j _ h1
    rw [← h.ir.addr] at h2
    obtain ⟨c, hc⟩ := Option.ne_none_iff_exists'.mp h2
    have hc' := hc
    rw [h.ir.addr] at hc'
    obtain ⟨i, s', _, h4⟩ := h.sym.addr_some t c hc'
    refine ⟨i, c, hc, (h.ir.shape.idx c i).mpr ?_⟩
    rw [List.getElem?_append_left (List.getElem?_eq_some_iff.mp h4).1]
    exact h4

theorem frameOpt_iff {i : Nat} {e : Nat × Sym} {c : Str} (he : p.defined[i]? = some e)
    (hc : canonicalOf p.stackSizes (realNames e.2) = .ok c) (llvm : Option Nat) :
    p.FrameOpt i llvm ↔ llvm = mget c p.stackSizes := by
  have hframe := frame_iff he hc
  cases llvm with
  | some k =>
    simp only [Program.FrameOpt, hframe]
    exact eq_comm
  | none =>
    simp only [Program.FrameOpt, hframe]
    cases mget c p.stackSizes with
    | none => simp
    | some k => simp

/-- What the tool needs of the code of a function, in terms of the state before the pass. -/
theorem IrFacts.codeOk_iff (h : IrFacts demangle p cs ext st0 stIr) (once : p.NamesOnce) {i : Nat}
    {e : Nat × Sym} (he : p.defined[i]? = some e) {stext : Nat} {text : List Nat}
    (hx : elf.text = some (stext, text)) :
    p.CodeOk search elf i ↔ ∃ c k r nd loc, NodeOf stIr e c k ∧
      Analyzed search (p.target == .thumbv7m) (elfTags elf.symtab) stext text e r ∧
      stIr.g.nodes[k]? = some nd ∧
      overrideLocal nd.loc r.stack r.modifiesSp (stIr.asmFns.contains c) (isOutlined c) = .ok loc ∧
      ∀ addr ∈ calledAddrs r (e.1 % 2 ^ 32) (sizeOf' search (elfTags elf.symtab) e),
        ∃ j, Resolves stIr addr j := by
  obtain ⟨c, hc⟩ := h.sym.idx_lt he
  have hcan := h.sym.canon i e c he hc
  have hnd := h.llvm_local hc
  have hpol : ∀ (r : ThumbState) loc, overrideLocal (mkNode c (mget c p.stackSizes) false).loc r.stack
      r.modifiesSp (stIr.asmFns.contains c) (isOutlined c) = .ok loc ↔
      LocalPolicy (r.modifiesSp = true) (∃ x, p.Contains i (.asm x)) (OutlinedName c)
        (mget c p.stackSizes) r.stack loc := by
    intro r loc
    have := C50_override_policy (mget c p.stackSizes) r.stack r.modifiesSp (stIr.asmFns.contains c)
      (isOutlined c) loc
    rw [h.asm_iff hc, isOutlined_iff] at this
    exact this
  constructor
  · rintro ⟨⟨a, s, first, rest, h1, h2, h3⟩, address, size, r, llvm, name, loc, h4, h5, h6, h7, h8⟩
    rw [he] at h1
    rw [Option.some.inj h1] at he hcan ⊢
    obtain ⟨k1, rfl, rfl⟩ := analyzed_of he hx h4
    rw [(frameOpt_iff he hcan llvm).mp h5, (principal_iff he hcan name).mp h6] at h7
    have hmem : first ∈ realNames s := by
      rw [mem_realNames]
      exact ⟨by rw [h2]; exact List.mem_cons_self, h3⟩
    have hal : mget first stIr.aliases = some c := by
      rw [h.ir.aliases]
      exact (h.live first c i hc).mpr ((liveAt_iff p first i).mpr ⟨_, he, hmem⟩)
    have hidx : mget c stIr.indices = some i := by
      refine (h.ir.shape.idx c i).mpr ?_
      rw [List.getElem?_append_left (List.getElem?_eq_some_iff.mp hc).1]
      exact hc
    refine ⟨c, i, r, _, loc, ⟨first, rest, h2, hal, hidx⟩, k1, hnd, (hpol r loc).mpr h7, ?_⟩
    intro addr ha
    exact (h.resolves_iff addr).mpr (h8 addr (mem_calledAddrs.mp ha))
  · rintro ⟨c', k, r, nd, loc, h1, h2, h3, h4, h5⟩
    obtain ⟨rfl, hc'⟩ := h.nodeOf once he h1
    rw [hc] at hc'
    obtain rfl := Option.some.inj hc'
    rw [hnd] at h3
    obtain rfl := Option.some.inj h3
    refine ⟨?_, _, _, r, _, c, loc, decoded_of he hx h2, (frameOpt_iff he hcan _).mpr rfl,
      (principal_iff he hcan c).mpr rfl, (hpol r loc).mp h4, ?_⟩
    · obtain ⟨first, rest, k1, k2, _⟩ := h1
      refine ⟨e.1, e.2, first, rest, he, k1, ?_⟩
      rw [h.ir.aliases] at k2
      obtain ⟨i', e', _, _, k5⟩ := h.sym.aliases_some first c k2
      exact ((mem_realNames _ _).mp k5).2
    · intro t ht
      exact (h.resolves_iff t).mp (h5 t (mem_calledAddrs.mpr ht))

/-- **C74** On thumb targets the call graph is built without aborting exactly when the pass over the
LLVM-IR succeeds and the code of every live function is fit: its first symbol name is not a mapping
symbol, its bytes lie in the code section and can be decoded, the figures of the compiler and of the
machine code can be reconciled, and all its jumps go to starts of live functions. -/
theorem C74_machine_abort_iff (once : p.NamesOnce) (ht : p.target.isThumb = true) {stext : Nat}
    {text : List Nat} (hx : elf.text = some (stext, text)) :
    (∃ out, callGraph demangle ord search p elf = .ok out) ↔
      (∃ st, irGraph demangle p = .ok st) ∧ ∀ i, i < p.defined.length → p.CodeOk search elf i := by
  constructor
  · rintro ⟨⟨st, g⟩, h⟩
    obtain ⟨cs, ext, st0, stIr, f⟩ := callGraph_facts once h
    refine ⟨⟨stIr, f.irOk⟩, fun i hi => ?_⟩
    have m := f.machine_facts ht hx
    have he := List.getElem?_eq_getElem hi
    refine (f.ir.codeOk_iff once he hx).mpr ?_
    obtain ⟨c, k, r, nd, nd', h1, h2, h3, _, h5⟩ :=
      m.loc (f.nodes_distinct once) _ (List.mem_of_getElem? he)
    obtain ⟨c', k', r', n1, n2, n3, _⟩ := m.complete _ (List.mem_of_getElem? he)
    obtain ⟨rfl, rfl⟩ := h1.unique n1
    rw [h2.unique n2] at h5
    exact ⟨c, k, r', nd, nd'.loc, n1, n2, h3, h5, fun a ha => (n3 a ha).imp fun _ hj => hj.1⟩
  · rintro ⟨⟨stIr, hir⟩, hok⟩
    obtain ⟨cs, ext, st0, f⟩ := irGraph_facts once hir
    have hidx : ∀ (n : Str) (k : Nat), mget n stIr.indices = some k → k < (cs ++ ext).length :=
      fun n k hk => f.ir.shape.lt hk
    have inv : MachineInv (cs ++ ext).length stIr stIr := by
      refine MachineInv.init (irFacts_length f) ?_ f.ir.shape.seen
      intro x hx
      have := f.ir.shape.wf x hx
      simp only [List.length_append] at this ⊢
      omega
    obtain ⟨st, hs⟩ := machineLoop_of (search := search) (v7 := p.target == .thumbv7m)
      (tags := elfTags elf.symtab) (stext := stext) (text := text) hidx p.defined inv
      (f.nodes_distinct once) (fun e he => by
        obtain ⟨i, hi⟩ := List.getElem?_of_mem he
        exact (f.codeOk_iff once hi hx).mp (hok i (List.getElem?_eq_some_iff.mp hi).1))
    refine ⟨(st, addIndirects ord st), ?_⟩
    unfold callGraph machinePass
    simp only [hir, ht, if_true, hx, hs]

end run

/-- One function at address 256 with the given names, compiler figure, tags and code. -/
def oneFn (names : List Str) (stackSizes : List (Str × Nat)) : Program :=
  { target := .thumbv7m
    defined := [(256, ⟨names, 4⟩)]
    undefined := []
    stackSizes := stackSizes
    defines := []
    declares := [] }

def oneElf (tags : List (Nat × Str)) (text : List Nat) : Elf :=
  { symtab := tags, text := some (256, text) }

/-- The first error of a run up to the call graph. -/
def abortOf (p : Program) (elf : Elf) : Option Panic :=
  match callGraph id sameOrder linearSearch p elf with
  | .error e => some e
  | .ok _ => none

/-- **C74** Each reason is real, here for a function of two instructions. -/
theorem C74_reasons :
    -- `push {r7, lr}; bx lr` with the right figure does not abort
    abortOf (oneFn [c!"f"] [(c!"f", 8)]) (oneElf [(256, c!"$t")] [0x80, 0xB5, 0x70, 0x47]) = none ∧
    -- a mapping symbol comes first in the list of names
    abortOf (oneFn [c!"$a", c!"f"] []) (oneElf [] [0x70, 0x47, 0x70, 0x47]) =
      some (.missingKey c!"$a") ∧
    -- the code reaches beyond the section `.text`
    abortOf (oneFn [c!"f"] []) (oneElf [] [0x70, 0x47]) = some .sliceRange ∧
    -- one data region follows another
    abortOf (oneFn [c!"f"] []) (oneElf [(256, c!"$d"), (258, c!"$d")] [0x70, 0x47, 0x70, 0x47]) =
      some .expectedThumbTag ∧
    -- the second half of an instruction is missing
    abortOf (oneFn [c!"f"] []) (oneElf [] [0x70, 0x47, 0x00, 0xF0]) = some .unknownInstruction ∧
    -- `sub sp, #0` modifies SP, but by nothing
    abortOf (oneFn [c!"f"] []) (oneElf [] [0x80, 0xB0, 0x70, 0x47]) = some .stackVsSp ∧
    -- the compiler's figure is not the one found in the code
    abortOf (oneFn [c!"f"] [(c!"f", 8)]) (oneElf [] [0x70, 0x47, 0x70, 0x47]) = some .llvmVsOurs ∧
    -- `b` to the end of the function, where no function starts
    abortOf (oneFn [c!"f"] []) (oneElf [] [0x00, 0xE0, 0x70, 0x47]) = some (.noSymbolAt 260) := by
  decide +kernel

end CallStack
