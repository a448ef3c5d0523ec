import Verif.Proof.Exec

/-!
Property C94: the printed max of a Thumb program bounds the stack in use in every execution.
`Spec/Exec.lean` says what the executions of a program are.
-/

namespace CallStack

/-- **C94** On thumb targets, for every program: if the tool prints `max = n` for the live function `i`, then during any
call of it, at any time, at most `n` bytes of stack are in use, by all active functions together; or else, among the
functions that can be reached from `i`, there is one whose code is not readable or not tame (C93), for which the tool
has to rely on a wrong figure of the compiler, or with a call of one of the kinds that may be dropped. -/
theorem C94_reasons {demangle : Str → Str} {ord : HashOrder} {search : TagSearch}
    {p : Program} {elf : Elf} {g' : Graph} {cycles : List (List Nat)} (once : p.NamesOnce)
    (addressed : p.Addressed) (declares : p.DeclaresOnce) (sizes : p.SizesU64)
    (fits : elf.Fits32) (ht : p.target.isThumb = true)
    (h : finalGraph demangle ord search p elf none = .ok (g', cycles))
    {code : Nat → Nat × List CodeItem} {i n : Nat} (hi : i < p.defined.length)
    (hmax : g'.maxOf? i = some (.exact n)) {acts : List Activation} (hex : Execution p code i acts) :
    stackInUse acts ≤ n ∨
    ∃ a, Reach (fun a b => p.Call a b ∨ p.MachineCall search elf a b) i a ∧
      (¬ p.HasCode search elf a (code a).1 (code a).2 ∨ ¬ TameCode (code a).2 ∨ ¬ p.FrameHolds code a ∨
        ∃ b, p.Dropped a b) := by
  rw [or_iff_not_imp_right]
  intro hno
  simp only [not_exists, not_and, not_or, Classical.not_not] at hno
  obtain ⟨st, g, h1, h2⟩ := finalGraph_facts h
  obtain ⟨cs, ext, st0, stIr, r⟩ := callGraph_facts once h1
  have hu := r.u64 once sizes fits
  obtain ⟨hcalls, hlocs⟩ := h2.calls r.wf hu
  have hstep : ∀ {a b}, Reach (fun a b => p.Call a b ∨ p.MachineCall search elf a b) i a →
      p.Call a b ∨ p.MachineCall search elf a b → g.Calls a b ∨ ∃ k, g.Calls a k ∧ g.Calls k b ∧
        g.locOf k = .exact 0 :=
    fun hr hc => machine_path once addressed declares ht h1 ((hno _ hr).2.2.2 _) hc
  have hreach : ∀ {b}, Reach (fun a b => p.Call a b ∨ p.MachineCall search elf a b) i b →
      Reach g.Calls i b := by
    intro b hb
    have key : ∀ {a b}, Reach (fun a b => p.Call a b ∨ p.MachineCall search elf a b) a b →
        Reach (fun a b => p.Call a b ∨ p.MachineCall search elf a b) i a → Reach g.Calls a b := by
      intro a b hab
      induction hab with
      | refl => exact fun _ => .refl _
      | step hc _ ih =>
        intro hr
        have hb := ih (hr.tail hc)
        rcases hstep hr hc with h3 | ⟨k, h3, h4, _⟩
        · exact .step h3 hb
        · exact .step h3 (.step h4 hb)
    exact key hb (.refl _)
  have hok : ActsOk p search elf code i acts := by
    refine hex.ok (fun j hj => (hno j hj).1) ?_
    intro j hj hind hir
    refine C51_indirect_without_ir once sizes fits ht (hno j hj).1.decoded hind hir h ?_ n hmax
    rw [hcalls]
    exact hreach hj
  rcases hok.path with hnil | hpath
  · rw [hnil]
    show (0 : Int) ≤ n
    omega
  · have hlive := hpath.live hi
    have hre := hpath.reach (fun h => .single h)
    have hpath' : ActivePath (fun a b => Reach (fun a b => p.Call a b ∨ p.MachineCall search elf a b) i a ∧
        (p.Call a b ∨ p.MachineCall search elf a b)) i (acts.map Activation.fn) := by
      clear hlive
      generalize acts.map Activation.fn = l at hpath hre
      induction hpath with
      | entry => exact .entry
      | @call u w l _ hw ih =>
        exact .call (ih fun j hj => hre j (List.mem_cons_of_mem _ hj)) ⟨hre u (by simp), hw⟩
    obtain ⟨hk, hw⟩ := chain_bound once sizes fits (fun h3 _ _ hc => by
      rw [h1] at h3
      cases h3
      exact hstep hc.1 hc.2) h hmax hpath'.chain
    have hle : stackInUse acts ≤ (weight g'.locOf (acts.map Activation.fn) : Nat) := by
      have hall : ∀ a ∈ acts, a.depth ≤ (g'.locOf a.fn).bytes := by
        intro a ha
        have hm : a.fn ∈ acts.map Activation.fn := List.mem_map_of_mem ha
        obtain ⟨hcode, htame, hframe, _⟩ := hno a.fn (hre _ hm)
        rw [hlocs]
        refine local_bounds_runs once ht h1 hcode htame hframe ?_ (hok.runs a ha)
        rw [← hlocs]
        exact hk a.fn (by simpa using hm)
      clear hex hok hpath hpath' hk hw hlive hre
      unfold stackInUse weight
      induction acts with
      | nil => exact Int.le_refl 0
      | cons a acts ih =>
        have h3 := hall a List.mem_cons_self
        have h4 := ih (fun b hb => hall b (List.mem_cons_of_mem _ hb))
        simp only [List.map_cons, List.sum_cons]
        push_cast
        omega
    have hrev : weight g'.locOf (acts.map Activation.fn).reverse = weight g'.locOf (acts.map Activation.fn) := by
      unfold weight
      rw [List.map_reverse, List.sum_reverse]
    omega

/-- **C94** On thumb targets: if the tool prints `max = n` for the live function `i`, then during any call of
it, at any time, at most `n` bytes of stack are in use, by all active functions together. Partial: the code
must be tame and readable (C93, `C94_bound_exceeded`), the LLVM-IR must avoid the known cases of dropped calls
(`C41_bound_violated`), and where the tool relies on a figure of the compiler alone, that has to hold. -/
theorem C94_executions_bounded_partial {demangle : Str → Str} {ord : HashOrder} {search : TagSearch}
    {p : Program} {elf : Elf} {g' : Graph} {cycles : List (List Nat)} (once : p.NamesOnce)
    (addressed : p.Addressed) (declares : p.DeclaresOnce) (un : p.Unambiguous) (sizes : p.SizesU64)
    (fits : elf.Fits32) (ht : p.target.isThumb = true)
    (h : finalGraph demangle ord search p elf none = .ok (g', cycles))
    {code : Nat → Nat × List CodeItem}
    (hcode : ∀ j < p.defined.length, p.HasCode search elf j (code j).1 (code j).2 ∧ TameCode (code j).2)
    (frames : p.FramesHold code) {i n : Nat} (hi : i < p.defined.length)
    (hmax : g'.maxOf? i = some (.exact n)) {acts : List Activation} (hex : Execution p code i acts) :
    stackInUse acts ≤ n := by
  rcases C94_reasons once addressed declares sizes fits ht h hi hmax hex with h1 | ⟨a, hr, hd⟩
  · exact h1
  · exfalso
    have hlt : a < p.defined.length := by
      refine Reach.closed (S := (· < p.defined.length)) ?_ hr hi
      rintro x y _ (hc | hc)
      · exact call_lt hc
      · exact machineCall_lt hc
    rcases hd with hd | hd | hd | ⟨b, hd⟩
    · exact hd (hcode a hlt).1
    · exact hd (hcode a hlt).2
    · exact hd (frames a)
    · exact un.keeps a b hd

/-! ### Examples -/

/-- `main` is `add sp, r6; bx lr`, and `f` is `bx lr`. -/
def exUnnoticed : Program :=
  { target := .thumbv6m
    defined := [(256, ⟨[c!"main"], 4⟩), (260, ⟨[c!"f"], 2⟩)]
    undefined := []
    stackSizes := [(c!"f", 0)]
    defines := [⟨c!"f", exSig, []⟩]
    declares := [] }

def exUnnoticedElf : Elf := { symtab := [], text := some (256, [0xB5, 0x44, 0x70, 0x47, 0x70, 0x47]) }

def exUnnoticedCode : Nat → Nat × List CodeItem
  | 0 => (256, [.instr (.other 0x44B5), .instr (.bx 14)])
  | _ => (260, [.instr (.bx 14)])

/-- **C94** is false when SP is changed by a register (`C93_big_frame_unnoticed`): the tool prints `max = 0` for
`main`, but any amount of stack may be in use. -/
theorem C94_bound_exceeded (k : Nat) :
    (∀ j < exUnnoticed.defined.length, exUnnoticed.HasCode linearSearch exUnnoticedElf j (exUnnoticedCode j).1
      (exUnnoticedCode j).2) ∧
    (finalGraph id sameOrder linearSearch exUnnoticed exUnnoticedElf none).toOption.map
      (fun x => x.1.maxOf? 0) = some (some (.exact 0)) ∧
    ∃ acts, Execution exUnnoticed exUnnoticedCode 0 acts ∧ stackInUse acts = k := by
  refine ⟨?_, by decide +kernel, [⟨0, 2, k, false⟩], .step .entry (.inner (.run (i := .other 0x44B5)
    ⟨[], _, rfl, rfl⟩ trivial rfl)), by simp [stackInUse]⟩
  intro j hj
  match j, hj with
  | 0, _ =>
    refine ⟨_, _, _, _, _, rfl, rfl, rfl, markers_iff.mpr rfl, codeSize_iff.mpr (by decide +kernel),
      by decide, by decide, by decide +kernel, by decide +kernel, ?_, ?_⟩
    · intro i hi
      simp only [exUnnoticedCode, List.mem_cons, CodeItem.instr.injEq, List.not_mem_nil, or_false] at hi
      rcases hi with rfl | rfl <;> decide
    · have : elfTags exUnnoticedElf.symtab = [] := by decide +kernel
      rw [this]
      simp [exUnnoticedCode, TagsFit]
  | 1, _ =>
    refine ⟨_, _, _, _, _, rfl, rfl, rfl, markers_iff.mpr rfl, codeSize_iff.mpr (by decide +kernel),
      by decide, by decide, by decide +kernel, by decide +kernel, ?_, ?_⟩
    · intro i hi
      simp only [exUnnoticedCode, List.mem_cons, CodeItem.instr.injEq, List.not_mem_nil, or_false] at hi
      subst hi
      decide
    · have : elfTags exUnnoticedElf.symtab = [] := by decide +kernel
      rw [this]
      simp [exUnnoticedCode, TagsFit]

/-- The reason is that the code of `main` is not tame. -/
example : ¬ TameCode (exUnnoticedCode 0).2 := by
  intro h
  exact (h 0 (.other 0x44B5) ⟨[], _, rfl, rfl⟩).1 rfl

/-- `main` is `push {r7, lr}; add sp, r6; pop {r7, pc}`, and the compiler reports 1032 bytes. -/
def exRefused : Program :=
  { target := .thumbv6m
    defined := [(256, ⟨[c!"main"], 6⟩)]
    undefined := []
    stackSizes := [(c!"main", 1032)]
    defines := [⟨c!"main", exSig, []⟩]
    declares := [] }

/-- **C94** With the compiler's figure for a large frame the two figures disagree (`C93_big_frames`), and the tool
aborts. -/
theorem C94_big_frames_refused :
    (finalGraph id sameOrder linearSearch exRefused
      { symtab := [], text := some (256, [0x80, 0xB5, 0xB5, 0x44, 0x80, 0xBD]) } none).toOption = none := by
  decide +kernel

/-- The code of `exEndThumb`. -/
def exEndCode : Nat → Nat × List CodeItem
  | 0 => (256, [.instr (.push 0x80 true), .instr (.bl 2), .instr (.other 0xBD80)])
  | 1 => (264, [.instr (.b2 (-2))])
  | _ => (266, [.instr (.push 0xB0 true), .instr (.other 0xBDB0)])

/-- The program of C41 has tame code, the compiler's figures hold, and all of the 24 bytes that the tool prints
for `main` are in use when `g` has been reached by way of `f`. -/
example : (∀ j < exEndThumb.defined.length, exEndThumb.HasCode linearSearch exEndElf j (exEndCode j).1
      (exEndCode j).2 ∧ TameCode (exEndCode j).2) ∧ exEndThumb.FramesHold exEndCode ∧
    ∃ acts, Execution exEndThumb exEndCode 0 acts ∧ stackInUse acts = 24 := by
  have htags : elfTags exEndElf.symtab = [] := by decide +kernel
  refine ⟨?_, ?_, ?_⟩
  · intro j hj
    match j, hj with
    | 0, _ =>
      refine ⟨⟨_, _, _, _, _, rfl, rfl, rfl, markers_iff.mpr rfl, codeSize_iff.mpr (by decide +kernel),
        by decide, by decide, by decide +kernel, by decide +kernel, ?_, ?_⟩, tameCode_of (by decide)⟩
      · intro i hi
        simp only [exEndCode, List.mem_cons, CodeItem.instr.injEq, List.not_mem_nil, or_false] at hi
        rcases hi with rfl | rfl | rfl <;> decide
      · rw [htags]
        simp [exEndCode, TagsFit]
    | 1, _ =>
      refine ⟨⟨_, _, _, _, _, rfl, rfl, rfl, markers_iff.mpr rfl, codeSize_iff.mpr (by decide +kernel),
        by decide, by decide, by decide +kernel, by decide +kernel, ?_, ?_⟩, tameCode_of (by decide)⟩
      · intro i hi
        simp only [exEndCode, List.mem_cons, CodeItem.instr.injEq, List.not_mem_nil, or_false] at hi
        subst hi
        decide
      · rw [htags]
        simp [exEndCode, TagsFit]
    | 2, _ =>
      refine ⟨⟨_, _, _, _, _, rfl, rfl, rfl, markers_iff.mpr rfl, codeSize_iff.mpr (by decide +kernel),
        by decide, by decide, by decide +kernel, by decide +kernel, ?_, ?_⟩, tameCode_of (by decide)⟩
      · intro i hi
        simp only [exEndCode, List.mem_cons, CodeItem.instr.injEq, List.not_mem_nil, or_false] at hi
        rcases hi with rfl | rfl <;> decide
      · rw [htags]
        simp [exEndCode, TagsFit]
  · intro i k hf hor
    exfalso
    have hlt : i < 3 := by
      obtain ⟨a, s, _, _, _, h1, _⟩ := hf
      exact (List.getElem?_eq_some_iff.mp h1).1
    rcases hor with ⟨pos, ins, off, h1, h2, h3, h4⟩ | ⟨name, ⟨a, s, pre, post, h1, h2, _⟩, h3⟩
    · have hm := instrAt_iff.mp h1
      match i, hlt with
      | 0, _ =>
        simp only [exEndCode, instrsAt, List.mem_cons, Prod.mk.injEq, List.not_mem_nil, or_false] at hm
        rcases hm with ⟨rfl, rfl⟩ | ⟨rfl, rfl⟩ | ⟨rfl, rfl⟩ <;> simp [Instr.IsBranch] at h2
      | 1, _ =>
        simp only [exEndCode, instrsAt, List.mem_cons, Prod.mk.injEq, List.not_mem_nil, or_false] at hm
        obtain ⟨rfl, rfl⟩ := hm
        simp [Instr.IsBranch] at h2
        subst h2
        revert h4
        decide
      | 2, _ =>
        simp only [exEndCode, instrsAt, List.mem_cons, Prod.mk.injEq, List.not_mem_nil, or_false] at hm
        rcases hm with ⟨rfl, rfl⟩ | ⟨rfl, rfl⟩ <;> simp [Instr.IsBranch] at h2
    · rw [← isOutlined_iff] at h3
      match i, hlt with
      | 0, _ | 1, _ | 2, _ =>
        simp only [exEndThumb, List.getElem?_cons_zero, List.getElem?_cons_succ, Option.some.injEq,
          Prod.mk.injEq] at h1
        obtain ⟨rfl, rfl⟩ := h1
        have hm : name ∈ pre ++ name :: post := by simp
        rw [← h2] at hm
        simp only [List.mem_cons, List.not_mem_nil, or_false] at hm
        subst hm
        revert h3
        decide
  · have h1 : ExecStep exEndThumb exEndCode [⟨0, 0, 0, false⟩] [⟨0, 2, 8, false⟩] :=
      .inner (.run (i := .push 0x80 true) ⟨[], _, rfl, rfl⟩ rfl rfl)
    have h2 : ExecStep exEndThumb exEndCode [⟨0, 2, 8, false⟩] [⟨1, 0, 0, false⟩, ⟨0, 6, 8, false⟩] :=
      .call (off := 2) (t := 264) ⟨[_], _, rfl, rfl⟩ rfl (by decide) ⟨_, rfl⟩
    have h3 : ExecStep exEndThumb exEndCode [⟨1, 0, 0, false⟩, ⟨0, 6, 8, false⟩]
        [⟨2, 0, 0, false⟩, ⟨1, 0, 0, true⟩, ⟨0, 6, 8, false⟩] :=
      .jump (ins := .b2 (-2)) (off := -2) (t := 266) ⟨[], _, rfl, rfl⟩ (.inr (.inl rfl)) rfl (by decide)
        (.inr (by decide)) ⟨_, rfl⟩
    have h4 : ExecStep exEndThumb exEndCode [⟨2, 0, 0, false⟩, ⟨1, 0, 0, true⟩, ⟨0, 6, 8, false⟩]
        [⟨2, 2, 16, false⟩, ⟨1, 0, 0, true⟩, ⟨0, 6, 8, false⟩] :=
      .inner (.run (i := .push 0xB0 true) ⟨[], _, rfl, rfl⟩ rfl rfl)
    exact ⟨_, .step (.step (.step (.step .entry h1) h2) h3) h4, rfl⟩

end CallStack
