import Verif.Proof.SharedExec
import Verif.Props.Shared

/-!
Property C116: executions of Thumb programs in which functions may have the same names. Unlike C94, names need not be
unique.
-/

namespace CallStack

variable {demangle : Str → Str} {ord : HashOrder} {search : TagSearch} {p : Program} {elf : Elf}

/-- **C116** On thumb targets, for every program: if the tool prints `max = n` for the last function with the names of
`i`, then during any call of `i`, at any time, at most `n` bytes of stack are in use, by all active functions together;
or else, among the functions that can be reached from `i`, there is one whose code is not readable or not tame (C93),
for which the tool has to rely on a wrong figure of the compiler, with a call of one of the kinds that may be dropped, or
which shares its names with others and has no figure that is compared with theirs. -/
theorem C116_reasons {g' : Graph} {cycles : List (List Nat)} (alike : p.NamesAlike)
    (addressed : p.Addressed) (declares : p.DeclaresOnce) (sizes : p.SizesU64)
    (fits : elf.Fits32) (ht : p.target.isThumb = true)
    (h : finalGraph demangle ord search p elf none = .ok (g', cycles))
    {code : Nat → Nat × List CodeItem} {i m n : Nat} (hm : p.LastOf i m)
    (hmax : g'.maxOf? m = some (.exact n)) {acts : List Activation} (hex : Execution p code i acts) :
    stackInUse acts ≤ n ∨
    ∃ a, Reach (fun a b => p.Call a b ∨ p.MachineCall search elf a b) i a ∧
      (¬ p.HasCode search elf a (code a).1 (code a).2 ∨ ¬ TameCode (code a).2 ∨ ¬ p.FrameHolds code a ∨
        (∃ b, p.Dropped a b) ∨ ¬ p.Settled code a) := by
  rw [or_iff_not_imp_right]
  intro hno
  simp only [not_exists, not_and, not_or, Classical.not_not] at hno
  obtain ⟨st, g, h1, h2⟩ := finalGraph_facts h
  obtain ⟨cs, st0, stIr, f⟩ := callGraph_shared h1
  classical
  let L : Nat → Nat := fun j => if h : ∃ a, p.LastOf j a then h.choose else 0
  have hL : ∀ {j a}, p.LastOf j a → L j = a := by
    intro j a hj
    have hex : ∃ a, p.LastOf j a := ⟨a, hj⟩
    have : L j = hex.choose := dif_pos hex
    rw [this]
    exact Program.LastOf.unique hex.choose_spec hj
  have hlast : ∀ {j}, j < p.defined.length → p.LastOf j (L j) := by
    intro j hj
    have he := List.getElem?_eq_getElem hj
    obtain ⟨c, hc, _⟩ := f.canon_at he
    obtain ⟨a, _, ha⟩ := f.lookup alike he hc
    rw [hL ha]
    exact ha
  have hi : i < p.defined.length := by
    obtain ⟨_, _, _, _, e1, _⟩ := hm
    exact (List.getElem?_eq_some_iff.mp e1).1
  have hstep : ∀ {a b}, Reach (fun a b => p.Call a b ∨ p.MachineCall search elf a b) i a →
      p.Call a b ∨ p.MachineCall search elf a b → g.Calls (L a) (L b) ∨
        ∃ k, g.Calls (L a) k ∧ g.Calls k (L b) ∧ g.locOf k = .exact 0 := by
    intro a b hr hc
    obtain ⟨x, y, hx, hy, hxy⟩ := f.calls alike addressed declares ((hno _ hr).2.2.2.1 b)
      (hc.imp id (fun hc => ⟨ht, hc⟩))
    rw [hL hx, hL hy]
    exact hxy
  have hreach : ∀ {b}, Reach (fun a b => p.Call a b ∨ p.MachineCall search elf a b) i b →
      Reach g.Calls (L i) (L b) := by
    intro b hb
    have key : ∀ {a b}, Reach (fun a b => p.Call a b ∨ p.MachineCall search elf a b) a b →
        Reach (fun a b => p.Call a b ∨ p.MachineCall search elf a b) i a → Reach g.Calls (L a) (L b) := by
      intro a b hab
      induction hab with
      | refl => exact fun _ => .refl _
      | step hc _ ih =>
        intro hr
        have hb := ih (hr.tail hc)
        rcases hstep hr hc with h3 | ⟨k, h3, h4, _⟩
        · exact .step h3 hb
        · exact .step h3 (.step h4 hb)
    exact key hb (.refl _)
  have hok : ActsOk p search elf code i acts := by
    refine hex.ok (fun j hj => (hno j hj).1) ?_
    intro j hj hind hir
    obtain ⟨a, k, ha, hk, hq⟩ := f.question alike ht (hno j hj).1.decoded hind hir
    have hr := hreach hj
    rw [hL ha, hL hm] at hr
    obtain ⟨l, hl1, hl2⟩ := (hr.tail hk).chain_mem
    have := (f.exact sizes fits h2 hmax hl1).1 k hl2
    rw [hq] at this
    exact this
  rcases hok.path with hnil | hpath
  · rw [hnil]
    show (0 : Int) ≤ n
    omega
  · have hlive := hpath.live hi
    have hre := hpath.reach (fun h => .single h)
    have hpath' : ActivePath (fun x y => g.Calls x y ∨ ∃ k, g.Calls x k ∧ g.Calls k y ∧ g.locOf k = .exact 0) (L i)
        ((acts.map Activation.fn).map L) := hpath.map fun u w hu hw => hstep (hre u hu) hw
    rw [hL hm] at hpath'
    obtain ⟨l', h3, h4, h5⟩ := chain_path (g := g) id hpath'.chain
    obtain ⟨hk, hw⟩ := f.exact sizes fits h2 hmax h3
    have hle : stackInUse acts ≤ (weight g.locOf ((acts.map Activation.fn).map L) : Nat) := by
      have hall : ∀ a ∈ acts, a.depth ≤ (g.locOf (L a.fn)).bytes := by
        intro a ha
        have hm : a.fn ∈ acts.map Activation.fn := List.mem_map_of_mem ha
        obtain ⟨hcode, htame, hframe, _, hset⟩ := hno a.fn (hre _ hm)
        refine f.runs alike ht hcode htame hframe hset (hlast (hlive _ hm)) ?_ (hok.runs a ha)
        exact hk _ (h4 _ (by simpa using ⟨a, ha, rfl⟩))
      clear hex hok hpath hpath' hk hw hlive hre h3 h4 h5
      unfold stackInUse weight
      induction acts with
      | nil => exact Int.le_refl 0
      | cons a acts ih =>
        have h3 := hall a List.mem_cons_self
        have h4 := ih (fun b hb => hall b (List.mem_cons_of_mem _ hb))
        simp only [List.map_cons, List.sum_cons]
        push_cast
        omega
    have hrev : weight g.locOf ((acts.map Activation.fn).map L).reverse =
        weight g.locOf ((acts.map Activation.fn).map L) := by
      unfold weight
      rw [List.map_reverse, List.sum_reverse]
    omega

/-- Where names are unique this says the same as `C94_reasons`. -/
theorem settled_of_once (once : p.NamesOnce) {code : Nat → Nat × List CodeItem} {i : Nat} {n : Str}
    (hn : p.LiveAt n i) : p.Settled code i := by
  left
  intro j a s b t hi hj hnames
  obtain ⟨a', s', h1, h2⟩ := hn
  rw [hi] at h1
  cases h1
  exact once n j i ⟨b, t, hj, hnames ▸ h2.1, h2.2⟩ ⟨a, s, hi, h2⟩

/-- **C116** On thumb targets: if the tool prints `max = n` for the last function with the names of `i`, then during any
call of `i` at most `n` bytes of stack are in use. Partial: besides what `C94_executions_bounded_partial` asks for,
functions of the same names need figures that are compared (`C115_bound_violated`, `C116_loop_unnoticed`). -/
theorem C116_executions_bounded_partial {g' : Graph} {cycles : List (List Nat)} (alike : p.NamesAlike)
    (addressed : p.Addressed) (declares : p.DeclaresOnce) (un : p.Unambiguous) (sizes : p.SizesU64)
    (fits : elf.Fits32) (ht : p.target.isThumb = true)
    (h : finalGraph demangle ord search p elf none = .ok (g', cycles))
    {code : Nat → Nat × List CodeItem}
    (hcode : ∀ j < p.defined.length, p.HasCode search elf j (code j).1 (code j).2 ∧ TameCode (code j).2 ∧
      p.Settled code j)
    (frames : p.FramesHold code) {i m n : Nat} (hm : p.LastOf i m)
    (hmax : g'.maxOf? m = some (.exact n)) {acts : List Activation} (hex : Execution p code i acts) :
    stackInUse acts ≤ n := by
  rcases C116_reasons alike addressed declares sizes fits ht h hm hmax hex with h1 | ⟨a, hr, hd⟩
  · exact h1
  · exfalso
    have hi : i < p.defined.length := by
      obtain ⟨_, _, _, _, e1, _⟩ := hm
      exact (List.getElem?_eq_some_iff.mp e1).1
    have hlt : a < p.defined.length := by
      refine Reach.closed (S := (· < p.defined.length)) ?_ hr hi
      rintro x y _ (hc | hc)
      · exact call_lt hc
      · exact machineCall_lt hc
    rcases hd with hd | hd | hd | ⟨b, hd⟩ | hd
    · exact hd (hcode a hlt).1
    · exact hd (hcode a hlt).2.1
    · exact hd (frames a)
    · exact un.keeps a b hd
    · exact hd (hcode a hlt).2.2

/-- **C115** The max that is printed for a function that is not the last one of its names is the figure that the
compiler reports, whatever the function calls; without such a figure it is `≥ 0`. -/
theorem C115_shadowed_max {g' : Graph} {cycles : List (List Nat)} (alike : p.NamesAlike) (sizes : p.SizesU64)
    (fits : elf.Fits32) (h : finalGraph demangle ord search p elf none = .ok (g', cycles))
    {i m : Nat} (hl : p.LastOf i m) (hne : i ≠ m) {mx : Max} (hmax : g'.maxOf? i = some mx) :
    (∀ k, p.Frame i k → mx = .exact k) ∧ ((∀ k, ¬ p.Frame i k) → mx = .lowerBound 0) := by
  obtain ⟨st, g, h1, h2⟩ := finalGraph_facts h
  obtain ⟨cs, st0, stIr, f⟩ := callGraph_shared h1
  have hu := f.u64 sizes fits
  obtain ⟨hcalls, hlocs⟩ := h2.calls f.wf hu
  obtain ⟨g1, ha, he, hloc, hmx⟩ := h2.analysis
  obtain ⟨k1, k2⟩ := f.shadowed_loc alike hl hne
  have hno := fun b => C115_shadowed h1 hl hne b
  have hcalls1 : g1.Calls = g.Calls := by
    rw [← hcalls]
    funext a b
    simp [Graph.Calls, he]
  have hlocs1 : g1.locOf = g.locOf := by
    funext a
    rw [← hloc, hlocs]
  rw [hmx] at hmax
  cases hinfo : st.hasStackUsageInfo with
  | false =>
    rw [hinfo] at ha
    unfold analyzeMax at ha
    simp only [Bool.not_false, if_true, Except.ok.injEq, Prod.mk.injEq] at ha
    obtain ⟨rfl, _⟩ := ha
    unfold Graph.maxOf? at hmax
    cases hn : g.nodes[i]? with
    | none => rw [hn] at hmax; simp at hmax
    | some nd =>
      rw [hn] at hmax
      simp only at hmax
      rw [f.max_none hn] at hmax
      simp at hmax
  | true =>
    rw [hinfo] at ha
    have hreach : ∀ u, Reach g.Calls i u → u = i := by
      intro u hr
      cases hr with
      | refl => rfl
      | step hc _ => exact absurd hc (hno _)
    have h4 := C04_exact_iff f.wf hu ha hmax
    have h5 := C05_heaviest f.wf hu ha hmax
    rw [hcalls1, hlocs1] at h4 h5
    have hbytes : mx.bytes = (g.locOf i).bytes := by
      obtain ⟨⟨us, hg, hw⟩, hall⟩ := h5
      have h6 := hall [i] ⟨fun u hu => by rw [List.mem_singleton.mp hu]; exact .refl _, List.pairwise_singleton _ _⟩
      have h7 : weight g.locOf us ≤ (g.locOf i).bytes := by
        cases us with
        | nil => simp [weight]
        | cons u us =>
          have hu := hreach u (hg.1 u (by simp))
          subst hu
          cases us with
          | nil => simp [weight]
          | cons w us =>
            have hw := hreach w (hg.1 w (by simp))
            have := (List.pairwise_cons.mp hg.2).1 w (by simp)
            subst hw
            exact absurd (.refl _) this.2
      simp only [weight, List.map_cons, List.map_nil, List.sum_cons, List.sum_nil] at h6 h7 hw
      omega
    constructor
    · intro k hk
      rw [k1 k hk] at hbytes
      obtain ⟨n, rfl⟩ := h4.mpr (fun u hr => by
        rw [hreach u hr]
        refine ⟨⟨k, k1 k hk⟩, ?_⟩
        rintro ⟨w, hw, _⟩
        exact absurd hw (hno w))
      exact congrArg _ hbytes
    · intro hk
      rw [k2 hk] at hbytes
      cases mx with
      | exact n =>
        obtain ⟨⟨k, h6⟩, _⟩ := h4.mp ⟨n, rfl⟩ i (.refl _)
        rw [k2 hk] at h6
        cases h6
      | lowerBound n => exact congrArg _ hbytes

/-! ### Examples -/

/-- Two functions with the same name, `push {r7, lr}; bl leaf; pop {r7, pc}` both, and `leaf`, which takes 16 bytes. -/
def exShadowed : Program :=
  { target := .thumbv7m
    defined := [(256, ⟨[c!"helper"], 8⟩), (264, ⟨[c!"helper"], 8⟩), (272, ⟨[c!"leaf"], 4⟩)]
    undefined := []
    stackSizes := [(c!"helper", 8), (c!"leaf", 16)]
    defines := []
    declares := [] }

def exShadowedElf : Elf :=
  { symtab := []
    text := some (256, [0x80, 0xB5, 0x00, 0xF0, 0x05, 0xF8, 0x80, 0xBD, 0x80, 0xB5, 0x00, 0xF0, 0x01, 0xF8, 0x80, 0xBD,
      0xB0, 0xB5, 0xB0, 0xBD]) }

def exShadowedCode : Nat → Nat × List CodeItem
  | 0 => (256, [.instr (.push 0x80 true), .instr (.bl 10), .instr (.other 0xBD80)])
  | 1 => (264, [.instr (.push 0x80 true), .instr (.bl 2), .instr (.other 0xBD80)])
  | _ => (272, [.instr (.push 0xB0 true), .instr (.other 0xBDB0)])

/-- **C115** So the max printed for the first function is wrong: of two nodes with the same label, one has `max = 8` and
one `max = 24`, and 24 bytes are in use during a call of the first function. -/
theorem C115_shadowed_max_violated :
    exShadowed.LastOf 0 1 ∧
    (∀ j < exShadowed.defined.length, exShadowed.HasCode linearSearch exShadowedElf j (exShadowedCode j).1
      (exShadowedCode j).2 ∧ TameCode (exShadowedCode j).2) ∧
    (finalGraph id sameOrder linearSearch exShadowed exShadowedElf none).toOption.map
      (fun x => (x.1.nodes.map (fun nd => (nd.name, nd.max)), x.1.edges)) =
      some ([(c!"helper", some (.exact 8)), (c!"helper", some (.exact 24)), (c!"leaf", some (.exact 16))], [(1, 2)]) ∧
    ∃ acts, Execution exShadowed exShadowedCode 0 acts ∧ stackInUse acts = 24 := by
  have htags : elfTags exShadowedElf.symtab = [] := by decide +kernel
  refine ⟨?_, ?_, by decide +kernel, ?_⟩
  · exact ⟨_, _, _, _, rfl, rfl, rfl, by
      intro k c u hk hu
      match k, hk, (List.getElem?_eq_some_iff.mp hu).1 with
      | 2, _, _ => cases hu; decide⟩
  · intro j hj
    match j, hj with
    | 0, _ | 1, _ | 2, _ =>
      refine ⟨⟨_, _, _, _, _, rfl, rfl, rfl, markers_iff.mpr rfl, codeSize_iff.mpr (by decide +kernel),
        by decide, by decide, by decide +kernel, by decide +kernel, ?_, ?_⟩, tameCode_of (by decide)⟩
      · intro i hi
        simp only [exShadowedCode, List.mem_cons, CodeItem.instr.injEq, List.not_mem_nil, or_false] at hi
        rcases hi with rfl | hi
        · decide
        first
          | (subst hi; decide)
          | (rcases hi with rfl | rfl <;> decide)
      · rw [htags]
        simp [exShadowedCode, TagsFit]
  · have h1 : ExecStep exShadowed exShadowedCode [⟨0, 0, 0, false⟩] [⟨0, 2, 8, false⟩] :=
      .inner (.run (i := .push 0x80 true) ⟨[], _, rfl, rfl⟩ rfl rfl)
    have h2 : ExecStep exShadowed exShadowedCode [⟨0, 2, 8, false⟩] [⟨2, 0, 0, false⟩, ⟨0, 6, 8, false⟩] :=
      .call (off := 10) (t := 272) ⟨[_], _, rfl, rfl⟩ rfl (by decide) ⟨_, rfl⟩
    have h3 : ExecStep exShadowed exShadowedCode [⟨2, 0, 0, false⟩, ⟨0, 6, 8, false⟩]
        [⟨2, 2, 16, false⟩, ⟨0, 6, 8, false⟩] :=
      .inner (.run (i := .push 0xB0 true) ⟨[], _, rfl, rfl⟩ rfl rfl)
    exact ⟨_, .step (.step (.step .entry h1) h2) h3, rfl⟩

/-- `main` calls the second of two functions with the same name: at 264 there is `push {r7, lr}; pop {r7, pc}`, at 268
`sub sp, #64; b .+2; add sp, #64; bx lr`. The compiler reports neither. -/
def exLoopTwin : Program :=
  { target := .thumbv7m
    defined := [(256, ⟨[c!"main"], 8⟩), (264, ⟨[c!"helper"], 4⟩), (268, ⟨[c!"helper"], 8⟩)]
    undefined := []
    stackSizes := [(c!"main", 8)]
    defines := [⟨c!"main", exSig, []⟩]
    declares := [] }

def exLoopTwinElf : Elf :=
  { symtab := []
    text := some (256, [0x80, 0xB5, 0x00, 0xF0, 0x03, 0xF8, 0x80, 0xBD, 0x80, 0xB5, 0x80, 0xBD,
      0x90, 0xB0, 0xFF, 0xE7, 0x10, 0xB0, 0x70, 0x47]) }

def exLoopTwinCode : Nat → Nat × List CodeItem
  | 0 => (256, [.instr (.push 0x80 true), .instr (.bl 6), .instr (.other 0xBD80)])
  | 1 => (264, [.instr (.push 0x80 true), .instr (.other 0xBD80)])
  | _ => (268, [.instr (.subSp 16), .instr (.b2 (-2)), .instr (.other 0xB010), .instr (.bx 14)])

theorem exLoopTwin_alike : exLoopTwin.NamesAlike := by
  intro i j a s b t n hi hj hs ht
  obtain ⟨hi', e1⟩ := List.getElem?_eq_some_iff.mp hi
  obtain ⟨hj', e2⟩ := List.getElem?_eq_some_iff.mp hj
  match i, j, hi', hj' with
  | 0, 0, _, _ | 0, 1, _, _ | 0, 2, _, _ | 1, 0, _, _ | 1, 1, _, _ | 1, 2, _, _ | 2, 0, _, _ | 2, 1, _, _
  | 2, 2, _, _ =>
    simp only [exLoopTwin, List.getElem_cons_zero, List.getElem_cons_succ, Prod.mk.injEq] at e1 e2
    obtain ⟨_, rfl⟩ := e1
    obtain ⟨_, rfl⟩ := e2
    have h1 := hs.1
    have h2 := ht.1
    simp only [List.mem_cons, List.not_mem_nil, or_false] at h1 h2
    first
      | rfl
      | (rw [h1] at h2; revert h2; decide)

/-- **C116** is false where a function that branches into itself has no figure of its own: the tool prints `max = 16`
for `main`, with the figure of another function of that name, and 72 bytes are in use at some time. -/
theorem C116_loop_unnoticed :
    exLoopTwin.NamesAlike ∧ exLoopTwin.LastOf 0 0 ∧
    (∀ j < exLoopTwin.defined.length, exLoopTwin.HasCode linearSearch exLoopTwinElf j (exLoopTwinCode j).1
      (exLoopTwinCode j).2 ∧ TameCode (exLoopTwinCode j).2) ∧
    exLoopTwin.FramesHold exLoopTwinCode ∧
    (finalGraph id sameOrder linearSearch exLoopTwin exLoopTwinElf none).toOption.map
      (fun x => (x.1.maxOf? 0, x.1.edges)) = some (some (.exact 16), [(0, 2)]) ∧
    ∃ acts, Execution exLoopTwin exLoopTwinCode 0 acts ∧ stackInUse acts = 72 := by
  have htags : elfTags exLoopTwinElf.symtab = [] := by decide +kernel
  refine ⟨exLoopTwin_alike, ?_, ?_, ?_, by decide +kernel, ?_⟩
  · exact ⟨_, _, _, _, rfl, rfl, rfl, by
      intro k c u hk hu
      match k, hk, (List.getElem?_eq_some_iff.mp hu).1 with
      | 1, _, _ | 2, _, _ => cases hu; decide⟩
  · intro j hj
    match j, hj with
    | 0, _ | 1, _ | 2, _ =>
      refine ⟨⟨_, _, _, _, _, rfl, rfl, rfl, markers_iff.mpr rfl, codeSize_iff.mpr (by decide +kernel),
        by decide, by decide, by decide +kernel, by decide +kernel, ?_, ?_⟩, tameCode_of (by decide)⟩
      · intro i hi
        simp only [exLoopTwinCode, List.mem_cons, CodeItem.instr.injEq, List.not_mem_nil, or_false] at hi
        rcases hi with rfl | rfl | hi
        · decide
        · decide
        try first
          | (subst hi; decide)
          | (rcases hi with rfl | rfl <;> decide)
      · rw [htags]
        simp [exLoopTwinCode, TagsFit]
  · intro i k ⟨a, s, pre, n, post, h1, h2, _, h3, _⟩ hor
    exfalso
    have hn : n = c!"main" := by
      unfold Program.Reported at h3
      simp only [exLoopTwin, mget] at h3
      split at h3
      · rename_i h
        exact h.symm
      · cases h3
    have hi : i = 0 := by
      have hlt := (List.getElem?_eq_some_iff.mp h1).1
      have hm : n ∈ s.names := by rw [h2]; simp
      rw [hn] at hm
      match i, hlt with
      | 0, _ => rfl
      | 1, _ | 2, _ =>
        simp only [exLoopTwin, List.getElem?_cons_zero, List.getElem?_cons_succ, Option.some.injEq,
          Prod.mk.injEq] at h1
        obtain ⟨rfl, rfl⟩ := h1
        revert hm
        decide
    subst hi
    rcases hor with ⟨pos, ins, off, h4, h5, _⟩ | ⟨name, ⟨a', s', pre', post', h4, h5, _⟩, h6⟩
    · have hm := instrAt_iff.mp h4
      simp only [exLoopTwinCode, instrsAt, List.mem_cons, Prod.mk.injEq, List.not_mem_nil, or_false] at hm
      rcases hm with ⟨rfl, rfl⟩ | ⟨rfl, rfl⟩ | ⟨rfl, rfl⟩ <;> simp [Instr.IsBranch] at h5
    · rw [← isOutlined_iff] at h6
      simp only [exLoopTwin, List.getElem?_cons_zero, Option.some.injEq, Prod.mk.injEq] at h4
      obtain ⟨rfl, rfl⟩ := h4
      have hm : name ∈ pre' ++ name :: post' := by simp
      rw [← h5] at hm
      simp only [List.mem_cons, List.not_mem_nil, or_false] at hm
      subst hm
      revert h6
      decide
  · have h1 : ExecStep exLoopTwin exLoopTwinCode [⟨0, 0, 0, false⟩] [⟨0, 2, 8, false⟩] :=
      .inner (.run (i := .push 0x80 true) ⟨[], _, rfl, rfl⟩ rfl rfl)
    have h2 : ExecStep exLoopTwin exLoopTwinCode [⟨0, 2, 8, false⟩] [⟨2, 0, 0, false⟩, ⟨0, 6, 8, false⟩] :=
      .call (off := 6) (t := 268) ⟨[_], _, rfl, rfl⟩ rfl (by decide) ⟨_, rfl⟩
    have h3 : ExecStep exLoopTwin exLoopTwinCode [⟨2, 0, 0, false⟩, ⟨0, 6, 8, false⟩]
        [⟨2, 2, 64, false⟩, ⟨0, 6, 8, false⟩] :=
      .inner (.run (i := .subSp 16) ⟨[], _, rfl, rfl⟩ rfl rfl)
    exact ⟨_, .step (.step (.step .entry h1) h2) h3, rfl⟩

/-- The code of `exSame`. -/
def exSameCode : Nat → Nat × List CodeItem
  | 0 => (256, [.instr (.push 0x80 true), .instr (.bl 6), .instr (.other 0xBD80)])
  | 1 => (264, [.instr (.push 0x80 true), .instr (.other 0xBD80)])
  | _ => (268, [.instr (.push 0x80 true), .instr (.other 0xBD80)])

/-- All that is asked for can be had, and all of the 16 bytes that the tool prints for `main` may be in use. -/
example : (∀ j < exSame.defined.length, exSame.HasCode linearSearch exSameElf j (exSameCode j).1
      (exSameCode j).2 ∧ TameCode (exSameCode j).2 ∧ exSame.Settled exSameCode j) ∧
    exSame.FramesHold exSameCode ∧ exSame.LastOf 0 0 ∧ ¬ exSame.NamesOnce ∧
    ∃ acts, Execution exSame exSameCode 0 acts ∧ stackInUse acts = 16 := by
  have htags : elfTags exSameElf.symtab = [] := by decide +kernel
  have hbr : ∀ i, ¬ BranchesInside (exSameCode i).2 := by
    rintro i ⟨pos, ins, off, h1, h2, _⟩
    have hm := instrAt_iff.mp h1
    match i with
    | 0 =>
      simp only [exSameCode, instrsAt, List.mem_cons, Prod.mk.injEq, List.not_mem_nil, or_false] at hm
      rcases hm with ⟨rfl, rfl⟩ | ⟨rfl, rfl⟩ | ⟨rfl, rfl⟩ <;> simp [Instr.IsBranch] at h2
    | 1 | n + 2 =>
      simp only [exSameCode, instrsAt, List.mem_cons, Prod.mk.injEq, List.not_mem_nil, or_false] at hm
      rcases hm with ⟨rfl, rfl⟩ | ⟨rfl, rfl⟩ <;> simp [Instr.IsBranch] at h2
  refine ⟨?_, ?_, ?_, ?_, ?_⟩
  · intro j hj
    refine ⟨?_, ?_, .inr ⟨exSame_strict j hj, fun h => absurd h (hbr j)⟩⟩
    · match j, hj with
      | 0, _ | 1, _ | 2, _ =>
        refine ⟨_, _, _, _, _, rfl, rfl, rfl, markers_iff.mpr rfl, codeSize_iff.mpr (by decide +kernel),
          by decide, by decide, by decide +kernel, by decide +kernel, ?_, ?_⟩
        · intro i hi
          simp only [exSameCode, List.mem_cons, CodeItem.instr.injEq, List.not_mem_nil, or_false] at hi
          rcases hi with rfl | hi
          · decide
          first
            | (subst hi; decide)
            | (rcases hi with rfl | rfl <;> decide)
        · rw [htags]
          simp [exSameCode, TagsFit]
    · match j, hj with
      | 0, _ | 1, _ | 2, _ => exact tameCode_of (by decide)
  · intro i k hf hor
    exfalso
    rcases hor with h | h
    · exact hbr i h
    · obtain ⟨a, s, _, _, _, h1, _⟩ := hf
      exact exSame_strict i (List.getElem?_eq_some_iff.mp h1).1 (.inr h)
  · exact ⟨_, _, _, _, rfl, rfl, rfl, by
      intro k c u hk hu
      match k, hk, (List.getElem?_eq_some_iff.mp hu).1 with
      | 1, _, _ | 2, _, _ => cases hu; decide⟩
  · intro once
    have hn : ¬ IsMappingSymbol c!"helper" := by unfold IsMappingSymbol; decide
    have := once c!"helper" 1 2 ⟨_, _, rfl, by decide, hn⟩ ⟨_, _, rfl, by decide, hn⟩
    omega
  · have h1 : ExecStep exSame exSameCode [⟨0, 0, 0, false⟩] [⟨0, 2, 8, false⟩] :=
      .inner (.run (i := .push 0x80 true) ⟨[], _, rfl, rfl⟩ rfl rfl)
    have h2 : ExecStep exSame exSameCode [⟨0, 2, 8, false⟩] [⟨2, 0, 0, false⟩, ⟨0, 6, 8, false⟩] :=
      .call (off := 6) (t := 268) ⟨[_], _, rfl, rfl⟩ rfl (by decide) ⟨_, rfl⟩
    have h3 : ExecStep exSame exSameCode [⟨2, 0, 0, false⟩, ⟨0, 6, 8, false⟩]
        [⟨2, 2, 8, false⟩, ⟨0, 6, 8, false⟩] :=
      .inner (.run (i := .push 0x80 true) ⟨[], _, rfl, rfl⟩ rfl rfl)
    exact ⟨_, .step (.step (.step .entry h1) h2) h3, rfl⟩

end CallStack
