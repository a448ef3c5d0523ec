import Verif.Proof.SharedLocal
import Verif.Props.EndToEnd
import Verif.Props.Exec

/-!
Property C115: functions of the same name, such as local functions of different object files. All that the tool finds
out about them ends up at the node of the last one.
-/

namespace CallStack

variable {demangle : Str → Str} {ord : HashOrder} {search : TagSearch} {p : Program} {elf : Elf}

/-- **C115** A call that the LLVM-IR allows and that is not one of the known dropped ones, or that is in the machine
code, is an edge of the graph between the last functions of the same names, or a way by a node for indirect calls. -/
theorem C115_calls (alike : p.NamesAlike) (addressed : p.Addressed) (declares : p.DeclaresOnce) {st : Build} {g : Graph}
    (h : callGraph demangle ord search p elf = .ok (st, g)) {i j : Nat} (hd : ¬ p.Dropped i j)
    (hc : p.AnyCall search elf i j) :
    ∃ a b, p.LastOf i a ∧ p.LastOf j b ∧
      (g.Calls a b ∨ ∃ k, g.Calls a k ∧ g.Calls k b ∧ g.locOf k = .exact 0) := by
  obtain ⟨cs, st0, stIr, f⟩ := callGraph_shared h
  exact f.calls alike addressed declares hd hc

/-- **C115** Except for inline assembly and the outliner, the functions of the same names must agree on what they use,
or the tool aborts: whatever one of them uses is the local usage of the last of them. -/
theorem C115_figure (alike : p.NamesAlike) {st : Build} {g : Graph}
    (h : callGraph demangle ord search p elf = .ok (st, g)) {j m k : Nat} (hl : p.LastOf j m)
    (strict : ¬ p.Lenient j) (hu : p.Uses search elf j k) : g.locOf m = .exact k := by
  obtain ⟨cs, st0, stIr, f⟩ := callGraph_shared h
  exact f.uses alike hl strict hu

/-- **C115** So two of them cannot use different amounts. -/
theorem C115_agree (alike : p.NamesAlike) {st : Build} {g : Graph}
    (h : callGraph demangle ord search p elf = .ok (st, g)) {i j m a b : Nat} (hi : p.LastOf i m) (hj : p.LastOf j m)
    (si : ¬ p.Lenient i) (sj : ¬ p.Lenient j) (hu : p.Uses search elf i a) (hv : p.Uses search elf j b) : a = b := by
  have h1 := C115_figure alike h hi si hu
  rw [C115_figure alike h hj sj hv] at h1
  exact (Local.exact.inj h1).symm

/-- **C115** If the tool prints `max = n` for the last function with the names of `i`, then no chain of calls from `i`
uses more. Partial: functions whose figures are not compared are left out (`C115_bound_violated`), and so are the known
cases of dropped calls. -/
theorem C115_bound_partial (alike : p.NamesAlike) (addressed : p.Addressed) (declares : p.DeclaresOnce)
    (un : p.Unambiguous) (sizes : p.SizesU64) (fits : elf.Fits32)
    {g' : Graph} {cycles : List (List Nat)} (h : finalGraph demangle ord search p elf none = .ok (g', cycles))
    {i m n : Nat} (hm : p.LastOf i m) (hmax : g'.maxOf? m = some (.exact n)) {l : List Nat}
    (hl : CallChain (p.AnyCall search elf) i l) {k : Nat → Nat}
    (hk : ∀ j ∈ l, p.Uses search elf j (k j) ∧ ¬ p.Lenient j) : (l.map k).sum ≤ n := by
  obtain ⟨st, g, h1, h2⟩ := finalGraph_facts h
  obtain ⟨cs, st0, stIr, f⟩ := callGraph_shared h1
  have hu := f.u64 sizes fits
  obtain ⟨hcalls, hlocs⟩ := h2.calls f.wf hu
  obtain ⟨g1, ha, he, hloc, hmx⟩ := h2.analysis
  have hcalls1 : g1.Calls = g.Calls := by
    rw [← hcalls]
    funext a b
    simp [Graph.Calls, he]
  have hlocs1 : g1.locOf = g.locOf := by
    funext a
    rw [← hloc, hlocs]
  have key : ∃ l', CallChain g.Calls m l' ∧ weight g.locOf l' = (l.map k).sum := by
    clear hmax
    induction hl generalizing m with
    | single v =>
      refine ⟨[m], .single m, ?_⟩
      obtain ⟨h3, h4⟩ := hk v (by simp)
      simp [weight, f.uses alike hm h4 h3, Local.bytes]
    | @call v w l hc _ ih =>
      obtain ⟨a, b, h3, h4, h5⟩ := f.calls alike addressed declares (un.keeps v w) hc
      obtain rfl := Program.LastOf.unique h3 hm
      obtain ⟨l', h6, h7⟩ := ih h4 (fun j hj => hk j (List.mem_cons_of_mem _ hj))
      obtain ⟨h8, h9⟩ := hk v (by simp)
      rcases h5 with h5 | ⟨x, h10, h11, h12⟩
      · refine ⟨a :: l', .call h5 h6, ?_⟩
        simp only [weight, List.map_cons, List.sum_cons] at h7 ⊢
        rw [h7, f.uses alike hm h9 h8]
        rfl
      · refine ⟨a :: x :: l', .call h10 (.call h11 h6), ?_⟩
        simp only [weight, List.map_cons, List.sum_cons] at h7 ⊢
        rw [h7, f.uses alike hm h9 h8, h12]
        simp [Local.bytes]
  obtain ⟨l', h3, h4⟩ := key
  cases hinfo : st.hasStackUsageInfo with
  | false =>
    rw [hinfo] at ha
    unfold analyzeMax at ha
    simp only [Bool.not_false, if_true, Except.ok.injEq, Prod.mk.injEq] at ha
    obtain ⟨rfl, _⟩ := ha
    rw [hmx] at hmax
    unfold Graph.maxOf? at hmax
    cases hn : g.nodes[m]? with
    | none => rw [hn] at hmax; simp at hmax
    | some nd =>
      rw [hn] at hmax
      simp only at hmax
      rw [f.max_none hn] at hmax
      simp at hmax
  | true =>
    rw [hinfo] at ha
    rw [hmx] at hmax
    obtain ⟨_, h7⟩ := C01_exact_max_sound f.wf hu ha hmax (l := l') (by rw [hcalls1]; exact h3)
    rw [hlocs1] at h7
    omega

/-- **C115** The node of a function that is not the last one of its names has no outgoing edges, whatever it calls. -/
theorem C115_shadowed {st : Build} {g : Graph}
    (h : callGraph demangle ord search p elf = .ok (st, g)) {i m : Nat} (hl : p.LastOf i m) (hne : i ≠ m) (b : Nat) :
    ¬ g.Calls i b := by
  intro hc
  obtain ⟨cs, st0, stIr, f⟩ := callGraph_shared h
  obtain ⟨a, s, a', t, hi, hm, hnames, hlast⟩ := hl
  obtain ⟨n, hn⟩ := f.src (List.getElem?_eq_some_iff.mp hi).1 hc
  have hcs := f.sym.indices_some n i hn
  obtain ⟨c, h1, h2, _⟩ := f.canon_at hm
  have hr : realNames t = realNames s := by unfold realNames; rw [hnames]
  have h3 := f.sym.canon i _ n hi hcs
  rw [← hr, h2] at h3
  cases h3
  have hlt : i < m := by
    rcases Nat.lt_trichotomy i m with h4 | h4 | h4
    · exact h4
    · exact absurd h4 hne
    · exact absurd rfl (hlast i a s h4 hi)
  refine (f.last n i hn).2 m (mkNode n (mget n p.stackSizes) false) hlt ?_ rfl
  rw [f.sym.nodes, List.getElem?_map, h1]
  rfl

/-- Where names are unique each function is the last one of its names. -/
theorem lastOf_self (once : p.NamesOnce) {i : Nat} {a : Nat} {s : Sym} {n : Str} (hi : p.defined[i]? = some (a, s))
    (hn : s.Named n) : p.LastOf i i := by
  refine ⟨a, s, a, s, hi, hi, rfl, ?_⟩
  intro k c u hk hu hnames
  have := once n i k ⟨a, s, hi, hn⟩ ⟨c, u, hu, ⟨hnames ▸ hn.1, hn.2⟩⟩
  omega

theorem alike_of_once (once : p.NamesOnce) : p.NamesAlike := by
  intro i j a s b t n hi hj hs ht
  obtain rfl := once n i j ⟨a, s, hi, hs⟩ ⟨b, t, hj, ht⟩
  rw [hi] at hj
  cases hj
  rfl

/-! ### Examples -/

/-- `main` calls the second of two functions made by the outliner, which have the same name: at 264 there is
`push {r7, lr}; pop {r7, pc}`, at 268 `sub sp, #64; add sp, #64; bx lr`. -/
def exTwins : Program :=
  { target := .thumbv7m
    defined := [(256, ⟨[c!"main"], 8⟩), (264, ⟨[c!"OUTLINED_FUNCTION_0"], 4⟩),
      (268, ⟨[c!"OUTLINED_FUNCTION_0"], 6⟩)]
    undefined := []
    stackSizes := [(c!"main", 8)]
    defines := [⟨c!"main", exSig, []⟩]
    declares := [] }

def exTwinsElf : Elf :=
  { symtab := []
    text := some (256, [0x80, 0xB5, 0x00, 0xF0, 0x03, 0xF8, 0x80, 0xBD, 0x80, 0xB5, 0x80, 0xBD,
      0x90, 0xB0, 0x10, 0xB0, 0x70, 0x47]) }

/-- The code of `exTwins`. -/
def exTwinsCode : Nat → Nat × List CodeItem
  | 0 => (256, [.instr (.push 0x80 true), .instr (.bl 6), .instr (.other 0xBD80)])
  | 1 => (264, [.instr (.push 0x80 true), .instr (.other 0xBD80)])
  | _ => (268, [.instr (.subSp 16), .instr (.other 0xB010), .instr (.bx 14)])

/-- **C115** is false where figures are not compared: the tool prints `max = 16` for `main`, with the figure of a
function that `main` does not call, and 72 bytes are in use at some time. -/
theorem C115_bound_violated :
    exTwins.NamesAlike ∧ exTwins.LastOf 0 0 ∧ exTwins.LastOf 1 2 ∧
    (∀ j < exTwins.defined.length, exTwins.HasCode linearSearch exTwinsElf j (exTwinsCode j).1
      (exTwinsCode j).2 ∧ TameCode (exTwinsCode j).2) ∧
    (finalGraph id sameOrder linearSearch exTwins exTwinsElf none).toOption.map
      (fun x => (x.1.maxOf? 0, x.1.edges)) = some (some (.exact 16), [(0, 2)]) ∧
    ∃ acts, Execution exTwins exTwinsCode 0 acts ∧ stackInUse acts = 72 := by
  have htags : elfTags exTwinsElf.symtab = [] := by decide +kernel
  refine ⟨?_, ?_, ?_, ?_, by decide +kernel, ?_⟩
  · intro i j a s b t n hi hj hs ht
    obtain ⟨hi', e1⟩ := List.getElem?_eq_some_iff.mp hi
    obtain ⟨hj', e2⟩ := List.getElem?_eq_some_iff.mp hj
    match i, j, hi', hj' with
    | 0, 0, _, _ | 0, 1, _, _ | 0, 2, _, _ | 1, 0, _, _ | 1, 1, _, _ | 1, 2, _, _ | 2, 0, _, _ | 2, 1, _, _
    | 2, 2, _, _ =>
      simp only [exTwins, List.getElem_cons_zero, List.getElem_cons_succ, Prod.mk.injEq] at e1 e2
      obtain ⟨_, rfl⟩ := e1
      obtain ⟨_, rfl⟩ := e2
      have h1 := hs.1
      have h2 := ht.1
      simp only [List.mem_cons, List.not_mem_nil, or_false] at h1 h2
      first
        | rfl
        | (rw [h1] at h2; revert h2; decide)
  · exact ⟨_, _, _, _, rfl, rfl, rfl, by
      intro k c u hk hu
      match k, hk, (List.getElem?_eq_some_iff.mp hu).1 with
      | 1, _, _ | 2, _, _ => cases hu; decide⟩
  · exact ⟨_, _, _, _, rfl, rfl, rfl, by
      intro k c u hk hu
      have := (List.getElem?_eq_some_iff.mp hu).1
      simp only [exTwins, List.length_cons, List.length_nil] at this
      omega⟩
  · intro j hj
    match j, hj with
    | 0, _ | 1, _ | 2, _ =>
      refine ⟨⟨_, _, _, _, _, rfl, rfl, rfl, markers_iff.mpr rfl, codeSize_iff.mpr (by decide +kernel),
        by decide, by decide, by decide +kernel, by decide +kernel, ?_, ?_⟩, tameCode_of (by decide)⟩
      · intro i hi
        simp only [exTwinsCode, List.mem_cons, CodeItem.instr.injEq, List.not_mem_nil, or_false] at hi
        rcases hi with rfl | hi
        · decide
        · rcases hi with rfl | hi
          · decide
          all_goals
            subst hi
            decide
      · rw [htags]
        simp [exTwinsCode, TagsFit]
  · have h1 : ExecStep exTwins exTwinsCode [⟨0, 0, 0, false⟩] [⟨0, 2, 8, false⟩] :=
      .inner (.run (i := .push 0x80 true) ⟨[], _, rfl, rfl⟩ rfl rfl)
    have h2 : ExecStep exTwins exTwinsCode [⟨0, 2, 8, false⟩] [⟨2, 0, 0, false⟩, ⟨0, 6, 8, false⟩] :=
      .call (off := 6) (t := 268) ⟨[_], _, rfl, rfl⟩ rfl (by decide) ⟨_, rfl⟩
    have h3 : ExecStep exTwins exTwinsCode [⟨2, 0, 0, false⟩, ⟨0, 6, 8, false⟩]
        [⟨2, 2, 64, false⟩, ⟨0, 6, 8, false⟩] :=
      .inner (.run (i := .subSp 16) ⟨[], _, rfl, rfl⟩ rfl rfl)
    exact ⟨_, .step (.step (.step .entry h1) h2) h3, rfl⟩

/-- Two functions with the same name and figure. -/
def exSame : Program :=
  { target := .thumbv7m
    defined := [(256, ⟨[c!"main"], 8⟩), (264, ⟨[c!"helper"], 4⟩), (268, ⟨[c!"helper"], 4⟩)]
    undefined := []
    stackSizes := [(c!"main", 8)]
    defines := [⟨c!"main", exSig, []⟩]
    declares := [] }

def exSameElf : Elf :=
  { symtab := []
    text := some (256, [0x80, 0xB5, 0x00, 0xF0, 0x03, 0xF8, 0x80, 0xBD, 0x80, 0xB5, 0x80, 0xBD,
      0x80, 0xB5, 0x80, 0xBD]) }

theorem exSame_strict : ∀ j < 3, ¬ exSame.Lenient j := by
  intro j hj h
  rcases h with ⟨x, d, hd, _, hx⟩ | ⟨name, ⟨a, s, pre, post, h1, h2, _⟩, h3⟩
  · simp only [exSame, List.mem_singleton] at hd
    subst hd
    cases hx
  · rw [← isOutlined_iff] at h3
    match j, hj with
    | 0, _ | 1, _ | 2, _ =>
      simp only [exSame, List.getElem?_cons_zero, List.getElem?_cons_succ, Option.some.injEq, Prod.mk.injEq] at h1
      obtain ⟨rfl, rfl⟩ := h1
      have hm : name ∈ pre ++ name :: post := by simp
      rw [← h2] at hm
      simp only [List.mem_cons, List.not_mem_nil, or_false] at hm
      subst hm
      revert h3
      decide

/-- All that is asked for can be had: `main` calls the second `helper`, both of which use 8 bytes. -/
example : exSame.NamesAlike ∧ exSame.Addressed ∧ exSame.LastOf 1 2 ∧ ¬ exSame.LastOf 1 1 ∧
    exSame.AnyCall linearSearch exSameElf 0 2 ∧ exSame.Uses linearSearch exSameElf 0 8 ∧
    exSame.Uses linearSearch exSameElf 1 8 ∧ exSame.Uses linearSearch exSameElf 2 8 ∧
    (∀ j < 3, ¬ exSame.Lenient j) ∧
    (finalGraph id sameOrder linearSearch exSame exSameElf none).toOption.map
      (fun x => (x.1.nodes.map (·.loc), x.1.edges, x.1.maxOf? 0)) =
      some ([.exact 8, .unknown, .exact 8], [(0, 2)], some (.exact 16)) := by
  have h0 : exSame.Decoded linearSearch exSameElf 0 256 8 ⟨[12], [], false, true, some 8⟩ :=
    decoded_iff.mpr ⟨_, _, _, _, rfl, rfl, rfl, by decide +kernel, by decide, by decide, by decide +kernel⟩
  refine ⟨?_, by unfold Program.Addressed; decide, ?_, ?_, .inr ⟨rfl, 256, 8, _, 268, h0, ?_, ⟨_, rfl⟩⟩,
    .inl ⟨rfl, _, _, _, h0, rfl⟩, .inl ⟨rfl, 264, 4, ⟨[], [], false, true, some 8⟩, ?_, rfl⟩,
    .inl ⟨rfl, 268, 4, ⟨[], [], false, true, some 8⟩, ?_, rfl⟩, ?_, by decide +kernel⟩
  · intro i j a s b t n hi hj hs ht
    obtain ⟨hi', e1⟩ := List.getElem?_eq_some_iff.mp hi
    obtain ⟨hj', e2⟩ := List.getElem?_eq_some_iff.mp hj
    match i, j, hi', hj' with
    | 0, 0, _, _ | 0, 1, _, _ | 0, 2, _, _ | 1, 0, _, _ | 1, 1, _, _ | 1, 2, _, _ | 2, 0, _, _ | 2, 1, _, _
    | 2, 2, _, _ =>
      simp only [exSame, List.getElem_cons_zero, List.getElem_cons_succ, Prod.mk.injEq] at e1 e2
      obtain ⟨_, rfl⟩ := e1
      obtain ⟨_, rfl⟩ := e2
      have h1 := hs.1
      have h2 := ht.1
      simp only [List.mem_cons, List.not_mem_nil, or_false] at h1 h2
      first
        | rfl
        | (rw [h1] at h2; revert h2; decide)
  · exact ⟨_, _, _, _, rfl, rfl, rfl, by
      intro k c u hk hu
      have := (List.getElem?_eq_some_iff.mp hu).1
      simp only [exSame, List.length_cons, List.length_nil] at this
      omega⟩
  · rintro ⟨a, s, b, t, h1, _, _, h3⟩
    cases h1
    exact h3 2 _ _ (by decide) rfl rfl
  · exact Or.inl ⟨12, by simp, by decide⟩
  · exact decoded_iff.mpr ⟨_, _, _, _, rfl, rfl, rfl, by decide +kernel, by decide, by decide, by decide +kernel⟩
  · exact decoded_iff.mpr ⟨_, _, _, _, rfl, rfl, rfl, by decide +kernel, by decide, by decide, by decide +kernel⟩
  · exact exSame_strict

end CallStack
