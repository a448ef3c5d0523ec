import Verif.Props.Indirect
import Verif.Props.Analysis
import Verif.Props.Symbols
import Verif.Props.Filter
import Verif.Props.Machine
import Verif.Spec.Dropped
import Verif.Proof.SharedLocal
import Verif.Proof.SharedNames

/-!
Property C41, and C13-C15 for the whole run: the printed max bounds the stack usage of the call chains of the program.
-/

namespace CallStack

/-- The known cases in which calls are dropped are those of `Dropped`. -/
theorem Program.Unambiguous.keeps {p : Program} (un : p.Unambiguous) (i j : Nat) : ¬ p.Dropped i j := by
  have same : ∀ {s s'}, p.TypeOf j s → p.TypeOf j s' → s' = s := by
    rintro s s' (h | ⟨h1, h2⟩) (h' | ⟨h1', h2'⟩)
    · exact un.defined j s' s h' h
    · exact absurd h (h1' s)
    · exact absurd h' (h1 s')
    · exact un.declared j s' s h1 h2' h2
  intro h
  cases h with
  | memcmp _ h2 h3 => exact h3 (un.memcmp j h2)
  | twoTypes _ h2 _ h4 h5 => exact h5 (same h2 h4)
  | formatter _ _ h3 h4 h5 => exact un.formatting j _ h3 h4 h5

/-- A call of the program is one or two edges of the graph; in the latter case the node in between uses
no stack. -/
theorem call_path {demangle : Str → Str} {ord : HashOrder} {search : TagSearch}
    {p : Program} {elf : Elf} {st : Build} {g : Graph} (once : p.NamesOnce)
    (declares : p.DeclaresOnce) (h : callGraph demangle ord search p elf = .ok (st, g)) {i j : Nat}
    (hd : ¬ p.Dropped i j) (hc : p.Call i j) :
    g.Calls i j ∨ ∃ k, g.Calls i k ∧ g.Calls k j ∧ g.locOf k = .exact 0 := by
  rcases hc with ⟨f, h1, h2, h3⟩ | ⟨sig, sig', h1, h2, h3⟩
  · refine Or.inl (C29_direct_calls_partial once h h1 h2 h3 ?_)
    rintro rfl
    by_contra h4
    exact hd (.memcmp h1 h3 h4)
  · have h4 : ∀ s, p.TypeOf j s → s = sig' := by
      intro s hs
      by_contra h5
      exact hd (.twoTypes h1 h3 h2 hs h5)
    have h5 : p.TypedAs j sig' ∧ (sig'.FmtShape → p.DefinedSig j sig') := by
      rcases h3 with h3 | ⟨h5, h6⟩
      · exact ⟨Or.inl ⟨h3, fun s hs => h4 s (Or.inl hs)⟩, fun _ => h3⟩
      · exact ⟨Or.inr ⟨h5, h6, fun s hs => h4 s (Or.inr ⟨h5, hs⟩)⟩,
          fun hf => absurd (.formatter h1 h2 h5 h6 hf) hd⟩
    obtain ⟨k, nd, h6, _, h7, h8, h9⟩ := C36_indirect_complete_partial once declares h h1 h5.1 h2 h5.2
    refine Or.inr ⟨k, h8, h9, ?_⟩
    unfold Graph.locOf
    rw [h6]
    exact h7

/-- A chain of calls of the program is a chain in the graph, after inserting nodes that use no stack. -/
theorem chain_path {g : Graph} {C : Nat → Nat → Prop}
    (path : ∀ {i j}, C i j → g.Calls i j ∨ ∃ k, g.Calls i k ∧ g.Calls k j ∧ g.locOf k = .exact 0)
    {i : Nat} {l : List Nat} (hl : CallChain C i l) :
    ∃ l', CallChain g.Calls i l' ∧ (∀ j ∈ l, j ∈ l') ∧ weight g.locOf l' = weight g.locOf l := by
  induction hl with
  | single v => exact ⟨[v], .single v, by simp, rfl⟩
  | @call v w l hc _ ih =>
    obtain ⟨l', h1, h2, h3⟩ := ih
    have hmem : ∀ x, x ∈ v :: l → x = v ∨ x ∈ l' := by
      intro x hx
      rcases List.mem_cons.mp hx with hx | hx
      · exact Or.inl hx
      · exact Or.inr (h2 x hx)
    rcases path hc with h4 | ⟨k, h4, h5, h6⟩
    · refine ⟨v :: l', .call h4 h1, fun x hx => ?_, ?_⟩
      · rcases hmem x hx with h | h <;> simp [h]
      · simp only [weight, List.map_cons, List.sum_cons] at h3 ⊢
        omega
    · refine ⟨v :: k :: l', .call h4 (.call h5 h1), fun x hx => ?_, ?_⟩
      · rcases hmem x hx with h | h <;> simp [h]
      · simp only [weight, List.map_cons, List.sum_cons] at h3 ⊢
        have h7 : (Local.exact 0).bytes = 0 := rfl
        rw [h6, h7]
        omega

/-- The bound for any relation whose steps are paths in the graph. -/
theorem chain_bound {demangle : Str → Str} {ord : HashOrder} {search : TagSearch}
    {p : Program} {elf : Elf} {g' : Graph} {cycles : List (List Nat)} (once : p.NamesOnce)
    (sizes : p.SizesU64) (fits : elf.Fits32) {C : Nat → Nat → Prop}
    (path : ∀ {st : Build} {g : Graph}, callGraph demangle ord search p elf = .ok (st, g) →
      ∀ {i j}, C i j → g.Calls i j ∨ ∃ k, g.Calls i k ∧ g.Calls k j ∧ g.locOf k = .exact 0)
    (h : finalGraph demangle ord search p elf none = .ok (g', cycles)) {i n : Nat}
    (hmax : g'.maxOf? i = some (.exact n)) {l : List Nat} (hl : CallChain C i l) :
    (∀ j ∈ l, (g'.locOf j).Known) ∧ weight g'.locOf l ≤ n := by
  obtain ⟨st, g, h1, h2⟩ := finalGraph_facts h
  obtain ⟨cs, ext, st0, stIr, r⟩ := callGraph_facts once h1
  have hu := r.u64 once sizes fits
  obtain ⟨l', h3, h4, h5⟩ := chain_path (path h1) hl
  obtain ⟨hcalls, hlocs⟩ := h2.calls r.wf hu
  obtain ⟨g1, ha, he, hloc, hmx⟩ := h2.analysis
  have hcalls1 : g1.Calls = g.Calls := by
    rw [← hcalls]
    funext a b
    simp [Graph.Calls, he]
  have hlocs1 : g1.locOf = g.locOf := by
    funext a
    rw [← hloc, hlocs]
  have hlocs' : g'.locOf = g.locOf := funext hlocs
  cases hinfo : st.hasStackUsageInfo with
  | false =>
    rw [hinfo] at ha
    unfold analyzeMax at ha
    simp only [Bool.not_false, if_true, Except.ok.injEq, Prod.mk.injEq] at ha
    obtain ⟨rfl, _⟩ := ha
    rw [hmx] at hmax
    unfold Graph.maxOf? at hmax
    cases hn : g.nodes[i]? with
    | none => rw [hn] at hmax; simp at hmax
    | some nd =>
      rw [hn] at hmax
      simp only at hmax
      rw [r.max_none hn] at hmax
      simp at hmax
  | true =>
    rw [hinfo] at ha
    rw [hmx] at hmax
    obtain ⟨h6, h7⟩ := C01_exact_max_sound r.wf hu ha hmax (l := l') (by rw [hcalls1]; exact h3)
    rw [hlocs1] at h6 h7
    rw [hlocs']
    exact ⟨fun j hj => h6 j (h4 j hj), by omega⟩

/-- **C41** On every target and for every program: if the tool prints `max = n` for the live function `i`, then along
every chain of direct and compatible indirect calls of the LLVM-IR that starts there the printed local usages are
known and sum to at most `n`, or else the chain contains a call of one of the kinds that may be dropped. -/
theorem C41_reasons {demangle : Str → Str} {ord : HashOrder} {search : TagSearch}
    {p : Program} {elf : Elf} {g' : Graph} {cycles : List (List Nat)} (once : p.NamesOnce)
    (declares : p.DeclaresOnce) (sizes : p.SizesU64) (fits : elf.Fits32)
    (h : finalGraph demangle ord search p elf none = .ok (g', cycles)) {i n : Nat}
    (hmax : g'.maxOf? i = some (.exact n)) {l : List Nat} (hl : CallChain p.Call i l) :
    ((∀ j ∈ l, (g'.locOf j).Known) ∧ weight g'.locOf l ≤ n) ∨
    ∃ pre a b post, l = pre ++ a :: b :: post ∧ p.Dropped a b := by
  rw [or_iff_not_imp_right]
  intro hno
  refine chain_bound once sizes fits (C := fun a b => p.Call a b ∧ ¬ p.Dropped a b)
    (fun h1 _ _ hc => call_path once declares h1 hc.2 hc.1) h hmax ?_
  clear hmax
  induction hl with
  | single v => exact .single v
  | @call v w l hc hl' ih =>
    refine .call ⟨hc, ?_⟩ (ih ?_)
    · intro hd
      obtain ⟨t, rfl⟩ : ∃ t, l = w :: t := by cases hl' <;> exact ⟨_, rfl⟩
      exact hno ⟨[], v, w, t, rfl, hd⟩
    · rintro ⟨pre, a, b, post, rfl, hd⟩
      exact hno ⟨v :: pre, a, b, post, rfl, hd⟩

/-- **C41** On every target: if the tool prints `max = n` for the live function `i`, then along every chain
of direct and compatible indirect calls of the LLVM-IR that starts there the printed local usages are known
and sum to at most `n`. Partial: the program must avoid the known cases of dropped calls, see
`C41_bound_violated`. -/
theorem C41_printed_locals_partial {demangle : Str → Str} {ord : HashOrder} {search : TagSearch}
    {p : Program} {elf : Elf} {g' : Graph} {cycles : List (List Nat)} (once : p.NamesOnce)
    (declares : p.DeclaresOnce) (un : p.Unambiguous) (sizes : p.SizesU64) (fits : elf.Fits32)
    (h : finalGraph demangle ord search p elf none = .ok (g', cycles)) {i n : Nat}
    (hmax : g'.maxOf? i = some (.exact n)) {l : List Nat} (hl : CallChain p.Call i l) :
    (∀ j ∈ l, (g'.locOf j).Known) ∧ weight g'.locOf l ≤ n := by
  rcases C41_reasons once declares sizes fits h hmax hl with h1 | ⟨_, a, b, _, _, h1⟩
  · exact h1
  · exact absurd h1 (un.keeps a b)

/-- The machine code of the `i`-th live function calls or jumps to the `j`-th one. -/
def Program.MachineCall (p : Program) (search : TagSearch) (elf : Elf) (i j : Nat) : Prop :=
  ∃ address size r t, p.Decoded search elf i address size r ∧ LeavesTo r address size t ∧ p.StartsAt j t

/-- A call of the machine code is an edge. -/
theorem machine_path {demangle : Str → Str} {ord : HashOrder} {search : TagSearch}
    {p : Program} {elf : Elf} {st : Build} {g : Graph} (once : p.NamesOnce) (addressed : p.Addressed)
    (declares : p.DeclaresOnce) (ht : p.target.isThumb = true)
    (h1 : callGraph demangle ord search p elf = .ok (st, g)) {i j : Nat} (hdr : ¬ p.Dropped i j)
    (hc : p.Call i j ∨ p.MachineCall search elf i j) :
    g.Calls i j ∨ ∃ k, g.Calls i k ∧ g.Calls k j ∧ g.locOf k = .exact 0 := by
  rcases hc with hc | ⟨address, size, r, t, hd, hto, s, hs⟩
  · exact call_path once declares h1 hdr hc
  · obtain ⟨a, s', stext, text, _, he, hx, _⟩ := id hd
    obtain ⟨address', size', r', hd', hall⟩ :=
      C49_jumps_are_calls once ht hx h1 (List.getElem?_eq_some_iff.mp he).1
    obtain ⟨k1, rfl, rfl⟩ := analyzed_of he hx hd
    obtain ⟨k2, rfl, rfl⟩ := analyzed_of he hx hd'
    rw [k1.unique k2] at hto
    obtain ⟨j', ⟨s'', hs''⟩, hcall, _⟩ := hall t hto
    -- only one function starts at `t`
    obtain ⟨hl1, e1⟩ := List.getElem?_eq_some_iff.mp hs
    obtain ⟨hl2, e2⟩ := List.getElem?_eq_some_iff.mp hs''
    have hjj : j = j' := by
      have hp := List.pairwise_iff_getElem.mp addressed
      rcases Nat.lt_trichotomy j j' with hlt | heq | hlt
      · have := hp j j' hl1 hl2 hlt
        rw [e1, e2] at this
        exact absurd this (Nat.lt_irrefl _)
      · exact heq
      · have := hp j' j hl2 hl1 hlt
        rw [e1, e2] at this
        exact absurd this (Nat.lt_irrefl _)
    rw [hjj]
    exact Or.inl hcall

/-- **C41** On thumb targets the bound also covers chains that mix calls of the LLVM-IR with the calls and
jumps found in the machine code. The local usages are the ones of `C50_in_call_graph`. Partial: as above. -/
theorem C41_machine_code_partial {demangle : Str → Str} {ord : HashOrder} {search : TagSearch}
    {p : Program} {elf : Elf} {g' : Graph} {cycles : List (List Nat)} (once : p.NamesOnce)
    (addressed : p.Addressed) (declares : p.DeclaresOnce) (un : p.Unambiguous) (sizes : p.SizesU64)
    (fits : elf.Fits32) (ht : p.target.isThumb = true)
    (h : finalGraph demangle ord search p elf none = .ok (g', cycles)) {i n : Nat}
    (hmax : g'.maxOf? i = some (.exact n)) {l : List Nat}
    (hl : CallChain (fun a b => p.Call a b ∨ p.MachineCall search elf a b) i l) :
    (∀ j ∈ l, (g'.locOf j).Known) ∧ weight g'.locOf l ≤ n :=
  chain_bound once sizes fits
    (fun h1 _ _ hc => machine_path once addressed declares ht h1 (un.keeps _ _) hc) h hmax hl

/-- **C41** On a target without machine code analysis: if the tool prints `max = n` for the live function
`i`, then along every chain of direct and compatible indirect calls of the LLVM-IR that starts there the
sizes reported by the compiler are known and sum to at most `n`. Partial: the program must avoid the known
cases of dropped calls, see `C41_bound_violated`. -/
theorem C41_end_to_end_partial {demangle : Str → Str} {ord : HashOrder} {search : TagSearch}
    {p : Program} {elf : Elf} {g' : Graph} {cycles : List (List Nat)} (other : p.target = .other)
    (once : p.NamesOnce) (declares : p.DeclaresOnce) (un : p.Unambiguous) (sizes : p.SizesU64)
    (h : finalGraph demangle ord search p elf none = .ok (g', cycles)) {i n : Nat}
    (hi : i < p.defined.length) (hmax : g'.maxOf? i = some (.exact n)) {l : List Nat}
    (hl : CallChain p.Call i l) :
    ∃ frames, List.Forall₂ p.Frame l frames ∧ frames.sum ≤ n := by
  have hother : p.target.isThumb = false := by rw [other]; rfl
  rw [finalGraph_other hother search search elf ⟨[], none⟩] at h
  have fits : (⟨[], none⟩ : Elf).Fits32 := by intro _ _ h; simp at h
  obtain ⟨hk, hw⟩ := C41_printed_locals_partial once declares un sizes fits h hmax hl
  obtain ⟨st, g, h1, h2⟩ := finalGraph_facts h
  obtain ⟨cs, ext, st0, stIr, r⟩ := callGraph_facts once h1
  have hlocs := (h2.calls r.wf (r.u64 once sizes fits)).2
  have hlive : ∀ j ∈ l, j < p.defined.length := by
    have lt_of : ∀ {n j}, p.LiveAt n j → j < p.defined.length := by
      rintro n j ⟨a, s, h, _⟩
      exact (List.getElem?_eq_some_iff.mp h).1
    clear hk hw hmax
    induction hl with
    | single v => simpa using hi
    | @call v w l hc _ ih =>
      have hw : w < p.defined.length := by
        rcases hc with ⟨f, _, _, h⟩ | ⟨sig, sig', _, _, ⟨d, _, h, _⟩ | ⟨_, d, _, h, _⟩⟩
        · exact lt_of h
        · exact lt_of h
        · exact lt_of h
      intro j hj
      rcases List.mem_cons.mp hj with rfl | hj
      · exact hi
      · exact ih hw j hj
  have hframe : ∀ j ∈ l, p.Frame j (g'.locOf j).bytes := by
    intro j hj
    have hlt := hlive j hj
    obtain ⟨nd, h3, _, _, _, h4⟩ := C28_in_call_graph other h1 j _ _
      (List.getElem?_eq_getElem hlt)
    have h5 := hk j hj
    have h6 : g'.locOf j = nd.loc := by
      rw [hlocs]
      unfold Graph.locOf
      rw [h3]
    rw [h6] at h5 ⊢
    cases hnl : nd.loc with
    | unknown => rw [hnl] at h5; exact h5.elim
    | exact k => exact (h4 k).mp hnl
  refine ⟨l.map (fun j => (g'.locOf j).bytes), ?_, hw⟩
  rw [List.forall₂_map_right_iff]
  exact List.forall₂_same.mpr hframe

theorem exPtrSig_self : exPtrSig.Compatible exPtrSig :=
  (C39_signatures exPtrSig exPtrSig).mp (C39_reflexive_symmetric exPtrSig exPtrSig).1

/-- **C41** is false in general (`C29`, `C36`): `main` calls `f` through a pointer of the type of `g`, which
was folded into `f`. The tool prints `max = 8` but the chain uses 24 bytes. -/
theorem C41_bound_violated (search : TagSearch) :
    exFolded.NamesOnce ∧ exFolded.DeclaresOnce ∧ CallChain exFolded.Call 0 [0, 1] ∧
    exFolded.Frame 0 8 ∧ exFolded.Frame 1 16 ∧
    ∃ (g' : Graph) (cycles : List (List Nat)),
      finalGraph id sameOrder search exFolded ⟨[], none⟩ none = .ok (g', cycles) ∧
      g'.maxOf? 0 = some (.exact 8) := by
  obtain ⟨h1, h2, h3, h4, g', cycles, h5, _, h6⟩ := C36_second_type_dropped search
  refine ⟨h1, h2, .call (Or.inr ⟨_, _, h3, ?_, Or.inl h4⟩) (.single 1), ?_, ?_, g', cycles, h5, h6⟩
  · exact exPtrSig_self
  · refine ⟨_, _, [], _, [], rfl, rfl, ?_, rfl, by simp⟩
    rw [← isTag_iff]; decide
  · refine ⟨_, _, [], _, [c!"g"], rfl, rfl, ?_, rfl, by simp⟩
    rw [← isTag_iff]; decide

/-- The reason in `C41_bound_violated` is that the function has two types. -/
example : exFolded.Dropped 0 1 := by
  obtain ⟨_, _, h3, h4, _⟩ := C36_second_type_dropped linearSearch
  refine .twoTypes h3 (.inl h4) exPtrSig_self (sig'' := exBinSig) (.inl ⟨⟨c!"f", exBinSig, []⟩, by simp [exFolded],
    mem_live rfl (by simp) rfl, rfl⟩) (by decide)

/-- The hypotheses are met by a program with direct and indirect calls; `main` gets `max = 48`. -/
def exEnd : Program :=
  { target := .other
    defined := [(8, ⟨[c!"main"], 4⟩), (16, ⟨[c!"f"], 8⟩), (24, ⟨[c!"g"], 8⟩), (32, ⟨[c!"h"], 8⟩)]
    undefined := []
    stackSizes := [(c!"main", 8), (c!"f", 16), (c!"g", 24), (c!"h", 8)]
    defines := [⟨c!"main", exSig, [.directCall c!"f"]⟩,
      ⟨c!"f", exBinSig, [.indirectCall exPtrSig]⟩, ⟨c!"g", exPtrSig, []⟩]
    declares := [⟨c!"h", some exOpaqueSig⟩] }

theorem exEnd_live {n : Str} {j : Nat} (h : exEnd.LiveAt n j) :
    (j = 0 ∧ n = c!"main") ∨ (j = 1 ∧ n = c!"f") ∨ (j = 2 ∧ n = c!"g") ∨ (j = 3 ∧ n = c!"h") := by
  obtain ⟨a, s, h1, h2, _⟩ := h
  have hlt : j < 4 := (List.getElem?_eq_some_iff.mp h1).1
  match j, hlt with
  | 0, _ | 1, _ | 2, _ | 3, _ =>
    simp only [exEnd, List.getElem?_cons_zero, List.getElem?_cons_succ, Option.some.injEq,
      Prod.mk.injEq] at h1
    obtain ⟨_, rfl⟩ := h1
    simp only [List.mem_cons, List.not_mem_nil, or_false] at h2
    subst h2
    simp

example : exEnd.NamesOnce ∧ exEnd.DeclaresOnce ∧ exEnd.Unambiguous ∧ exEnd.SizesU64 ∧
    CallChain exEnd.Call 0 [0, 1, 2] ∧ ∀ search, ∃ g' cycles,
      finalGraph id sameOrder search exEnd ⟨[], none⟩ none = .ok (g', cycles) ∧
      g'.maxOf? 0 = some (.exact 48) := by
  have hdef : ∀ {j s}, exEnd.DefinedSig j s →
      (j = 0 ∧ s = exSig) ∨ (j = 1 ∧ s = exBinSig) ∨ (j = 2 ∧ s = exPtrSig) := by
    rintro j s ⟨d, h1, h2, h3⟩
    simp only [exEnd, List.mem_cons, List.not_mem_nil, or_false] at h1
    have := exEnd_live h2
    rcases h1 with rfl | rfl | rfl <;> subst h3 <;> simp at this <;> simp [this]
  have hdec : ∀ {j s}, exEnd.DeclaredSig j s → s = exOpaqueSig := by
    rintro j s ⟨d, h1, h2, h3⟩
    simp only [exEnd, List.mem_cons, List.not_mem_nil, or_false] at h1
    subst h1
    exact (Option.some.inj h3).symm
  refine ⟨namesOnce_of (by decide), by unfold Program.DeclaresOnce; decide, ⟨?_, ?_, ?_, ?_⟩, ?_, ?_, ?_⟩
  · intro j h
    have := exEnd_live h
    simp at this
  · intro j s s' h1 h2
    have h1 := hdef h1
    have h2 := hdef h2
    rcases h1 with ⟨rfl, rfl⟩ | ⟨rfl, rfl⟩ | ⟨rfl, rfl⟩ <;> simp at h2 <;> exact h2.symm
  · intro j s s' _ h1 h2
    rw [hdec h1, hdec h2]
  · intro j s _ h1
    rw [hdec h1]
    rintro ⟨⟨t, ht⟩, _⟩
    simp [exOpaqueSig] at ht
  · intro n k hk
    have := mget_mem hk
    simp only [exEnd, List.mem_cons, List.not_mem_nil, or_false, Prod.mk.injEq] at this
    omega
  · refine .call (Or.inl ⟨c!"f", ⟨_, List.mem_cons_self, mem_live rfl List.mem_cons_self rfl, by simp⟩,
      ?_, mem_live rfl List.mem_cons_self rfl⟩) (.call (Or.inr ⟨exPtrSig, exPtrSig,
      ⟨⟨c!"f", exBinSig, [.indirectCall exPtrSig]⟩, by simp [exEnd],
        mem_live rfl List.mem_cons_self rfl, by simp⟩, exPtrSig_self,
      Or.inl ⟨⟨c!"g", exPtrSig, []⟩, by simp [exEnd], mem_live rfl List.mem_cons_self rfl, rfl⟩⟩)
      (.single 2))
    rw [← classify_plain (t := false)]; rfl
  · intro search
    exact finalGraph_eval rfl search _ none (fun g _ => g.maxOf? 0 = _) (by decide +kernel)

/-- `main` pushes 8 bytes and calls `f` and `g`; the call of `g` is not in the LLVM-IR. `f` jumps to `g`,
which pushes 16 bytes. -/
def exEndThumb : Program :=
  { target := .thumbv7m
    defined := [(256, ⟨[c!"main"], 8⟩), (264, ⟨[c!"f"], 2⟩), (266, ⟨[c!"g"], 4⟩)]
    undefined := []
    stackSizes := [(c!"main", 8), (c!"f", 0), (c!"g", 16)]
    defines := [⟨c!"main", exSig, [.directCall c!"f"]⟩, ⟨c!"f", exSig, []⟩, ⟨c!"g", exSig, []⟩]
    declares := [] }

/-- push {r7, lr}; bl f; pop {r7, pc}; b g; push {r4, r5, r7, lr}; pop {r4, r5, r7, pc} -/
def exEndElf : Elf :=
  { symtab := []
    text := some (256, [0x80, 0xB5, 0x00, 0xF0, 0x01, 0xF8, 0x80, 0xBD, 0xFF, 0xE7,
      0xB0, 0xB5, 0xB0, 0xBD]) }

/-- The hypotheses of `C41_machine_code_partial` are met; `main` gets `max = 24`. -/
example : exEndThumb.NamesOnce ∧ exEndThumb.Addressed ∧ exEndThumb.DeclaresOnce ∧
    exEndThumb.Unambiguous ∧ exEndThumb.SizesU64 ∧ exEndElf.Fits32 ∧
    CallChain (fun a b => exEndThumb.Call a b ∨ exEndThumb.MachineCall linearSearch exEndElf a b) 0
      [0, 1, 2] ∧
    ((finalGraph id sameOrder linearSearch exEndThumb exEndElf none).toOption.map
      (fun x => x.1.maxOf? 0)) = some (some (.exact 24)) := by
  have hdef : ∀ {j s}, exEndThumb.DefinedSig j s → s = exSig := by
    rintro j s ⟨d, h1, h2, h3⟩
    simp only [exEndThumb, List.mem_cons, List.not_mem_nil, or_false] at h1
    rcases h1 with rfl | rfl | rfl <;> exact h3.symm
  have hdec : ∀ {j s}, ¬ exEndThumb.DeclaredSig j s := by
    rintro j s ⟨d, h1, _⟩
    simp [exEndThumb] at h1
  refine ⟨namesOnce_of (by decide), by unfold Program.Addressed; decide,
    by unfold Program.DeclaresOnce; decide, ⟨?_, ?_, ?_, ?_⟩, ?_, ?_, ?_, by decide +kernel⟩
  · rintro j ⟨a, s, h1, h2, _⟩
    have hlt : j < 3 := (List.getElem?_eq_some_iff.mp h1).1
    match j, hlt with
    | 0, _ | 1, _ | 2, _ =>
      simp only [exEndThumb, List.getElem?_cons_zero, List.getElem?_cons_succ, Option.some.injEq,
        Prod.mk.injEq] at h1
      rw [← h1.2] at h2
      simp at h2
  · intro j s s' h1 h2
    rw [hdef h1, hdef h2]
  · intro j s s' _ h1 _
    exact absurd h1 hdec
  · intro j s _ h1
    exact absurd h1 hdec
  · intro n k hk
    have := mget_mem hk
    simp only [exEndThumb, List.mem_cons, List.not_mem_nil, or_false, Prod.mk.injEq] at this
    omega
  · rintro a b h
    simp only [exEndElf, Option.some.injEq, Prod.mk.injEq] at h
    rw [← h.2]
    decide
  · refine .call (Or.inl (Or.inl ⟨c!"f", ⟨_, List.mem_cons_self, mem_live rfl List.mem_cons_self rfl,
      by simp⟩, ?_, mem_live rfl List.mem_cons_self rfl⟩)) (.call (Or.inr ⟨264, 2,
      ⟨[], [2], false, false, some 0⟩, 266, ?_, ?_, ⟨_, rfl⟩⟩) (.single 2))
    · rw [← classify_plain (t := true)]; rfl
    · exact decoded_iff.mpr ⟨_, _, _, _, rfl, rfl, rfl, by decide +kernel, by decide, by decide, by decide +kernel⟩
    · exact Or.inr ⟨2, by simp, by decide, by decide⟩

/-! ### the effect of `--start` on the printed graph -/

theorem lookupStr_eq_mget {α : Type} (k : Str) (l : List (Str × α)) : lookupStr k l = mget k l := by
  induction l with
  | nil => rfl
  | cons e l ih => obtain ⟨k', v⟩ := e; unfold lookupStr mget; rw [ih]

theorem resolveStart_key {demangle : Str → Str} {indices : List (Str × Nat)} {start : Str} {i : Nat}
    (h : resolveStart demangle indices start = some i) :
    ∃ key, mget key indices = some i ∧ (key = start ∨ StartMatches demangle start key) := by
  unfold resolveStart at h
  split at h
  · rename_i j hj
    rw [lookupStr_eq_mget] at hj
    exact ⟨start, by rw [hj, h], Or.inl rfl⟩
  · simp only at h
    split at h
    · simp at h
    · split at h
      · simp at h
      · rename_i key _ hk
        rw [lookupStr_eq_mget] at h
        have := List.mem_filter.mp (hk ▸ List.mem_cons_self)
        exact ⟨key, h, Or.inr ((startsWith_iff _ _).mp this.2)⟩

theorem SameButMax.at_ {g g' : Graph} (h : SameButMax g g') (i : Nat) :
    g'.nodes[i]?.map (fun nd => { nd with max := none }) =
      g.nodes[i]?.map (fun nd => { nd with max := none }) := by
  have := congrArg (fun l => l[i]?) h.2
  simpa [List.getElem?_map] using this

/-- The part of `g` that is reachable from `start` is `g'`, up to the numbering `ren` of the nodes. -/
structure Restricted (g : Graph) (start : Nat) (g' : Graph) (ren : Nat → Nat) : Prop where
  bij : ReachBijection g start g' ren
  nodes : ∀ i, Reach g.Calls start i → g'.nodes[ren i]? = g.nodes[i]?
  edges : ∀ i j, Reach g.Calls start i → Reach g.Calls start j →
    g'.edges.count (ren i, ren j) = g.edges.count (i, j)

/-- **C13, C14, C15** for the whole run: if the tool succeeds without a start point then it succeeds with
any start point. It prints either the same graph, if the start point cannot be resolved, or exactly the
part that is reachable from a function with the given name, with all names, local usages and maxima
unchanged. -/
theorem C15_printed_graph {demangle : Str → Str} {ord : HashOrder} {search : TagSearch}
    {p : Program} {elf : Elf} {g : Graph} {cycles : List (List Nat)} (sizes : p.SizesU64) (fits : elf.Fits32)
    (h : finalGraph demangle ord search p elf none = .ok (g, cycles)) (start : Str) :
    ∃ st g0 g' cycles', callGraph demangle ord search p elf = .ok (st, g0) ∧
      finalGraph demangle ord search p elf (some start) = .ok (g', cycles') ∧
      ((resolveStart demangle st.indices start = none ∧ g' = g ∧ cycles' = cycles) ∨
        ∃ i nd ren, resolveStart demangle st.indices start = some i ∧
          g0.nodes[i]? = some nd ∧ (nd.name = start ∨ StartMatches demangle start nd.name) ∧
          Restricted g i g' ren) := by
  have h0 := h
  unfold finalGraph at h
  split at h
  · simp at h
  · rename_i st g0 hc
    simp only [applyStart] at h
    split at h
    · simp at h
    · rename_i g1 cyc ha
      split at h
      · simp at h
      · rename_i nodes hs
        simp only [Except.ok.injEq, Prod.mk.injEq] at h
        obtain ⟨rfl, rfl⟩ := h
        unfold finalGraph
        rw [hc]
        simp only [applyStart]
        cases hr : resolveStart demangle st.indices start with
        | none => exact ⟨st, g0, _, cyc, rfl, by simp [ha, hs], Or.inl ⟨hr, rfl, rfl⟩⟩
        | some i =>
          obtain ⟨cs, st0, stIr, r⟩ := callGraph_shared hc
          have hu := r.u64 sizes fits
          obtain ⟨key, hk, hkey⟩ := resolveStart_key hr
          obtain ⟨nd, hn, hname⟩ := r.index hk
          have hi : i < g0.nodes.length := (List.getElem?_eq_some_iff.mp hn).1
          -- the filtered graph, and its analysis
          have key2 : ∃ fs ren g2 cyc2, filterGraph g0 i = .ok fs ∧
              analyzeMax st.hasStackUsageInfo fs.g2 = .ok (g2, cyc2) ∧
              g1.edges = g0.edges ∧ Restricted g1 i g2 ren := by
            cases hinfo : st.hasStackUsageInfo with
            | false =>
              rw [hinfo] at ha
              simp only [analyzeMax, Bool.not_false, if_true, Except.ok.injEq, Prod.mk.injEq] at ha
              obtain ⟨rfl, _⟩ := ha
              obtain ⟨fs, ren, h1, _, h2, h3, h4⟩ := C14_start_keeps_calls r.wf hi
              exact ⟨fs, ren, fs.g2, [], h1, by simp [analyzeMax], rfl, h2, h3, h4⟩
            | true =>
              rw [hinfo] at ha
              obtain ⟨a1, a2, _⟩ := analyzeMax_ok r.wf hu ha
              obtain ⟨fs, ren, g2, cyc2, k1, k2, k3, k4, k5, k6, k7⟩ := C15_max_unchanged r.wf hu hi ha
              refine ⟨fs, ren, g2, cyc2, k1, k2, a1.1, ⟨?_, ?_, ?_⟩, ?_, ?_⟩
              · rw [a1.calls, k6.length]; exact k3.lt
              · rw [a1.calls]; exact k3.inj
              · rw [a1.calls, k6.length]; exact k3.surj
              · rw [a1.calls]
                intro j hj
                have e1 := k6.at_ (ren j)
                have e2 := a1.at_ j
                have e3 := k7 j hj
                unfold Graph.maxOf? at e3
                rw [k4 j hj] at e1
                rw [← e2] at e1
                cases hx : g2.nodes[ren j]? <;> cases hy : g1.nodes[j]? <;> rw [hx, hy] at e1 e3
                · simp at e1
                · simp at e1
                · rename_i x y
                  simp only [Option.map_some, Option.some.injEq, Node.mk.injEq] at e1 e3 ⊢
                  cases x; cases y
                  simp_all
              · rw [a1.calls, a1.1, k6.1]; exact k5
          obtain ⟨fs, ren, g2, cyc2, k1, k2, k3, k4⟩ := key2
          -- the shortened names
          have hsh := shortenNodes_iff.mp hs
          have hex : ∀ nd ∈ g2.nodes, ∃ nd', ∃ name,
              shortenName demangle st.ambiguous nd.name = .ok name ∧ nd' = { nd with name } := by
            intro x hx
            obtain ⟨k, hk⟩ := List.getElem?_of_mem hx
            obtain ⟨j, hj, rfl⟩ := k4.bij.surj k (List.getElem?_eq_some_iff.mp hk).1
            rw [k4.nodes j hj] at hk
            obtain ⟨b, _, hb⟩ := (forall₂_at hsh j).1 x hk
            exact ⟨b, hb⟩
          obtain ⟨nodes2, hs2⟩ := forall₂_of_at hex
          have hlen := hs2.length_eq
          refine ⟨st, g0, { g2 with nodes := nodes2 }, cyc2, rfl, ?_, Or.inr ⟨i, nd, ren, hr, hn, ?_, ?_⟩⟩
          · simp only
            rw [k1]
            simp only
            rw [k2]
            simp only
            rw [shortenNodes_iff.mpr hs2]
          · rw [hname]; exact hkey
          · have hcalls : ({ g1 with nodes := nodes } : Graph).Calls = g1.Calls := rfl
            refine ⟨⟨?_, ?_, ?_⟩, ?_, ?_⟩
            · rw [hcalls]; simp only [← hlen]; exact k4.bij.lt
            · rw [hcalls]; exact k4.bij.inj
            · rw [hcalls]; simp only [← hlen]; exact k4.bij.surj
            · rw [hcalls]
              intro j hj
              have e := k4.nodes j hj
              have e1 := forall₂_at hsh j
              have e2 := forall₂_at hs2 (ren j)
              simp only
              cases hx : g1.nodes[j]? with
              | none =>
                rw [hx] at e
                rw [e1.2 hx, e2.2 e]
              | some x =>
                rw [hx] at e
                obtain ⟨b1, hb1, n1, hn1, rfl⟩ := e1.1 x hx
                obtain ⟨b2, hb2, n2, hn2, rfl⟩ := e2.1 x e
                rw [hb1, hb2]
                rw [hn1, Except.ok.injEq] at hn2
                rw [hn2]
            · rw [hcalls]; exact k4.edges

/-- **C41** with a start point: the bound holds for every function that is kept. Partial: as for
`C41_end_to_end_partial`; and the run without a start point must succeed. -/
theorem C41_with_start_partial {demangle : Str → Str} {ord : HashOrder} {search : TagSearch}
    {p : Program} {elf : Elf} {g g' : Graph} {cycles cycles' : List (List Nat)}
    (other : p.target = .other) (once : p.NamesOnce) (declares : p.DeclaresOnce) (un : p.Unambiguous)
    (sizes : p.SizesU64) (h : finalGraph demangle ord search p elf none = .ok (g, cycles)) {start : Str}
    (hs : finalGraph demangle ord search p elf (some start) = .ok (g', cycles')) :
    g' = g ∨ ∃ s ren, Restricted g s g' ren ∧
      ∀ i n, Reach g.Calls s i → i < p.defined.length → g'.maxOf? (ren i) = some (.exact n) →
        ∀ l, CallChain p.Call i l → ∃ frames, List.Forall₂ p.Frame l frames ∧ frames.sum ≤ n := by
  have hother : p.target.isThumb = false := by rw [other]; rfl
  rw [finalGraph_other hother search search elf ⟨[], none⟩] at h hs
  have fits : (⟨[], none⟩ : Elf).Fits32 := by intro _ _ h; simp at h
  obtain ⟨st, g0, g2, c2, _, h1, h2⟩ := C15_printed_graph sizes fits h start
  rw [hs] at h1
  simp only [Except.ok.injEq, Prod.mk.injEq] at h1
  obtain ⟨rfl, rfl⟩ := h1
  rcases h2 with ⟨_, h2, _⟩ | ⟨s, nd, ren, _, _, _, hr⟩
  · exact Or.inl h2
  · refine Or.inr ⟨s, ren, hr, fun i n hi hlt hmax l hl => ?_⟩
    refine C41_end_to_end_partial other once declares un sizes h hlt ?_ hl
    unfold Graph.maxOf? at hmax ⊢
    rw [hr.nodes i hi] at hmax
    exact hmax

/-- Both outcomes of a start point: `f` is found and `main` disappears; `x` is not found. -/
example (search : TagSearch) :
    (∃ g' cycles, finalGraph id sameOrder search exEnd ⟨[], none⟩ (some c!"f") = .ok (g', cycles) ∧
      g'.nodes.length = 5 ∧ g'.maxOf? 0 = some (.exact 40)) ∧
    (∃ g' cycles, finalGraph id sameOrder search exEnd ⟨[], none⟩ (some c!"x") = .ok (g', cycles) ∧
      g'.nodes.length = 6 ∧ g'.maxOf? 0 = some (.exact 48)) :=
  ⟨finalGraph_eval rfl search _ (some c!"f")
      (fun g _ => g.nodes.length = 5 ∧ g.maxOf? 0 = some (.exact 40)) (by decide +kernel),
    finalGraph_eval rfl search _ (some c!"x")
      (fun g _ => g.nodes.length = 6 ∧ g.maxOf? 0 = some (.exact 48)) (by decide +kernel)⟩

end CallStack
