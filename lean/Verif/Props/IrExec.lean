import Verif.Proof.IrExec
import Verif.Props.EndToEnd
import Verif.Props.Edges

/-!
Property C104: executions at the level of the LLVM-IR, on targets without machine code analysis.
-/

namespace CallStack

/-- One or two edges of the graph; in the latter case the node in between uses no stack. -/
def Graph.Path (g : Graph) (i j : Nat) : Prop :=
  g.Calls i j ∨ ∃ k, g.Calls i k ∧ g.Calls k j ∧ g.locOf k = .exact 0

/-- A call through a bitcast leads to the function, or to a node with unknown usage. -/
theorem bitcast_path {demangle : Str → Str} {ord : HashOrder} {search : TagSearch}
    {p : Program} {elf : Elf} {st : Build} {g : Graph} (once : p.NamesOnce)
    (h : callGraph demangle ord search p elf = .ok (st, g)) {i : Nat} {f : Str}
    (hc : p.Contains i (.bitcastCall (some f))) :
    (∃ j, p.Principal j f ∧ g.Calls i j) ∨ ∃ k, g.Calls i k ∧ g.locOf k = .unknown := by
  obtain ⟨cs, ext, st0, stIr, r⟩ := callGraph_facts once h
  obtain ⟨before, hb⟩ : ∃ before, p.StmtAt before i (.bitcastCall (some f)) := Contains.stmtAt hc
  obtain ⟨k, h1, h2⟩ := ((irGraph_edges r.irOk r.ir).2 i f).mpr ⟨before, _, hb, .bitcast f⟩
  have h3 := r.edges_ir h2
  by_cases hk : k < cs.length
  · left
    rw [List.getElem?_append_left hk] at h1
    exact ⟨k, r.ir.principal.mpr h1, h3⟩
  · right
    have h4 := r.ext_unknown h1 (by omega)
    refine ⟨k, h3, ?_⟩
    unfold Graph.locOf
    rw [h4]
    rfl

/-- A call of the program is a path in the graph, or the caller has an edge to a node with unknown usage. -/
theorem runs_path {demangle : Str → Str} {ord : HashOrder} {search : TagSearch}
    {p : Program} {elf : Elf} {st : Build} {g : Graph} (once : p.NamesOnce) (other : p.target = .other)
    (declares : p.DeclaresOnce) (h : callGraph demangle ord search p elf = .ok (st, g)) {i j : Nat}
    (hd : ¬ p.Dropped i j) (hm : ¬ p.DroppedMemory i j) (hc : p.RunsInto i j) :
    g.Path i j ∨ ∃ k, g.Calls i k ∧ g.locOf k = .unknown := by
  cases hc with
  | direct h1 h2 h3 => exact Or.inl (call_path once declares h hd (Or.inl ⟨_, h1, h2, h3⟩))
  | pointer h1 => exact Or.inl (call_path once declares h hd (Or.inr h1))
  | @bitcast f h1 h2 =>
    rcases bitcast_path once h h1 with ⟨j', h3, h4⟩ | h3
    · obtain ⟨cs, ext, st0, stIr, r⟩ := callGraph_facts once h
      have h5 : p.LiveAt f j' := r.ir.self f j' (r.ir.principal.mp h3)
      rw [once f j j' h2 h5]
      exact Or.inl (Or.inl h4)
    · exact Or.inr h3
  | @memory f r h1 h2 h3 =>
    by_cases h6 : ∃ r', p.Principal j r' ∧ ((c!"llvm.memcpy." <+: f ∧ r' ∈ CopyRoutines) ∨
      ((c!"llvm.memset." <+: f ∨ c!"llvm.memmove." <+: f) ∧ r' ∈ FillRoutines))
    · obtain ⟨r', h4, h5⟩ := h6
      exact Or.inl (Or.inl (C34_memory_partial once other h h1 h4 h5))
    · exact absurd ⟨f, r, h1, h2, h3, fun r' h4 => ⟨fun h5 => h6 ⟨r', h4, .inl h5⟩,
        fun h5 => h6 ⟨r', h4, .inr h5⟩⟩⟩ hm

theorem Program.RoutinesFound.keeps {p : Program} (found : p.RoutinesFound) (i j : Nat) : ¬ p.DroppedMemory i j := by
  rintro ⟨f, r, h1, h2, h3, h4⟩
  obtain ⟨r', h5, h6⟩ := found i f r j h1 h2 h3
  rcases h6 with h6 | h6
  · exact (h4 r' h5).1 h6
  · exact (h4 r' h5).2 h6

theorem RunsInto.lt {p : Program} {i j : Nat} (h : p.RunsInto i j) : j < p.defined.length := by
  have lt_of : ∀ {n j}, p.LiveAt n j → j < p.defined.length := by
    rintro n j ⟨a, s, h, _⟩
    exact (List.getElem?_eq_some_iff.mp h).1
  cases h with
  | direct _ _ h => exact lt_of h
  | bitcast _ h => exact lt_of h
  | memory _ _ h => exact lt_of h
  | pointer h =>
    rcases h with ⟨sig, sig', _, _, ⟨d, _, h, _⟩ | ⟨_, d, _, h, _⟩⟩
    · exact lt_of h
    · exact lt_of h

/-- Only functions that can be reached become active. -/
theorem IrExecution.reach {p : Program} {i : Nat} {acts : List Nat} (h : IrExecution p i acts) :
    ∀ j ∈ acts, Reach p.RunsInto i j := by
  induction h with
  | entry =>
    intro j hj
    simp only [List.mem_cons, List.not_mem_nil, or_false] at hj
    rw [hj]
    exact .refl _
  | step _ hs ih =>
    cases hs with
    | call hr =>
      intro j hj
      rcases List.mem_cons.mp hj with rfl | hj
      · exact (ih _ List.mem_cons_self).tail hr
      · exact ih j hj
    | tail hr =>
      intro j hj
      rcases List.mem_cons.mp hj with rfl | hj
      · exact (ih _ List.mem_cons_self).tail hr
      · exact ih j (List.mem_cons_of_mem _ hj)
    | ret => exact fun j hj => ih j (List.mem_cons_of_mem _ hj)

/-- The active functions, with their frames, lie on a chain of the graph; none of them has an edge to a node with
unknown usage. -/
theorem exec_stacked {demangle : Str → Str} {ord : HashOrder} {search : TagSearch}
    {p : Program} {elf : Elf} {g' : Graph} {cycles : List (List Nat)} (once : p.NamesOnce)
    (other : p.target = .other) (declares : p.DeclaresOnce) (sizes : p.SizesU64) (fits : elf.Fits32)
    (h : finalGraph demangle ord search p elf none = .ok (g', cycles)) {i n : Nat}
    (keeps : ∀ a b, Reach p.RunsInto i a → ¬ p.Dropped a b ∧ ¬ p.DroppedMemory a b)
    (hmax : g'.maxOf? i = some (.exact n)) {st : Build} {g : Graph}
    (h1 : callGraph demangle ord search p elf = .ok (st, g)) {acts : List Nat} (hi : i < p.defined.length)
    (he : IrExecution p i acts) :
    Stacked g.Path i acts ∧ ∀ j ∈ acts, j < p.defined.length := by
  induction he with
  | entry => exact ⟨.entry i, by simpa using hi⟩
  | @step acts acts' hex hs ih =>
    obtain ⟨ih, hlt⟩ := ih
    have path : ∀ {a b rest}, acts = a :: rest → p.RunsInto a b → g.Path a b := by
      rintro a b rest rfl hr
      have hk := keeps a b (hex.reach a List.mem_cons_self)
      rcases runs_path once other declares h1 hk.1 hk.2 hr with h2 | ⟨k, h2, h3⟩
      · exact h2
      · exfalso
        rcases ih.call (b := k) (Or.inl h2) with h4 | ⟨a', rest', l, h4, h5, h6, h7⟩
        · simp at h4
        · simp only [List.cons.injEq] at h4
          obtain ⟨rfl, rfl⟩ := h4
          have h8 := (chain_bound once sizes fits (C := g.Path)
            (fun h9 => by rw [h1] at h9; cases h9; exact id) h hmax (chain_of_stacked h6 h7)).1 k (by simp)
          obtain ⟨st', g1, h9, h10⟩ := finalGraph_facts h
          rw [h1] at h9; cases h9
          obtain ⟨cs, ext, st0, stIr, r⟩ := callGraph_facts once h1
          rw [(h10.calls r.wf (r.u64 once sizes fits)).2, h3] at h8
          exact h8
    cases hs with
    | call hr =>
      refine ⟨ih.call (path rfl hr), ?_⟩
      intro j hj
      rcases List.mem_cons.mp hj with rfl | hj
      · exact RunsInto.lt hr
      · exact hlt j hj
    | tail hr =>
      refine ⟨ih.tail (path rfl hr), ?_⟩
      intro j hj
      rcases List.mem_cons.mp hj with rfl | hj
      · exact RunsInto.lt hr
      · exact hlt j (List.mem_cons_of_mem _ hj)
    | ret => exact ⟨ih.ret, fun j hj => hlt j (List.mem_cons_of_mem _ hj)⟩

/-- Functions further out were innermost before. -/
theorem IrExecution.outer {p : Program} {i : Nat} {pre acts : List Nat} (h : IrExecution p i (pre ++ acts)) :
    IrExecution p i acts := by
  induction pre with
  | nil => exact h
  | cons a pre ih => exact ih (.step h .ret)

/-- **C104** On a target without machine code analysis, for every program: if the tool prints `max = n` for the live
function `i`, then whenever a call of `i` is executed, the sizes that the compiler reports for the active functions
are known and sum to at most `n`; or else a function that can be reached from `i` has a call of one of the kinds that
may be dropped. Calls may be direct, through a bitcast, through a pointer to a function of compatible type, calls of
the memory routines that intrinsics are compiled to, and calls in tail position. -/
theorem C104_reasons {demangle : Str → Str} {ord : HashOrder} {search : TagSearch}
    {p : Program} {elf : Elf} {g' : Graph} {cycles : List (List Nat)} (other : p.target = .other)
    (once : p.NamesOnce) (declares : p.DeclaresOnce)
    (sizes : p.SizesU64) (h : finalGraph demangle ord search p elf none = .ok (g', cycles)) {i n : Nat}
    (hi : i < p.defined.length) (hmax : g'.maxOf? i = some (.exact n)) {acts : List Nat}
    (he : IrExecution p i acts) :
    (∃ frames, List.Forall₂ p.Frame acts frames ∧ frames.sum ≤ n) ∨
    ∃ a b, Reach p.RunsInto i a ∧ (p.Dropped a b ∨ p.DroppedMemory a b) := by
  rw [or_iff_not_imp_right]
  intro hno
  simp only [not_exists, not_and, not_or] at hno
  have keeps : ∀ a b, Reach p.RunsInto i a → ¬ p.Dropped a b ∧ ¬ p.DroppedMemory a b := hno
  have hother : p.target.isThumb = false := by rw [other]; rfl
  rw [finalGraph_other hother search search elf ⟨[], none⟩] at h
  have fits : (⟨[], none⟩ : Elf).Fits32 := by intro _ _ h; simp at h
  obtain ⟨st, g, h1, h2⟩ := finalGraph_facts h
  obtain ⟨cs, ext, st0, stIr, r⟩ := callGraph_facts once h1
  have hlocs := (h2.calls r.wf (r.u64 once sizes fits)).2
  obtain ⟨hs, hlive⟩ := exec_stacked once other declares sizes fits h keeps hmax h1 hi he
  have key : (∀ j ∈ acts, (g'.locOf j).Known) ∧ weight g'.locOf acts ≤ n := by
    rcases hs with rfl | ⟨a, rest, l, rfl, h5, h6, h7⟩
    · simp [weight]
    · obtain ⟨h8, h9⟩ := chain_bound once sizes fits (C := g.Path)
        (fun h9 => by rw [h1] at h9; cases h9; exact id) h hmax (chain_of_stacked h6 h7)
      have hsub : (a :: rest).Sublist (a :: l) := h5.cons_cons a
      refine ⟨fun j hj => h8 j (by rw [List.mem_reverse]; exact hsub.subset hj), le_trans ?_ h9⟩
      unfold weight
      rw [List.map_reverse, List.sum_reverse]
      exact sublist_sum_le (hsub.map _)
  have hframe : ∀ j ∈ acts, p.Frame j (g'.locOf j).bytes := by
    intro j hj
    have hlt := hlive j hj
    obtain ⟨nd, h3, _, _, _, h4⟩ := C28_in_call_graph other h1 j _ _
      (List.getElem?_eq_getElem hlt)
    have h5 := key.1 j hj
    have h6 : g'.locOf j = nd.loc := by
      rw [hlocs]
      unfold Graph.locOf
      rw [h3]
    rw [h6] at h5 ⊢
    cases hnl : nd.loc with
    | unknown => rw [hnl] at h5; exact h5.elim
    | exact k => exact (h4 k).mp hnl
  refine ⟨acts.map (fun j => (g'.locOf j).bytes), ?_, key.2⟩
  rw [List.forall₂_map_right_iff]
  exact List.forall₂_same.mpr hframe

/-- **C104** On a target without machine code analysis: if the tool prints `max = n` for the live function `i`,
then whenever a call of `i` is executed, the sizes that the compiler reports for the active functions are known and
sum to at most `n`. Calls may be direct, through a bitcast, through a pointer to a function of compatible type,
calls of the memory routines that intrinsics are compiled to, and calls in tail position. Partial: the known cases
of dropped calls are excluded, for memory routines see `C34_alias_not_found` and `C34_memmove_is_a_fill`. -/
theorem C104_executions_partial {demangle : Str → Str} {ord : HashOrder} {search : TagSearch}
    {p : Program} {elf : Elf} {g' : Graph} {cycles : List (List Nat)} (other : p.target = .other)
    (once : p.NamesOnce) (declares : p.DeclaresOnce) (un : p.Unambiguous) (found : p.RoutinesFound)
    (sizes : p.SizesU64) (h : finalGraph demangle ord search p elf none = .ok (g', cycles)) {i n : Nat}
    (hi : i < p.defined.length) (hmax : g'.maxOf? i = some (.exact n)) {acts : List Nat}
    (he : IrExecution p i acts) :
    ∃ frames, List.Forall₂ p.Frame acts frames ∧ frames.sum ≤ n := by
  rcases C104_reasons other once declares sizes h hi hmax he with h1 | ⟨a, b, _, h1 | h1⟩
  · exact h1
  · exact absurd h1 (un.keeps a b)
  · exact absurd h1 (found.keeps a b)

/-- **C104** If the tool prints an exact maximum for a function, then no function that is active during a call of
it calls a function outside the executable (other than `memcmp`, see `C35_external_memcmp`). -/
theorem C104_closed_partial {demangle : Str → Str} {ord : HashOrder} {search : TagSearch}
    {p : Program} {elf : Elf} {g' : Graph} {cycles : List (List Nat)} (other : p.target = .other)
    (once : p.NamesOnce) (declares : p.DeclaresOnce) (un : p.Unambiguous) (found : p.RoutinesFound)
    (sizes : p.SizesU64) (h : finalGraph demangle ord search p elf none = .ok (g', cycles)) {i n : Nat}
    (hi : i < p.defined.length) (hmax : g'.maxOf? i = some (.exact n)) {acts : List Nat}
    (he : IrExecution p i acts) {j : Nat} (hj : j ∈ acts) : ¬ p.CallsOutside j := by
  rintro ⟨f, hnl, hc⟩
  have hother : p.target.isThumb = false := by rw [other]; rfl
  rw [finalGraph_other hother search search elf ⟨[], none⟩] at h
  have fits : (⟨[], none⟩ : Elf).Fits32 := by intro _ _ h; simp at h
  obtain ⟨st, g, h1, h2⟩ := finalGraph_facts h
  obtain ⟨cs, ext, st0, stIr, r⟩ := callGraph_facts once h1
  have hlocs := (h2.calls r.wf (r.u64 once sizes fits)).2
  obtain ⟨pre, post, rfl⟩ := List.append_of_mem hj
  have hs := (exec_stacked once other declares sizes fits h (fun a b _ => ⟨un.keeps a b, found.keeps a b⟩) hmax h1 hi
    he.outer).1
  have hk : ∃ k, g.Calls j k ∧ g.locOf k = .unknown := by
    rcases hc with hc | ⟨hc, hf, hm⟩
    · rcases bitcast_path once h1 hc with ⟨j', h3, _⟩ | h3
      · exact absurd (r.ir.self f j' (r.ir.principal.mp h3)) (hnl j')
      · exact h3
    · obtain ⟨_, k, nd, h3, h4, _, h5⟩ := C35_external_edge_partial once h1 hc hf hnl hm
      refine ⟨k, h3, ?_⟩
      unfold Graph.locOf
      rw [h4]
      exact h5
  obtain ⟨k, h3, h4⟩ := hk
  rcases hs.call (b := k) (Or.inl h3) with h5 | ⟨a', rest', l, h5, _, h6, h7⟩
  · simp at h5
  · simp only [List.cons.injEq] at h5
    obtain ⟨rfl, rfl⟩ := h5
    have h8 := (chain_bound once sizes fits (C := g.Path)
      (fun h9 => by rw [h1] at h9; cases h9; exact id) h hmax (chain_of_stacked h6 h7)).1 k (by simp)
    rw [hlocs, h4] at h8
    exact h8

/-- `main` calls `f` through a bitcast and copies memory; `f` calls `g` in tail position. `memcpy` has two names. -/
def exIrExec : Program :=
  { target := .other
    defined := [(8, ⟨[c!"main"], 4⟩), (16, ⟨[c!"f"], 8⟩), (24, ⟨[c!"g"], 8⟩),
      (32, ⟨[c!"memcpy", c!"__aeabi_memcpy8"], 8⟩)]
    undefined := []
    stackSizes := [(c!"main", 8), (c!"f", 16), (c!"g", 24), (c!"memcpy", 8)]
    defines := [⟨c!"main", exSig, [.bitcastCall (some c!"f"), .directCall c!"llvm.memcpy.p0.p0.i32"]⟩,
      ⟨c!"f", exBinSig, [.directCall c!"g"]⟩, ⟨c!"g", exPtrSig, []⟩]
    declares := [] }

theorem exIrExec_live {n : Str} {j : Nat} (h : exIrExec.LiveAt n j) :
    (j = 0 ∧ n = c!"main") ∨ (j = 1 ∧ n = c!"f") ∨ (j = 2 ∧ n = c!"g") ∨
      (j = 3 ∧ (n = c!"memcpy" ∨ n = c!"__aeabi_memcpy8")) := by
  obtain ⟨a, s, h1, h2, _⟩ := h
  have hlt : j < 4 := (List.getElem?_eq_some_iff.mp h1).1
  rcases j with _ | _ | _ | _ | j
  · simp only [exIrExec, List.getElem?_cons_zero, Option.some.injEq, Prod.mk.injEq] at h1
    obtain ⟨_, rfl⟩ := h1
    simpa using h2
  · simp only [exIrExec, List.getElem?_cons_succ, List.getElem?_cons_zero, Option.some.injEq, Prod.mk.injEq] at h1
    obtain ⟨_, rfl⟩ := h1
    simpa using h2
  · simp only [exIrExec, List.getElem?_cons_succ, List.getElem?_cons_zero, Option.some.injEq, Prod.mk.injEq] at h1
    obtain ⟨_, rfl⟩ := h1
    simpa using h2
  · simp only [exIrExec, List.getElem?_cons_succ, List.getElem?_cons_zero, Option.some.injEq, Prod.mk.injEq] at h1
    obtain ⟨_, rfl⟩ := h1
    simpa using h2
  · omega

/-- The hypotheses are met, and there is an execution in which `main` copies memory after `g` returned to it. The
tool prints `max = 48` for `main`. -/
example : exIrExec.NamesOnce ∧ exIrExec.DeclaresOnce ∧ exIrExec.Unambiguous ∧ exIrExec.RoutinesFound ∧
    exIrExec.SizesU64 ∧ IrExecution exIrExec 0 [2, 0] ∧ IrExecution exIrExec 0 [3, 0] ∧
    ∀ search, ∃ g' cycles, finalGraph id sameOrder search exIrExec ⟨[], none⟩ none = .ok (g', cycles) ∧
      g'.maxOf? 0 = some (.exact 48) := by
  have hdef : ∀ {j s}, exIrExec.DefinedSig j s →
      (j = 0 ∧ s = exSig) ∨ (j = 1 ∧ s = exBinSig) ∨ (j = 2 ∧ s = exPtrSig) := by
    rintro j s ⟨d, h1, h2, h3⟩
    simp only [exIrExec, List.mem_cons, List.not_mem_nil, or_false] at h1
    have := exIrExec_live h2
    rcases h1 with rfl | rfl | rfl <;> subst h3 <;> simp at this <;> simp [this]
  have hdec : ∀ {j s}, ¬ exIrExec.DeclaredSig j s := by
    rintro j s ⟨d, h1, h2, h3⟩
    simp [exIrExec] at h1
  have hg : ¬ IsIntrinsic c!"g" := by rw [← classify_plain (t := false)]; rfl
  have h1 : exIrExec.RunsInto 0 1 := .bitcast (f := c!"f")
    ⟨_, List.mem_cons_self, mem_live rfl List.mem_cons_self rfl, by simp⟩ (mem_live rfl List.mem_cons_self rfl)
  have h2 : exIrExec.RunsInto 1 2 := .direct (f := c!"g")
    ⟨_, List.mem_cons_of_mem _ List.mem_cons_self, mem_live rfl List.mem_cons_self rfl, by simp⟩ hg
    (mem_live rfl List.mem_cons_self rfl)
  have h3 : exIrExec.RunsInto 0 3 := .memory (f := c!"llvm.memcpy.p0.p0.i32") (r := c!"__aeabi_memcpy8")
    ⟨_, List.mem_cons_self, mem_live rfl List.mem_cons_self rfl, by simp⟩
    (Or.inl ⟨⟨c!"p0.p0.i32", rfl⟩, by simp [CopyNames]⟩) (mem_live rfl (by simp) rfl)
  have e1 : IrExecution exIrExec 0 [2, 0] := .step (.step .entry (.call h1)) (.tail h2)
  refine ⟨namesOnce_of (by decide), by unfold Program.DeclaresOnce; decide, ⟨?_, ?_, ?_, ?_⟩, ?_, ?_, e1,
    .step (.step e1 .ret) (.call h3), ?_⟩
  · intro j h
    have := exIrExec_live h
    simp at this
  · intro j s s' h1 h2
    have h1 := hdef h1
    have h2 := hdef h2
    rcases h1 with ⟨rfl, rfl⟩ | ⟨rfl, rfl⟩ | ⟨rfl, rfl⟩ <;> simp at h2 <;> exact h2.symm
  · intro j s s' _ h1 h2
    exact absurd h1 hdec
  · intro j s _ h1
    exact absurd h1 hdec
  · rintro i f r j ⟨d, hd, _, hs⟩ hr hl
    have hf : f = c!"llvm.memcpy.p0.p0.i32" := by
      simp only [exIrExec, List.mem_cons, List.not_mem_nil, or_false] at hd
      rcases hd with rfl | rfl | rfl
      · simpa using hs
      · simp only [List.mem_cons, Stmt.directCall.injEq, List.not_mem_nil, or_false] at hs
        subst hs
        rcases hr with ⟨⟨t, ht⟩, _⟩ | ⟨⟨t, ht⟩, _⟩ | ⟨⟨t, ht⟩, _⟩ <;> simp at ht
      · simp at hs
    subst hf
    have hj : j = 3 := by
      rcases exIrExec_live hl with ⟨rfl, rfl⟩ | ⟨rfl, rfl⟩ | ⟨rfl, rfl⟩ | ⟨rfl, _⟩
      · revert hr; simp [CompiledTo, CopyNames, MoveNames, FillNames]
      · revert hr; simp [CompiledTo, CopyNames, MoveNames, FillNames]
      · revert hr; simp [CompiledTo, CopyNames, MoveNames, FillNames]
      · rfl
    subst hj
    refine ⟨c!"memcpy", ⟨32, _, [], [c!"__aeabi_memcpy8"], rfl, rfl, ?_, Or.inl ⟨⟨8, rfl⟩, by simp⟩⟩,
      Or.inl ⟨⟨c!"p0.p0.i32", rfl⟩, by simp [CopyRoutines]⟩⟩
    rw [← isTag_iff]; decide
  · intro n k hk
    have := mget_mem hk
    simp only [exIrExec, List.mem_cons, List.not_mem_nil, or_false, Prod.mk.injEq] at this
    omega
  · intro search
    exact finalGraph_eval rfl search _ none (fun g _ => g.maxOf? 0 = _) (by decide +kernel)

/-- `main` copies memory with the routine for doublewords of the run-time ABI, which the tool does not look for. -/
def exAligned : Program :=
  { target := .other
    defined := [(8, ⟨[c!"main"], 4⟩), (16, ⟨[c!"__aeabi_memcpy8"], 8⟩)]
    undefined := []
    stackSizes := [(c!"main", 8), (c!"__aeabi_memcpy8", 16)]
    defines := [⟨c!"main", exSig, [.directCall c!"llvm.memcpy.p0.p0.i32"]⟩]
    declares := [] }

/-- **C104** is false in general (`C34`): the tool prints `max = 8` for `main`, but 24 bytes are used while `main`
copies memory. -/
theorem C104_bound_violated (search : TagSearch) :
    exAligned.NamesOnce ∧ IrExecution exAligned 0 [1, 0] ∧ List.Forall₂ exAligned.Frame [1, 0] [16, 8] ∧
      ∃ g' cycles, finalGraph id sameOrder search exAligned ⟨[], none⟩ none = .ok (g', cycles) ∧
        g'.maxOf? 0 = some (.exact 8) := by
  refine ⟨namesOnce_of (by decide), .step .entry (.call (.memory (f := c!"llvm.memcpy.p0.p0.i32")
    (r := c!"__aeabi_memcpy8") ⟨_, List.mem_cons_self, mem_live rfl List.mem_cons_self rfl, by simp⟩
    (Or.inl ⟨⟨c!"p0.p0.i32", rfl⟩, by simp [CopyNames]⟩) (mem_live rfl List.mem_cons_self rfl))), ?_,
    finalGraph_eval rfl search _ none (fun g _ => g.maxOf? 0 = _) (by decide +kernel)⟩
  refine .cons ⟨16, _, [], c!"__aeabi_memcpy8", [], rfl, rfl, ?_, rfl, by simp⟩
    (.cons ⟨8, _, [], c!"main", [], rfl, rfl, ?_, rfl, by simp⟩ .nil)
  · rw [← isTag_iff]; decide
  · rw [← isTag_iff]; decide

end CallStack
