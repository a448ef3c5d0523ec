import Verif.Props.SharedChange
import Verif.Props.SharedTool

/-!
Property C119, the listing: what `--format top` shows if several functions may have the same names.
-/

namespace CallStack

/-- The nodes that do not stand for live functions: they have no local usage, and no larger maximum than all live
functions. -/
theorem SharedFacts.others {demangle : Str → Str} {ord : HashOrder} {search : TagSearch} {p : Program}
    {elf : Elf} {g' : Graph} {cycles : List (List Nat)} {cs : List Str} {st0 stIr st : Build} {g : Graph}
    (alike : p.NamesAlike) (safe : p.OrderSafe) (sizes : p.SizesU64)
    (fits : elf.Fits32) (h : finalGraph demangle ord search p elf none = .ok (g', cycles))
    (h2 : FinalFacts st.hasStackUsageInfo g g' cycles)
    (r : SharedFacts demangle ord search p elf cs st0 stIr st g) :
    (∀ v, p.defined.length ≤ v → (g'.locOf v).bytes = 0) ∧
    ∀ v m, g'.maxOf? v = some m → m.bytes ≠ 0 →
      ∃ i < p.defined.length, ∃ m', g'.maxOf? i = some m' ∧ m.bytes ≤ m'.bytes := by
  have hu := r.u64 sizes fits
  obtain ⟨g1, ha, he, hloc, hmx⟩ := h2.analysis
  have hlive := r.liveGraph alike safe
  have hsame := analyzeMax_edges r.wf hu ha
  have hl : g'.locOf = g.locOf := by
    funext i
    rw [hloc, hsame.locOf]
  refine ⟨fun v hv => ?_, fun v m hm hne => ?_⟩
  · rw [hl]
    exact hlive.zero v hv
  · have hinfo : st.hasStackUsageInfo = true :=
      r.info_iff.mpr ((C82_shown_iff sizes fits h (maxOf?_lt hm)).mp ⟨m, hm⟩)
    rw [hinfo] at ha
    rw [hmx] at hm
    obtain ⟨⟨⟨⟨us, h3, h4⟩, _⟩, _⟩, _⟩ := analyzeMax_maxSpec r.wf hu ha hm
    rw [hsame.calls] at h3
    rw [hsame.locOf] at h4
    obtain ⟨i, hi, us', h5, h6⟩ := hlive.from_live h3 (by rw [h4]; exact hne)
    obtain ⟨nd, h7, _⟩ := r.live_node (List.getElem?_eq_getElem (by rw [r.sym.len]; exact hi))
    obtain ⟨m', h8, _⟩ := (analyzeMax_ok r.wf hu ha).2.1 i (List.getElem?_eq_some_iff.mp h7).1
    obtain ⟨⟨⟨_, h9⟩, _⟩, _⟩ := analyzeMax_maxSpec r.wf hu ha h8
    rw [hsame.calls, hsame.locOf] at h9
    refine ⟨i, hi, m', (hmx i).trans h8, ?_⟩
    rw [← h4, ← h6]
    exact h9 us' h5

/-- **C119** From the command line to the listing, as C102: if the tool is run without a start point, with
`--format top`, and ends with status 0, then a reader of the output sees a line for every live function, with the local
usage of `LocalShared` (0 if unknown) and the name of C98, sorted by usage, those with the same usage by address; lines of
other functions come after all live functions of usage 0 and have no usage. The number in the line `MAX` is the
weight of the heaviest chain of recursion groups along possible calls from any live function, and 0 if the
compiler reports no frame. -/
theorem C119_listing {u : CharClass} {demangle : Str → Str} {ord : HashOrder}
    {search : TagSearch} {w : World} {cl : Cli} {out : Str} (typed : w.Typed) (hw : w.wrapperVar = false)
    (hcl : w.cli = .ok cl) (start : cl.start = none) (top : cl.format = .top)
    (h : tool u demangle ord search w = .exit 0 out) :
    ∃ file host config stderr inp p, w.Built cl file host config (some 0) stderr ∧
      w.Inputs cl file host config stderr inp ∧ loadProgram u ord inp = .ok p ∧
      (p.NamesAlike → p.OrderSafe → w.elf.Fits32 →
        (∀ g' cycles, finalGraph demangle ord search p w.elf none = .ok (g', cycles) →
          ∀ nd ∈ g'.nodes, '\\' ∉ demangle nd.name ∧ '\n' ∉ demangle nd.name) →
        ∃ max lines, readTop out = some (max, lines) ∧
          ∃ (chosen : Option Str) (loc : Nat → Local) (name : Nat → Str) (others : List (Nat × Str)),
            p.Chosen chosen ∧
            (∀ i < p.defined.length, p.LocalShared search w.elf i (loc i) ∧ p.Displayed demangle i (name i)) ∧
            (∀ e ∈ others, e.1 = 0) ∧
            lines.Pairwise (fun a b => b.1 ≤ a.1) ∧
            (∀ k, lines.filter (fun e => e.1 == k) =
              ((List.range p.defined.length).map (fun i => ((loc i).bytes, demangle (name i))) ++ others).filter
                (fun e => e.1 == k)) ∧
            ((∃ j k, p.Frame j k) → ∃ n, max = some n ∧
              (∃ i < p.defined.length, Heaviest (p.MayCallShared search w.elf chosen) loc i n) ∧
              ∀ i < p.defined.length, ∀ k, Heaviest (p.MayCallShared search w.elf chosen) loc i k → k ≤ n) ∧
            ((¬ ∃ j k, p.Frame j k) → ∀ n, max = some n → n = 0)) := by
  obtain ⟨file, host, config, stderr, inp, h1, h2, h3⟩ := (C77_exit_status hw hcl).mp h
  unfold runFiles at h3
  split at h3
  · simp at h3
  rename_i p hp
  refine ⟨file, host, config, stderr, inp, p, h1, h2, hp, ?_⟩
  intro alike safe fits hn
  obtain ⟨addressed, defines, declares, sizes⟩ := C100_loaded typed h2 hp
  rw [start, top] at h3
  unfold runText at h3
  cases hf : finalGraph demangle ord search p w.elf none with
  | error e => rw [hf] at h3; simp at h3
  | ok r =>
    obtain ⟨g', cycles⟩ := r
    rw [hf] at h3
    simp only [Except.ok.injEq] at h3
    subst h3
    obtain ⟨chosen, hch, hfig⟩ := C119_figures alike defines declares addressed safe sizes fits hf
    obtain ⟨st, g, f1, f2⟩ := finalGraph_facts hf
    obtain ⟨cs, st0, stIr, r⟩ := callGraph_shared f1
    obtain ⟨hzero, hle⟩ := r.others alike safe sizes fits hf f2
    obtain ⟨max, t1, t2, t3⟩ := C24_top_faithful demangle g' (hn g' cycles hf)
    have hnode : ∀ i < p.defined.length, ∃ nd, g'.nodes[i]? = some nd ∧ p.Displayed demangle i nd.name := by
      intro i hi
      obtain ⟨nd, k1, k2⟩ := C98_displayed sizes fits hf hi
      exact ⟨nd, k1, (k2 _).mpr rfl⟩
    have hlen : p.defined.length ≤ g'.nodes.length := by
      cases hd : p.defined.length with
      | zero => omega
      | succ d =>
        obtain ⟨nd, k1, _⟩ := hnode d (by omega)
        have := (List.getElem?_eq_some_iff.mp k1).1
        omega
    have hmaxOf : ∀ (nd : Node) i, g'.nodes[i]? = some nd → g'.maxOf? i = nd.max := by
      intro nd i hi
      unfold Graph.maxOf?
      rw [hi]
    refine ⟨max, _, t1, chosen, g'.locOf, fun i => ((g'.nodes[i]?).map (·.name)).getD [],
      (g'.nodes.drop p.defined.length).map (fun nd => (nd.loc.bytes, demangle nd.name)), hch, ?_, ?_, ?_, ?_, ?_, ?_⟩
    · intro i hi
      obtain ⟨nd, k1, k2⟩ := hnode i hi
      refine ⟨((hfig i hi).1 _).mpr rfl, ?_⟩
      simp only [k1, Option.map_some, Option.getD_some]
      exact k2
    · intro e he
      obtain ⟨nd, k1, rfl⟩ := List.mem_map.mp he
      obtain ⟨j, k2⟩ := List.getElem?_of_mem k1
      rw [List.getElem?_drop] at k2
      have := hzero (p.defined.length + j) (by omega)
      unfold Graph.locOf at this
      rw [k2] at this
      exact this
    · rw [List.pairwise_map]
      exact (C24_sorted_stable g').1
    · intro k
      have hall : (List.range p.defined.length).map
            (fun i => ((g'.locOf i).bytes, demangle (((g'.nodes[i]?).map (·.name)).getD []))) ++
          (g'.nodes.drop p.defined.length).map (fun nd => (nd.loc.bytes, demangle nd.name)) =
          g'.nodes.map (fun nd => (nd.loc.bytes, demangle nd.name)) := by
        conv => rhs; rw [← List.take_append_drop p.defined.length g'.nodes]
        rw [List.map_append]
        congr 1
        apply List.ext_getElem?
        intro i
        rw [List.getElem?_map, List.getElem?_map, List.getElem?_take]
        by_cases hi : i < p.defined.length
        · obtain ⟨nd, k1, _⟩ := hnode i hi
          rw [List.getElem?_range hi, if_pos hi, k1]
          simp only [Option.map_some, Option.getD_some, Graph.locOf, k1]
        · rw [if_neg hi, List.getElem?_eq_none (by simpa using hi)]
          rfl
      rw [hall, List.filter_map, List.filter_map]
      exact congrArg _ ((C24_sorted_stable g').2 k)
    · rintro ⟨j, k, hjk⟩
      have hj : j < p.defined.length := by
        obtain ⟨_, _, _, _, _, hs, _⟩ := hjk
        exact (List.getElem?_eq_some_iff.mp hs).1
      have hmem : ∀ (nd : Node) i, g'.nodes[i]? = some nd → ∃ m, g'.maxOf? i = some m ∧ shownMax nd = m.bytes := by
        intro nd i hi
        obtain ⟨m, hm⟩ := (C82_shown_iff sizes fits hf (List.getElem?_eq_some_iff.mp hi).1).mpr ⟨j, k, hjk⟩
        refine ⟨m, hm, ?_⟩
        rw [hmaxOf nd i hi] at hm
        unfold shownMax
        rw [hm]
        cases m <;> rfl
      cases max with
      | none =>
        obtain ⟨nd, k1, _⟩ := hnode j hj
        rw [t2.mp rfl] at k1
        simp at k1
      | some n =>
        obtain ⟨⟨nd, a1, a2⟩, a3⟩ := t3 n rfl
        have hub : ∀ i < p.defined.length, ∀ m, g'.maxOf? i = some m → m.bytes ≤ n := by
          intro i hi m hm
          obtain ⟨nd, k1, _⟩ := hnode i hi
          obtain ⟨m', k2, k3⟩ := hmem nd i k1
          rw [hm] at k2
          simp only [Option.some.injEq] at k2
          subst k2
          rw [← k3]
          exact a3 nd (List.mem_of_getElem? k1)
        have hat : ∃ i < p.defined.length, ∃ m, g'.maxOf? i = some m ∧ m.bytes = n := by
          obtain ⟨v, hv⟩ := List.getElem?_of_mem a1
          obtain ⟨m, k2, k3⟩ := hmem nd v hv
          by_cases hz : m.bytes = 0
          · obtain ⟨nd', k1, _⟩ := hnode j hj
            obtain ⟨m', k4, _⟩ := hmem nd' j k1
            have := hub j hj m' k4
            exact ⟨j, hj, m', k4, by omega⟩
          · obtain ⟨i, hi, m', k4, k5⟩ := hle v m k2 hz
            have := hub i hi m' k4
            exact ⟨i, hi, m', k4, by omega⟩
        refine ⟨n, rfl, ?_, ?_⟩
        · obtain ⟨i, hi, m, k1, k2⟩ := hat
          exact ⟨i, hi, k2 ▸ ((hfig i hi).2.2 m k1).1⟩
        · intro i hi k' hk'
          obtain ⟨m, hm⟩ := (hfig i hi).2.1.mpr ⟨j, k, hjk⟩
          obtain ⟨⟨_, b1⟩, _⟩ := (hfig i hi).2.2 m hm
          obtain ⟨⟨us, b2, b3⟩, _⟩ := hk'
          have := b1 us b2
          have := hub i hi m hm
          omega
    · intro hno n hn'
      obtain ⟨⟨nd, a1, a2⟩, _⟩ := t3 n hn'
      obtain ⟨v, hv⟩ := List.getElem?_of_mem a1
      have hnone : nd.max = none := by
        cases hm : nd.max with
        | none => rfl
        | some m =>
          exact (hno ((C82_shown_iff sizes fits hf (List.getElem?_eq_some_iff.mp hv).1).mp
            ⟨m, (hmaxOf nd v hv).trans hm⟩)).elim
      rw [← a2]
      unfold shownMax
      rw [hnone]

/-- **C119** The exact condition of C80 if functions may have the same names. If the tool is run without a start point,
with `--format top`, and ends with status 0, then the number that a reader finds in the line `MAX` covers whatever a
call of the live function `i` can need exactly if everything that can be reached from its node is known, stays in the
executable and uses no stack in recursion. -/
theorem C119_covers_iff {u : CharClass} {demangle : Str → Str} {ord : HashOrder}
    {search : TagSearch} {w : World} {cl : Cli} {out : Str} (typed : w.Typed) (hw : w.wrapperVar = false)
    (hcl : w.cli = .ok cl) (start : cl.start = none) (top : cl.format = .top)
    (h : tool u demangle ord search w = .exit 0 out) :
    ∃ file host config stderr inp p, w.Built cl file host config (some 0) stderr ∧
      w.Inputs cl file host config stderr inp ∧ loadProgram u ord inp = .ok p ∧
      (p.NamesAlike → p.OrderSafe → w.elf.Fits32 → (∃ j k, p.Frame j k) →
        (∀ g' cycles, finalGraph demangle ord search p w.elf none = .ok (g', cycles) →
          ∀ nd ∈ g'.nodes, '\\' ∉ demangle nd.name ∧ '\n' ∉ demangle nd.name) →
        ∃ n lines, readTop out = some (some n, lines) ∧
          ∃ (chosen : Option Str) (loc : Nat → Local), p.Chosen chosen ∧
            (∀ i < p.defined.length, p.LocalShared search w.elf i (loc i)) ∧
            ∀ i < p.defined.length,
              ((∀ k, CanNeed (p.MayCallShared search w.elf chosen) (p.MayLeaveShared search w.elf) loc i k → k ≤ n) ↔
                ∀ v, Reach (p.MayCallShared search w.elf chosen) i v →
                  (loc v).Known ∧ ¬ p.MayLeaveShared search w.elf v ∧
                  (Recursive (p.MayCallShared search w.elf chosen) v → (loc v).bytes = 0))) := by
  obtain ⟨file, host, config, stderr, inp, p, h1, h2, h3, h4⟩ :=
    C119_listing typed hw hcl start top h
  refine ⟨file, host, config, stderr, inp, p, h1, h2, h3, fun alike safe fits frame hn => ?_⟩
  obtain ⟨max, lines, h5, chosen, loc, name, others, h6, h7, _, _, _, h8, _⟩ := h4 alike safe fits hn
  obtain ⟨n, rfl, _, h9⟩ := h8 frame
  refine ⟨n, lines, h5, chosen, loc, h6, fun i hi => (h7 i hi).1, fun i hi => ?_⟩
  obtain ⟨k, hk⟩ := exists_heaviest (E := p.MayCallShared search w.elf chosen) (loc := loc) (v := i)
    (N := p.defined.length) (fun v hv => Program.MayCallShared.reach_lt hi hv)
  exact (canNeed_iff hk (h9 i hi k hk)).symm

/-- The listing of the run `exTwinWorld`: both functions of the name `helper` have a line. The program satisfies the
conditions, as `exIrTwins` does. -/
example : ∃ out, tool exClass id sameOrder linearSearch { exTwinWorld with
      cli := .ok { args := { bin := some c!"app" }, format := .top } } = .exit 0 out ∧
    readTop out = some (some 48, [(24, c!"leaf"), (16, c!"helper"), (16, c!"helper"), (8, c!"main")]) := by
  refine ⟨c!"48 MAX\nUsage Function\n24 leaf\n16 helper\n16 helper\n8 main\n", ?_, ?_⟩ <;> decide +kernel

end CallStack
