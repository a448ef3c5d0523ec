import Verif.Props.Figures
import Verif.Props.IndirectIff
import Verif.Props.Exec

/-!
Properties C110 and C111: functions that nobody calls, and recursion, said of the program (README.md:163-168 and
186-250).
-/

namespace CallStack

section

variable {demangle : Str → Str} {ord : HashOrder} {search : TagSearch} {p : Program} {elf : Elf} {g' : Graph}
  {cycles : List (List Nat)}

/-- **C110** The roots of the graph are exactly the functions that no function of the program may call: exception
handlers, the entry point, and functions that are only there because the linker kept them. -/
theorem C110_roots (once : p.NamesOnce) (defs : p.DefinesOnce)
    (decls : p.DeclaresOnce) (addressed : p.Addressed) (safe : p.OrderSafe) (sizes : p.SizesU64)
    (fits : elf.Fits32) (h : finalGraph demangle ord search p elf none = .ok (g', cycles)) :
    ∃ chosen, p.Chosen chosen ∧ ∀ i < p.defined.length,
      (∀ a, ¬ g'.Calls a i) ↔ ∀ a, ¬ p.MayCall search elf chosen a i := by
  obtain ⟨st, g, h1, h2⟩ := finalGraph_facts h
  obtain ⟨cs, ext, st0, stIr, r⟩ := callGraph_facts once h1
  have hu := r.u64 once sizes fits
  obtain ⟨g1, ha, he, -, -⟩ := h2.analysis
  have hsame := analyzeMax_edges r.wf hu ha
  have hcalls : g'.Calls = g.Calls := by
    rw [← hsame.calls]
    funext a b
    exact congrArg (fun es => (a, b) ∈ es) he
  have hE := r.mayCall_iff once defs decls addressed safe
  have hlive : ∀ a s, p.Contains a s → a < cs.length := by
    rintro a s ⟨d, _, ⟨_, _, hd, _⟩, _⟩
    rw [r.live_length]
    exact (List.getElem?_eq_some_iff.mp hd).1
  have hdec : ∀ {a address size x}, p.Decoded search elf a address size x → a < cs.length := by
    rintro a address size x ⟨_, _, _, _, _, hd, _⟩
    rw [r.live_length]
    exact (List.getElem?_eq_some_iff.mp hd).1
  refine ⟨_, r.chosen defs decls, fun i hi => ?_⟩
  have hi' : i < cs.length := by rw [r.live_length]; exact hi
  rw [hcalls, ← hE]
  constructor
  · rintro hno a ⟨_, _, hc | ⟨d, _, _, hc⟩⟩
    · exact hno _ hc
    · exact hno _ hc
  · intro hno a hc
    by_cases hlt : a < cs.length
    · exact hno a ⟨hlt, hi', .inl hc⟩
    · have hdash : ∃ nd, g.nodes[a]? = some nd ∧ nd.dashed = true := by
        rcases C49_edges_justified once h1 hc with ⟨s, _, hs, _⟩ | ⟨_, _, _, _, hd, _⟩ | ⟨_, _, _, _, hd, _⟩ |
          ⟨k, nd, rfl | rfl, hn, hd⟩
        · exact absurd (hlive _ _ hs) hlt
        · exact absurd (hdec hd) hlt
        · exact absurd (hdec hd) hlt
        · exact ⟨nd, hn, hd⟩
        · obtain ⟨nd', hn', _, hd', _⟩ :=
            r.node (List.getElem?_append_left (l₂ := ext) hi' ▸ List.getElem?_eq_getElem hi')
          rw [hn] at hn'
          rw [Option.some.inj hn', hd'] at hd
          exact absurd hd (by decide)
      obtain ⟨nd, hn, hd⟩ := hdash
      obtain ⟨_, sig, _, ⟨b, hb⟩, hcallers, _⟩ := C37_dashed_nodes once decls h1 hn hd
      obtain ⟨sig', hs, _⟩ := (hcallers b).mp hb
      exact hno b ⟨hlive _ _ hs, hi', .inr ⟨a, by omega, hb, hc⟩⟩

/-- **C111** Recursion: the functions that may call each other in turn have the same maximum, and the clusters
that are shown are exactly the groups of such functions. (Clusters are only computed if the compiler reports some
frame.) -/
theorem C111_recursion (once : p.NamesOnce) (defs : p.DefinesOnce)
    (decls : p.DeclaresOnce) (addressed : p.Addressed) (safe : p.OrderSafe) (sizes : p.SizesU64)
    (fits : elf.Fits32) (h : finalGraph demangle ord search p elf none = .ok (g', cycles)) :
    ∃ chosen, p.Chosen chosen ∧ ∀ i < p.defined.length, ∀ j < p.defined.length,
      (SameGroup (p.MayCall search elf chosen) i j → g'.maxOf? i = g'.maxOf? j) ∧
      ((∃ c ∈ cycles, i ∈ c ∧ j ∈ c) ↔ (∃ j k, p.Frame j k) ∧ Recursive (p.MayCall search elf chosen) i ∧
        SameGroup (p.MayCall search elf chosen) i j) := by
  obtain ⟨st, g, h1, h2⟩ := finalGraph_facts h
  obtain ⟨cs, ext, st0, stIr, r⟩ := callGraph_facts once h1
  obtain ⟨hch, hfig⟩ := RunFacts.figures once defs decls addressed safe sizes fits h h1 h2 r
  have hu := r.u64 once sizes fits
  obtain ⟨g1, ha, -, -, -⟩ := h2.analysis
  have hsame := analyzeMax_edges r.wf hu ha
  have hE := r.mayCall_iff once defs decls addressed safe
  have hlive := r.liveGraph once safe
  refine ⟨_, hch, fun i hi j hj => ⟨fun hg => ?_, ?_⟩⟩
  · obtain ⟨_, hs, hm⟩ := hfig i hi
    obtain ⟨_, hs', hm'⟩ := hfig j hj
    cases hmi : g'.maxOf? i with
    | none =>
      cases hmj : g'.maxOf? j with
      | none => rfl
      | some m => exact absurd (hs.mpr (hs'.mp ⟨m, hmj⟩)) (by simp [hmi])
    | some m =>
      obtain ⟨m', hmj⟩ := hs'.mpr (hs.mp ⟨m, hmi⟩)
      rw [hmj]
      obtain ⟨⟨⟨us, hc, hw⟩, hmax⟩, hex⟩ := hm m hmi
      obtain ⟨⟨⟨us', hc', hw'⟩, hmax'⟩, hex'⟩ := hm' m' hmj
      have hb : m.bytes = m'.bytes := by
        apply Nat.le_antisymm
        · rw [← hw]
          exact hmax' us ⟨fun u hu => hg.2.trans (hc.1 u hu), hc.2⟩
        · rw [← hw']
          exact hmax us' ⟨fun u hu => hg.1.trans (hc'.1 u hu), hc'.2⟩
      have hx : m.IsExact ↔ m'.IsExact := by
        rw [hex, hex']
        exact ⟨fun H u hr => H u (hg.1.trans hr), fun H u hr => H u (hg.2.trans hr)⟩
      cases m <;> cases m' <;> simp_all [Max.bytes, Max.IsExact]
  · have hi' : i < cs.length := by rw [r.live_length]; exact hi
    have hj' : j < cs.length := by rw [r.live_length]; exact hj
    rw [← r.info_iff]
    cases hinfo : st.hasStackUsageInfo with
    | false =>
      rw [hinfo] at ha
      simp only [analyzeMax, Bool.not_false, if_true, Except.ok.injEq, Prod.mk.injEq] at ha
      simp [← ha.2]
    | true =>
      rw [hinfo] at ha
      obtain ⟨c1, c2, -⟩ := C09_clusters r.wf hu ha
      rw [hsame.calls] at c1 c2
      have hri : Recursive (LiveHop g.Calls cs.length) i ↔ Recursive g.Calls i := (hlive.recursive_iff hi').symm
      rw [← hE, hri]
      have hgrp : SameGroup (LiveHop g.Calls cs.length) i j ↔ SameGroup g.Calls i j := by
        unfold SameGroup
        rw [hlive.reach_iff hi' hj', hlive.reach_iff hj' hi']
      rw [hgrp]
      constructor
      · rintro ⟨c, hc, hci, hcj⟩
        have hrec := (c1 i).mp ⟨c, hc, hci⟩
        exact ⟨rfl, hrec, (c2 i j hrec).mp ⟨c, hc, hci, hcj⟩⟩
      · rintro ⟨_, hrec, hg⟩
        exact (c2 i j hrec).mpr hg

end

/-- The recursive program of the README, with its disassembly (README.md:199-291). -/
def exReadme : Program :=
  { target := .thumbv7m
    defined := [(0x8000400, ⟨[c!"app::foo"], 20⟩), (0x8000414, ⟨[c!"app::bar"], 20⟩),
      (0x8000428, ⟨[c!"app::baz"], 20⟩), (0x800043c, ⟨[c!"app::quux"], 20⟩), (0x8000450, ⟨[c!"main"], 10⟩)]
    undefined := []
    stackSizes := [(c!"app::foo", 0), (c!"app::bar", 0), (c!"app::baz", 0), (c!"app::quux", 8), (c!"main", 0)]
    defines := [⟨c!"app::foo", exSig, [.directCall c!"app::bar"]⟩,
      ⟨c!"app::bar", exSig, [.directCall c!"app::baz"]⟩, ⟨c!"app::baz", exSig, [.directCall c!"app::foo"]⟩,
      ⟨c!"app::quux", exSig, [.asm []]⟩,
      ⟨c!"main", exSig, [.directCall c!"app::foo", .directCall c!"app::quux"]⟩]
    declares := [] }

/-- The halfwords of the disassembly. -/
def exReadmeCode : List Nat :=
  [0xf240, 0x0000, 0xf2c2, 0x0000, 0x7800, 0x0600, 0xbf18, 0xf000, 0xb801, 0x4770,
   0xf240, 0x0000, 0xf2c2, 0x0000, 0x7800, 0x0600, 0xbf18, 0xf000, 0xb801, 0x4770,
   0xf240, 0x0000, 0xf2c2, 0x0000, 0x7800, 0x0600, 0xbf18, 0xf7ff, 0xbfe3, 0x4770,
   0xb580, 0xf04f, 0x0c00, 0xf04f, 0x0e01, 0x2202, 0x2303, 0x2004, 0x2105, 0xbd80,
   0xf7ff, 0xffd6, 0xf7ff, 0xfff2, 0xe7fe]

/-- The executable. -/
def exReadmeElf : Elf := ⟨[], some (0x8000400, exReadmeCode.flatMap (fun w => [w % 256, w / 256]))⟩

/-- The graph in the README (assets/cycle.png): `main` uses at most 8 bytes although three functions call each
other in turn. -/
example : ∃ g cs, finalGraph id sameOrder linearSearch exReadme exReadmeElf none = .ok (g, cs) ∧
    g.nodes = [⟨c!"app::foo", .exact 0, some (.exact 0), false⟩, ⟨c!"app::bar", .exact 0, some (.exact 0), false⟩,
      ⟨c!"app::baz", .exact 0, some (.exact 0), false⟩, ⟨c!"app::quux", .exact 8, some (.exact 8), false⟩,
      ⟨c!"main", .exact 0, some (.exact 8), false⟩] ∧
    g.edges = [(0, 1), (1, 2), (2, 0), (4, 0), (4, 3)] ∧ cs = [[0, 1, 2]] := by
  refine ⟨_, _, rfl, ?_⟩
  decide +kernel

/-- The hypotheses of C110 and C111 are met. -/
theorem exReadme_ok : exReadme.NamesOnce ∧ exReadme.DefinesOnce ∧ exReadme.DeclaresOnce ∧ exReadme.Addressed ∧
    exReadme.OrderSafe ∧ exReadme.SizesU64 ∧ exReadmeElf.Fits32 := by
  refine ⟨namesOnce_of (by decide), by unfold Program.DefinesOnce; decide, by unfold Program.DeclaresOnce; decide,
    by unfold Program.Addressed; decide, ?_, ?_, ?_⟩
  · rintro i s r ⟨d, h1, _, h2⟩ h3
    cases h3 with
    | memcmp =>
      exfalso
      simp only [exReadme, List.mem_cons, List.not_mem_nil, or_false] at h1
      rcases h1 with rfl | rfl | rfl | rfl | rfl <;> revert h2 <;> decide
    | copy h => cases h
    | fill h => cases h
  · intro n k hk
    have := mget_mem hk
    simp only [exReadme, List.mem_cons, List.not_mem_nil, or_false, Prod.mk.injEq] at this
    omega
  · rintro a b h
    simp only [exReadmeElf, Option.some.injEq, Prod.mk.injEq] at h
    rw [← h.2]
    decide

/-- The disassembly of the README. -/
def exReadmeItems : Nat → Nat × List CodeItem
  | 0 => (0x8000400, [.instr (.otherW 0xf240 0), .instr (.otherW 0xf2c2 0), .instr (.other 0x7800),
      .instr (.other 0x0600), .instr (.other 0xbf18), .instr (.b4 2), .instr (.bx 14)])
  | 1 => (0x8000414, [.instr (.otherW 0xf240 0), .instr (.otherW 0xf2c2 0), .instr (.other 0x7800),
      .instr (.other 0x0600), .instr (.other 0xbf18), .instr (.b4 2), .instr (.bx 14)])
  | 2 => (0x8000428, [.instr (.otherW 0xf240 0), .instr (.otherW 0xf2c2 0), .instr (.other 0x7800),
      .instr (.other 0x0600), .instr (.other 0xbf18), .instr (.b4 (-58)), .instr (.bx 14)])
  | 3 => (0x800043c, [.instr (.push 0x80 true), .instr (.otherW 0xf04f 0x0c00), .instr (.otherW 0xf04f 0x0e01),
      .instr (.other 0x2202), .instr (.other 0x2303), .instr (.other 0x2004), .instr (.other 0x2105),
      .instr (.other 0xbd80)])
  | _ => (0x8000450, [.instr (.bl (-84)), .instr (.bl (-28)), .instr (.b2 (-4))])

theorem codeRuns_keep {items : List CodeItem} (h : ∀ pos i, InstrAt items pos i → i.spEffect = .keep) {pos : Nat}
    {d : Int} (hr : CodeRuns items pos d) : d = 0 := by
  induction hr with
  | entry => rfl
  | step _ hs ih =>
    cases hs with
    | run hi ha _ =>
      rw [h _ _ hi] at ha
      exact ha.trans ih
    | pass _ => exact ih

/-- **C111** The claim of the README about this program: although three of its functions call each other in turn,
no execution of `main`, however deep the recursion, uses more than the 8 bytes that the tool prints. -/
theorem C111_readme {acts : List Activation} (hex : Execution exReadme exReadmeItems 4 acts) :
    stackInUse acts ≤ 8 := by
  obtain ⟨once, _, decls, addr, _, sizes, fits⟩ := exReadme_ok
  have hg : ∃ g cs, finalGraph id sameOrder linearSearch exReadme exReadmeElf none = .ok (g, cs) ∧
      g.maxOf? 4 = some (.exact 8) := ⟨_, _, rfl, by decide +kernel⟩
  obtain ⟨g, cs, hg, hm⟩ := hg
  have hdef : ∀ {j s}, exReadme.DefinedSig j s → s = exSig := by
    rintro j s ⟨d, h1, h2, h3⟩
    simp only [exReadme, List.mem_cons, List.not_mem_nil, or_false] at h1
    rcases h1 with rfl | rfl | rfl | rfl | rfl <;> exact h3.symm
  have hdec : ∀ {j s}, ¬ exReadme.DeclaredSig j s := by
    rintro j s ⟨d, h1, _⟩
    simp [exReadme] at h1
  have htags : elfTags exReadmeElf.symtab = [] := by decide +kernel
  refine C94_executions_bounded_partial once addr decls ⟨?_, ?_, ?_, ?_⟩ sizes fits rfl hg (code := exReadmeItems)
    ?_ ?_ (by decide) hm hex
  · rintro j ⟨a, s, h1, h2, _⟩
    have hlt : j < 5 := (List.getElem?_eq_some_iff.mp h1).1
    match j, hlt with
    | 0, _ | 1, _ | 2, _ | 3, _ | 4, _ =>
      simp only [exReadme, List.getElem?_cons_zero, List.getElem?_cons_succ, Option.some.injEq,
        Prod.mk.injEq] at h1
      rw [← h1.2] at h2
      simp at h2
  · intro j s s' h1 h2
    rw [hdef h1, hdef h2]
  · intro j s s' _ h1 _
    exact absurd h1 hdec
  · intro j s _ h1
    exact absurd h1 hdec
  · intro j hj
    match j, hj with
    | 0, _ | 1, _ | 2, _ | 3, _ | 4, _ =>
      refine ⟨⟨_, _, _, _, _, rfl, rfl, rfl, markers_iff.mpr rfl, codeSize_iff.mpr (by decide +kernel),
        by decide, by decide +kernel, by decide +kernel, by decide +kernel, ?_, ?_⟩,
        tameCode_of (by decide +kernel)⟩
      · intro i hi
        simp only [exReadmeItems, List.mem_cons, CodeItem.instr.injEq, List.not_mem_nil, or_false] at hi
        rcases hi with rfl | rfl | rfl | rfl | rfl | rfl | rfl | rfl <;> decide
      · rw [htags]
        simp [exReadmeItems, TagsFit]
  · intro i k hf hor pos d hr
    have hlt : i < 5 := by
      obtain ⟨a, s, _, _, _, h1, _⟩ := hf
      exact (List.getElem?_eq_some_iff.mp h1).1
    have hout : ¬ ∃ name, exReadme.Principal i name ∧ OutlinedName name := by
      rintro ⟨name, ⟨a, s, pre, post, h1, h2, _⟩, h3⟩
      rw [← isOutlined_iff] at h3
      match i, hlt with
      | 0, _ | 1, _ | 2, _ | 3, _ | 4, _ =>
        simp only [exReadme, List.getElem?_cons_zero, List.getElem?_cons_succ, Option.some.injEq,
          Prod.mk.injEq] at h1
        obtain ⟨rfl, rfl⟩ := h1
        have hm : name ∈ pre ++ name :: post := by simp
        rw [← h2] at hm
        simp only [List.mem_cons, List.not_mem_nil, or_false] at hm
        subst hm
        revert h3
        decide
    match i, hlt with
    | 0, _ | 1, _ | 2, _ =>
      exfalso
      rcases hor with ⟨pos, ins, off, h1, h2, h3, h4⟩ | h
      · have hm := instrAt_iff.mp h1
        simp only [exReadmeItems, instrsAt, List.mem_cons, Prod.mk.injEq, List.not_mem_nil, or_false] at hm
        rcases hm with ⟨rfl, rfl⟩ | ⟨rfl, rfl⟩ | ⟨rfl, rfl⟩ | ⟨rfl, rfl⟩ | ⟨rfl, rfl⟩ | ⟨rfl, rfl⟩ | ⟨rfl, rfl⟩ <;>
          simp [Instr.IsBranch] at h2
        subst h2
        revert h3 h4
        decide
      · exact hout h
    | 3, _ =>
      exfalso
      rcases hor with ⟨pos, ins, off, h1, h2, h3, h4⟩ | h
      · have hm := instrAt_iff.mp h1
        simp only [exReadmeItems, instrsAt, List.mem_cons, Prod.mk.injEq, List.not_mem_nil, or_false] at hm
        rcases hm with ⟨rfl, rfl⟩ | ⟨rfl, rfl⟩ | ⟨rfl, rfl⟩ | ⟨rfl, rfl⟩ | ⟨rfl, rfl⟩ | ⟨rfl, rfl⟩ | ⟨rfl, rfl⟩ | ⟨rfl, rfl⟩ <;>
          simp [Instr.IsBranch] at h2
      · exact hout h
    | 4, _ =>
      rw [codeRuns_keep ?_ hr]
      · exact Int.natCast_nonneg k
      · intro pos i hi
        have hm := instrAt_iff.mp hi
        simp only [exReadmeItems, instrsAt, List.mem_cons, Prod.mk.injEq, List.not_mem_nil, or_false] at hm
        rcases hm with ⟨rfl, rfl⟩ | ⟨rfl, rfl⟩ | ⟨rfl, rfl⟩ <;> rfl

/-- Each of the three functions can go on to the next. -/
theorem exReadme_next {i j t : Nat} {off : Int} {rest : List Activation} (hi : i < 3)
    (hitem : InstrAt (exReadmeItems i).2 14 (.b4 off)) (ht : (t : Int) = (exReadmeItems i).1 + 14 + 4 + off)
    (hout : t < (exReadmeItems i).1 ∨ (exReadmeItems i).1 + (codeBytes (exReadmeItems i).2).length ≤ t)
    (hj : exReadme.StartsAt j t) (hlt : t < 2 ^ 32)
    (h : Execution exReadme exReadmeItems 4 (⟨i, 0, 0, false⟩ :: rest)) :
    Execution exReadme exReadmeItems 4 (⟨j, 0, 0, false⟩ :: ⟨i, 14, 0, true⟩ :: rest) := by
  have hstep : ExecStep exReadme exReadmeItems (⟨i, 14, 0, false⟩ :: rest)
      (⟨j, 0, 0, false⟩ :: ⟨i, 14, 0, true⟩ :: rest) :=
    .jump hitem (.inr (.inr (.inr rfl))) ht hlt hout hj
  refine .step (.step (.step (.step (.step (.step h (.inner (pos' := 4) (d' := 0) ?_))
    (.inner (pos' := 8) (d' := 0) ?_)) (.inner (pos' := 10) (d' := 0) ?_)) (.inner (pos' := 12) (d' := 0) ?_))
    (.inner (pos' := 14) (d' := 0) ?_)) hstep
  all_goals
    match i, hi with
    | 0, _ | 1, _ | 2, _ =>
      first
      | exact .pass (i := .otherW 0xf240 0) ⟨[], _, rfl, rfl⟩
      | exact .pass (i := .otherW 0xf2c2 0) ⟨[_], _, rfl, rfl⟩
      | exact .pass (i := .other 0x7800) ⟨[_, _], _, rfl, rfl⟩
      | exact .pass (i := .other 0x0600) ⟨[_, _, _], _, rfl, rfl⟩
      | exact .pass (i := .other 0xbf18) ⟨[_, _, _, _], _, rfl, rfl⟩

/-- The recursion can be of any depth. -/
theorem C111_readme_deep (k : Nat) : ∃ acts, Execution exReadme exReadmeItems 4 acts ∧ acts.length = 3 * k + 2 := by
  suffices h : ∃ rest, Execution exReadme exReadmeItems 4 (⟨0, 0, 0, false⟩ :: rest) ∧ rest.length = 3 * k + 1 by
    obtain ⟨rest, h1, h2⟩ := h
    exact ⟨_, h1, by simp [h2]⟩
  induction k with
  | zero =>
    exact ⟨_, .step .entry (.call (off := -84) (t := 0x8000400) ⟨[], _, rfl, rfl⟩ rfl (by decide) ⟨_, rfl⟩), rfl⟩
  | succ k ih =>
    obtain ⟨rest, h1, h2⟩ := ih
    refine ⟨_, exReadme_next (i := 2) (t := 0x8000400) (by decide) ⟨[_, _, _, _, _], _, rfl, rfl⟩ rfl
      (.inl (by decide)) ⟨_, rfl⟩ (by decide)
      (exReadme_next (i := 1) (t := 0x8000428) (by decide) ⟨[_, _, _, _, _], _, rfl, rfl⟩ rfl
      (.inr (by decide +kernel)) ⟨_, rfl⟩ (by decide)
      (exReadme_next (i := 0) (t := 0x8000414) (by decide) ⟨[_, _, _, _, _], _, rfl, rfl⟩ rfl
      (.inr (by decide +kernel)) ⟨_, rfl⟩ (by decide) h1)), ?_⟩
    simp [h2]
    omega

/-- `main` is the only root: nothing in the program may call it. -/
example : ∃ chosen, exReadme.Chosen chosen ∧ (∀ a, ¬ exReadme.MayCall linearSearch exReadmeElf chosen a 4) ∧
    ∀ i < 4, ∃ a, exReadme.MayCall linearSearch exReadmeElf chosen a i := by
  obtain ⟨once, defs, decls, addr, safe, sizes, fits⟩ := exReadme_ok
  have hg : ∃ g cs, finalGraph id sameOrder linearSearch exReadme exReadmeElf none = .ok (g, cs) ∧
      g.edges = [(0, 1), (1, 2), (2, 0), (4, 0), (4, 3)] := ⟨_, _, rfl, by decide +kernel⟩
  obtain ⟨g, cs, hg, he⟩ := hg
  obtain ⟨chosen, h1, h2⟩ := C110_roots once defs decls addr safe sizes fits hg
  refine ⟨chosen, h1, (h2 4 (by decide)).mp ?_, fun i hi => ?_⟩
  · intro a ha
    simp [Graph.Calls, he] at ha
  · by_contra hno
    have := (h2 i (by simp [exReadme]; omega)).mpr (by simpa using hno)
    match i, hi with
    | 0, _ => exact this 2 (by simp [Graph.Calls, he])
    | 1, _ => exact this 0 (by simp [Graph.Calls, he])
    | 2, _ => exact this 1 (by simp [Graph.Calls, he])
    | 3, _ => exact this 4 (by simp [Graph.Calls, he])

end CallStack
