import Verif.Proof.SharedFigures
import Verif.Props.Start
import Verif.Props.ToolFigures
import Verif.Props.SharedIr
import Verif.Props.SharedMachine

/-!
Property C119: the figures, exactly, if several functions may have the same names (main.rs:380-1290).
-/

namespace CallStack

section

variable {demangle : Str → Str} {ord : HashOrder} {search : TagSearch} {p : Program} {elf : Elf}

/-- The figures of a run without a start point, for the type that was chosen. -/
theorem SharedFacts.figures {g' : Graph} {cycles : List (List Nat)} {cs : List Str} {st0 stIr st : Build} {g : Graph}
    (alike : p.NamesAlike) (defs : p.DefinesOnce)
    (decls : p.DeclaresOnce) (addressed : p.Addressed) (safe : p.OrderSafe) (sizes : p.SizesU64)
    (fits : elf.Fits32) (h : finalGraph demangle ord search p elf none = .ok (g', cycles))
    (h1 : callGraph demangle ord search p elf = .ok (st, g)) (h2 : FinalFacts st.hasStackUsageInfo g g' cycles)
    (f : SharedFacts demangle ord search p elf cs st0 stIr st g) :
    p.Chosen (voidOf ord st) ∧ ∀ i < p.defined.length,
      (∀ l, p.LocalShared search elf i l ↔ g'.locOf i = l) ∧
      ((∃ m, g'.maxOf? i = some m) ↔ ∃ j k, p.Frame j k) ∧
      ∀ m, g'.maxOf? i = some m →
        Heaviest (p.MayCallShared search elf (voidOf ord st)) g'.locOf i m.bytes ∧
        (m.IsExact ↔ ∀ u, Reach (p.MayCallShared search elf (voidOf ord st)) i u →
          (g'.locOf u).Known ∧ ¬ p.MayLeaveShared search elf u ∧
          (Recursive (p.MayCallShared search elf (voidOf ord st)) u → (g'.locOf u).bytes = 0)) := by
  have hu := f.u64 sizes fits
  obtain ⟨g1, ha, he, hloc, hmx⟩ := h2.analysis
  have hE := f.mayCall_iff alike defs decls addressed safe
  have hlive := f.liveGraph alike safe
  have hsame := analyzeMax_edges f.wf hu ha
  have hl : g'.locOf = g.locOf := by
    funext i
    rw [hloc, hsame.locOf]
  refine ⟨f.chosen defs decls, fun i hi => ?_⟩
  have hi' : i < cs.length := by rw [f.sym.len]; exact hi
  have hlt : i < g'.nodes.length := by
    obtain ⟨st', ga, gb, a1, a2, a3, _⟩ := finalGraph_steps h
    rw [h1] at a1
    simp only [Except.ok.injEq, Prod.mk.injEq] at a1
    obtain ⟨rfl, rfl⟩ := a1
    rw [← (shortenNodes_iff.mp a3).length_eq, (analyzeMax_edges f.wf hu a2).length]
    obtain ⟨nd, h3, _⟩ := f.live_node (List.getElem?_eq_getElem hi')
    exact (List.getElem?_eq_some_iff.mp h3).1
  have hshown := C82_shown_iff sizes fits h hlt
  refine ⟨fun l => by rw [f.localShared_iff alike hi, hl, eq_comm], hshown, fun m hm => ?_⟩
  have hinfo : st.hasStackUsageInfo = true := f.info_iff.mpr (hshown.mp ⟨m, hm⟩)
  rw [hinfo] at ha
  rw [hmx] at hm
  obtain ⟨⟨h3, h4⟩, _⟩ := analyzeMax_maxSpec f.wf hu ha hm
  rw [hsame.calls, hsame.locOf] at h3 h4
  rw [hl, ← hE]
  refine ⟨hlive.heaviest hi h3, h4.trans ((hlive.bounded_iff hi).trans ?_)⟩
  refine forall_congr' fun u => imp_congr_right fun hr => ?_
  rw [← f.mayLeave_iff alike defs decls safe u]
  have hul := LiveHop.lt hi hr
  constructor
  · rintro ⟨a, b, c⟩
    exact ⟨a, fun hc => c hc.2, b⟩
  · rintro ⟨a, b, c⟩
    exact ⟨a, c, fun hc => b ⟨hul, hc⟩⟩

/-- **C119** The figures of a run without a start point are determined by the program even if several functions have the
same names. The local usage at each node is the only one of `LocalShared`. A maximum is shown exactly if the compiler
reports some frame. It is the weight of the heaviest chain of recursion groups along the calls that any functions make
which share the nodes. It is exact exactly if everything that can be reached that way is known, stays in the
executable, and does not use stack in recursion. -/
theorem C119_figures {g' : Graph} {cycles : List (List Nat)} (alike : p.NamesAlike) (defs : p.DefinesOnce)
    (decls : p.DeclaresOnce) (addressed : p.Addressed) (safe : p.OrderSafe) (sizes : p.SizesU64)
    (fits : elf.Fits32) (h : finalGraph demangle ord search p elf none = .ok (g', cycles)) :
    ∃ chosen, p.Chosen chosen ∧ ∀ i < p.defined.length,
      (∀ l, p.LocalShared search elf i l ↔ g'.locOf i = l) ∧
      ((∃ m, g'.maxOf? i = some m) ↔ ∃ j k, p.Frame j k) ∧
      ∀ m, g'.maxOf? i = some m →
        Heaviest (p.MayCallShared search elf chosen) g'.locOf i m.bytes ∧
        (m.IsExact ↔ ∀ u, Reach (p.MayCallShared search elf chosen) i u →
          (g'.locOf u).Known ∧ ¬ p.MayLeaveShared search elf u ∧
          (Recursive (p.MayCallShared search elf chosen) u → (g'.locOf u).bytes = 0)) := by
  obtain ⟨st, g, h1, h2⟩ := finalGraph_facts h
  obtain ⟨cs, st0, stIr, f⟩ := callGraph_shared h1
  exact ⟨_, SharedFacts.figures alike defs decls addressed safe sizes fits h h1 h2 f⟩

/-- **C119** If no two functions have a name in common then these are the calls of C85. -/
theorem C119_names_once {st : Build} {g : Graph} (once : p.NamesOnce) (defs : p.DefinesOnce)
    (decls : p.DeclaresOnce) (addressed : p.Addressed) (safe : p.OrderSafe)
    (h : callGraph demangle ord search p elf = .ok (st, g)) :
    ∃ chosen, p.Chosen chosen ∧ p.MayCallShared search elf chosen = p.MayCall search elf chosen ∧
      (∀ a < p.defined.length, p.MayLeaveShared search elf a ↔ p.MayLeave search elf a) ∧
      ∀ a < p.defined.length, ∀ l, p.LocalShared search elf a l ↔ p.LocalIs search elf a l := by
  obtain ⟨cs, st0, stIr, f⟩ := callGraph_shared h
  obtain ⟨cs', ext, st0', stIr', r⟩ := callGraph_facts once h
  have alike := alike_of_once once
  have h1 := f.mayCall_iff alike defs decls addressed safe
  have h2 := r.mayCall_iff once defs decls addressed safe
  have hlen := r.live_length
  rw [hlen] at h2
  refine ⟨_, f.chosen defs decls, h1.symm.trans h2, fun a ha => ?_, fun a ha l => ?_⟩
  · have ha' : a < cs'.length := by rw [hlen]; exact ha
    rw [← f.mayLeave_iff alike defs decls safe a, ← r.mayLeave_iff once defs decls safe ha', hlen]
    exact ⟨fun x => x.2, fun x => ⟨ha, x⟩⟩
  · have ha' : a < cs'.length := by rw [hlen]; exact ha
    rw [f.localShared_iff alike ha, r.localIs_iff once ha']

/-- **C119** The figure of a function that shares its names with a later one is its own frame: nothing that it calls is
counted. -/
theorem C119_hidden {g' : Graph} {cycles : List (List Nat)} (alike : p.NamesAlike) (defs : p.DefinesOnce)
    (decls : p.DeclaresOnce) (addressed : p.Addressed) (safe : p.OrderSafe) (sizes : p.SizesU64)
    (fits : elf.Fits32) (h : finalGraph demangle ord search p elf none = .ok (g', cycles)) {i j : Nat}
    (hl : p.LastOf i j) (hne : i ≠ j) {m : Max} (hm : g'.maxOf? i = some m) :
    m.bytes = (g'.locOf i).bytes ∧ (m.IsExact ↔ (g'.locOf i).Known) := by
  obtain ⟨chosen, _, hfig⟩ := C119_figures alike defs decls addressed safe sizes fits h
  have hi : i < p.defined.length := by
    obtain ⟨_, _, _, _, h1, _⟩ := hl
    exact (List.getElem?_eq_some_iff.mp h1).1
  have hnot : ∀ {k}, ¬ p.LastOf k i := by
    intro k hk
    obtain ⟨a, s, b, t, k1, k2, k3, k4⟩ := hk
    obtain ⟨a', s', b', t', l1, l2, l3, l4⟩ := hl
    rw [k2] at l1
    cases l1
    rcases Nat.lt_or_gt_of_ne hne with hlt | hlt
    · exact k4 j _ _ hlt l2 (l3.trans k3)
    · exact l4 i _ _ hlt k2 rfl
  have hno : ∀ {b}, ¬ p.MayCallShared search elf chosen i b := fun ⟨_, hk, _⟩ => hnot hk
  have hreach : ∀ {u}, Reach (p.MayCallShared search elf chosen) i u → u = i := by
    intro u hr
    rcases hr.cases_tail with h1 | ⟨c, h1, _⟩
    · exact h1.symm
    · exact absurd h1 hno
  obtain ⟨_, _, h3⟩ := hfig i hi
  obtain ⟨hw, hx⟩ := h3 m hm
  constructor
  · refine hw.unique ⟨⟨[i], ⟨fun u hu => ?_, by simp⟩, by simp [weight]⟩, fun us hus => ?_⟩
    · rw [List.mem_singleton.mp hu]
      exact .refl _
    · match us, hus with
      | [], _ => simp [weight]
      | [u], hus =>
        rw [hreach (hus.1 u (by simp))]
        simp [weight]
      | u :: v :: us, hus =>
        have h4 := hreach (hus.1 u (by simp))
        have h5 := hreach (hus.1 v (by simp))
        subst h4 h5
        exact absurd (.refl _) ((List.pairwise_cons.mp hus.2).1 _ (by simp)).2
  · rw [hx]
    constructor
    · intro H
      exact (H i (.refl _)).1
    · intro H u hr
      rw [hreach hr]
      exact ⟨H, fun ⟨_, hk, _⟩ => hnot hk, fun ⟨_, hb, _⟩ => absurd hb hno⟩

/-- **C119** The roots of the graph are the nodes that no function calls by the names of the node: those of functions that
nobody calls, and those of functions that share their names with a later one unless they are called indirectly. -/
theorem C119_roots {g' : Graph} {cycles : List (List Nat)} (alike : p.NamesAlike) (defs : p.DefinesOnce)
    (decls : p.DeclaresOnce) (addressed : p.Addressed) (safe : p.OrderSafe) (sizes : p.SizesU64)
    (fits : elf.Fits32) (h : finalGraph demangle ord search p elf none = .ok (g', cycles)) :
    ∃ chosen, p.Chosen chosen ∧ ∀ i < p.defined.length,
      (∀ a, ¬ g'.Calls a i) ↔ ∀ a, ¬ p.MayCallShared search elf chosen a i := by
  obtain ⟨st, g, h1, h2⟩ := finalGraph_facts h
  obtain ⟨cs, st0, stIr, f⟩ := callGraph_shared h1
  have hcalls := (h2.calls f.wf (f.u64 sizes fits)).1
  have hE := f.mayCall_iff alike defs decls addressed safe
  refine ⟨_, f.chosen defs decls, fun i hi => ?_⟩
  rw [hcalls, ← hE]
  constructor
  · rintro hno a ⟨_, _, hc | ⟨d, _, _, hc⟩⟩
    · exact hno _ hc
    · exact hno _ hc
  · intro hno a hc
    by_cases hlt : a < p.defined.length
    · exact hno a ⟨hlt, hi, .inl hc⟩
    · obtain ⟨e, he, h3⟩ := f.from_fict alike safe (by omega) hc
      obtain ⟨_, _, _, ⟨b, hb⟩, hcallers, _⟩ := C115_dashed_nodes alike decls h1 h3.node rfl
      obtain ⟨k, _, ⟨_, _, _, _, _, hk, _⟩, _⟩ := (hcallers b).mp hb
      exact hno b ⟨(List.getElem?_eq_some_iff.mp hk).1, hi, .inr ⟨a, by omega, hb, hc⟩⟩

/-- **C119** Recursion: nodes whose functions may call each other in turn have the same maximum, and the clusters that
are shown are exactly the groups of such nodes. -/
theorem C119_recursion {g' : Graph} {cycles : List (List Nat)} (alike : p.NamesAlike) (defs : p.DefinesOnce)
    (decls : p.DeclaresOnce) (addressed : p.Addressed) (safe : p.OrderSafe) (sizes : p.SizesU64)
    (fits : elf.Fits32) (h : finalGraph demangle ord search p elf none = .ok (g', cycles)) :
    ∃ chosen, p.Chosen chosen ∧ ∀ i < p.defined.length, ∀ j < p.defined.length,
      (SameGroup (p.MayCallShared search elf chosen) i j → g'.maxOf? i = g'.maxOf? j) ∧
      ((∃ c ∈ cycles, i ∈ c ∧ j ∈ c) ↔ (∃ j k, p.Frame j k) ∧ Recursive (p.MayCallShared search elf chosen) i ∧
        SameGroup (p.MayCallShared search elf chosen) i j) := by
  obtain ⟨st, g, h1, h2⟩ := finalGraph_facts h
  obtain ⟨cs, st0, stIr, f⟩ := callGraph_shared h1
  obtain ⟨hch, hfig⟩ := SharedFacts.figures alike defs decls addressed safe sizes fits h h1 h2 f
  have hu := f.u64 sizes fits
  obtain ⟨g1, ha, -, -, -⟩ := h2.analysis
  have hsame := analyzeMax_edges f.wf hu ha
  have hE := f.mayCall_iff alike defs decls addressed safe
  have hlive := f.liveGraph alike safe
  refine ⟨_, hch, fun i hi j hj => ⟨fun hg => ?_, ?_⟩⟩
  · obtain ⟨_, hs, hm⟩ := hfig i hi
    obtain ⟨_, hs', hm'⟩ := hfig j hj
    cases hmi : g'.maxOf? i with
    | none =>
      cases hmj : g'.maxOf? j with
      | none => rfl
      | some m => exact absurd (hs.mpr (hs'.mp ⟨m, hmj⟩)) (by simp [hmi])
    | some m =>
      obtain ⟨m', hmj⟩ := hs'.mpr (hs.mp ⟨m, hmi⟩)
      rw [hmj]
      obtain ⟨⟨⟨us, hc, hw⟩, hmax⟩, hex⟩ := hm m hmi
      obtain ⟨⟨⟨us', hc', hw'⟩, hmax'⟩, hex'⟩ := hm' m' hmj
      have hb : m.bytes = m'.bytes := by
        apply Nat.le_antisymm
        · rw [← hw]
          exact hmax' us ⟨fun u hu => hg.2.trans (hc.1 u hu), hc.2⟩
        · rw [← hw']
          exact hmax us' ⟨fun u hu => hg.1.trans (hc'.1 u hu), hc'.2⟩
      have hx : m.IsExact ↔ m'.IsExact := by
        rw [hex, hex']
        exact ⟨fun H u hr => H u (hg.1.trans hr), fun H u hr => H u (hg.2.trans hr)⟩
      cases m <;> cases m' <;> simp_all [Max.bytes, Max.IsExact]
  · rw [← f.info_iff]
    cases hinfo : st.hasStackUsageInfo with
    | false =>
      rw [hinfo] at ha
      simp only [analyzeMax, Bool.not_false, if_true, Except.ok.injEq, Prod.mk.injEq] at ha
      simp [← ha.2]
    | true =>
      rw [hinfo] at ha
      obtain ⟨c1, c2, -⟩ := C09_clusters f.wf hu ha
      rw [hsame.calls] at c1 c2
      have hri : Recursive (LiveHop g.Calls p.defined.length) i ↔ Recursive g.Calls i := (hlive.recursive_iff hi).symm
      rw [← hE, hri]
      have hgrp : SameGroup (LiveHop g.Calls p.defined.length) i j ↔ SameGroup g.Calls i j := by
        unfold SameGroup
        rw [hlive.reach_iff hi hj, hlive.reach_iff hj hi]
      rw [hgrp]
      constructor
      · rintro ⟨c, hc, hci, hcj⟩
        have hrec := (c1 i).mp ⟨c, hc, hci⟩
        exact ⟨rfl, hrec, (c2 i j hrec).mp ⟨c, hc, hci, hcj⟩⟩
      · rintro ⟨_, hrec, hg⟩
        exact (c2 i j hrec).mpr hg

/-- **C119** What is shown for a start point: if it selects a name then it selects the last live function `i` of that
name, and among the live functions exactly those nodes are shown that `i` may reach by calls, each once, with the
figures of the run without a start point. -/
theorem C119_start_figures {g : Graph} {cycles : List (List Nat)} (alike : p.NamesAlike) (defs : p.DefinesOnce)
    (decls : p.DeclaresOnce) (addressed : p.Addressed) (safe : p.OrderSafe) (sizes : p.SizesU64)
    (fits : elf.Fits32) (h : finalGraph demangle ord search p elf none = .ok (g, cycles)) {s n : Str} {i0 : Nat}
    (hs : p.Starts demangle s n) (hi0 : p.Principal i0 n) :
    ∃ g' cycles' chosen loc i, ∃ at_ : Nat → Nat,
      finalGraph demangle ord search p elf (some s) = .ok (g', cycles') ∧
      p.Principal i n ∧ (∀ j, p.Principal j n → j ≤ i) ∧
      p.Chosen chosen ∧ (∀ j < p.defined.length, p.LocalShared search elf j (loc j)) ∧
      (∀ j j', Reach (p.MayCallShared search elf chosen) i j → Reach (p.MayCallShared search elf chosen) i j' →
        at_ j = at_ j' → j = j') ∧
      (∀ k < g'.nodes.length, (∃ j, Reach (p.MayCallShared search elf chosen) i j ∧ at_ j = k) ∨
        ((g'.locOf k).bytes = 0 ∧ ∃ j, p.defined.length ≤ j ∧ g'.nodes[k]? = g.nodes[j]?)) ∧
      ∀ j, Reach (p.MayCallShared search elf chosen) i j → j < p.defined.length ∧
        at_ j < g'.nodes.length ∧
        (g'.nodes[at_ j]?).map Node.name = (g.nodes[j]?).map Node.name ∧
        g'.locOf (at_ j) = loc j ∧
        ((∃ m, g'.maxOf? (at_ j) = some m) ↔ ∃ f k, p.Frame f k) ∧
        ∀ m, g'.maxOf? (at_ j) = some m →
          Heaviest (p.MayCallShared search elf chosen) loc j m.bytes ∧
          (m.IsExact ↔ ∀ u, Reach (p.MayCallShared search elf chosen) j u →
            (loc u).Known ∧ ¬ p.MayLeaveShared search elf u ∧
            (Recursive (p.MayCallShared search elf chosen) u → (loc u).bytes = 0)) := by
  obtain ⟨st, g0, h1, h2⟩ := finalGraph_facts h
  obtain ⟨cs, st0, stIr, f⟩ := callGraph_shared h1
  obtain ⟨hcalls, hlocs⟩ := h2.calls f.wf (f.u64 sizes fits)
  have hE := f.mayCall_iff alike defs decls addressed safe
  have hlive := f.liveGraph alike safe
  obtain ⟨g', cycles', ren, i, h3, hi, hlast, hr⟩ := start_last sizes fits h hs hi0
  obtain ⟨hch, hfig⟩ := SharedFacts.figures alike defs decls addressed safe sizes fits h h1 h2 f
  have hi' : i < p.defined.length := hi.lt
  have hlt : ∀ {j}, Reach (p.MayCallShared search elf (voidOf ord st)) i j → j < p.defined.length := by
    intro j hj
    rw [← hE] at hj
    exact LiveHop.lt hi' hj
  have hreach : ∀ {j}, Reach (p.MayCallShared search elf (voidOf ord st)) i j → Reach g.Calls i j := by
    intro j hj
    rw [hcalls]
    rw [← hE] at hj
    exact LiveHop.reach hj
  have hloc : ∀ {j}, Reach g.Calls i j → g'.locOf (ren j) = g.locOf j := by
    intro j hj
    unfold Graph.locOf
    rw [hr.nodes j hj]
  refine ⟨g', cycles', voidOf ord st, g.locOf, i, ren, h3, hi, hlast, hch, fun j hj => ((hfig j hj).1 _).mpr rfl,
    fun j j' hj hj' he => hr.bij.inj j j' (hreach hj) (hreach hj') he, fun k hk => ?_, fun j hj => ?_⟩
  · obtain ⟨j, hj, rfl⟩ := hr.bij.surj k hk
    by_cases hjl : j < p.defined.length
    · left
      refine ⟨j, ?_, rfl⟩
      rw [← hE]
      rw [hcalls] at hj
      exact (hlive.reach_iff hi' hjl).mp hj
    · right
      refine ⟨?_, j, by omega, hr.nodes j hj⟩
      rw [hloc hj, hlocs]
      exact hlive.zero j (by omega)
  · have hmax : g'.maxOf? (ren j) = g.maxOf? j := by
      unfold Graph.maxOf?
      rw [hr.nodes j (hreach hj)]
    refine ⟨hlt hj, hr.bij.lt j (hreach hj), by rw [hr.nodes j (hreach hj)], hloc (hreach hj), ?_⟩
    rw [hmax]
    exact (hfig j (hlt hj)).2

/-- **C119** From the command line to the figures, as C101: what can be read back from the output in the Graphviz
format of a run without a start point. -/
theorem C119_command_line {u : CharClass} {w : World} {cl : Cli} {out : Str} (typed : w.Typed)
    (hw : w.wrapperVar = false) (hcl : w.cli = .ok cl) (start : cl.start = none) (dot : cl.format = .dot)
    (h : tool u demangle ord search w = .exit 0 out) :
    ∃ file host config stderr inp p, w.Built cl file host config (some 0) stderr ∧
      w.Inputs cl file host config stderr inp ∧ loadProgram u ord inp = .ok p ∧
      (p.NamesAlike → p.OrderSafe → w.elf.Fits32 →
        (∀ g' cycles, finalGraph demangle ord search p w.elf none = .ok (g', cycles) →
          ∀ nd ∈ g'.nodes, '\\' ∉ demangle nd.name) →
        ∃ nodes edges clusters, (readDot out).bind DotFile.meaning = some (nodes, edges, clusters) ∧
          ∃ (chosen : Option Str) (loc : Nat → Local), p.Chosen chosen ∧
            ∀ i < p.defined.length, ∃ nd, nodes[i]? = some nd ∧ nd.loc = loc i ∧
              (∃ s, p.Displayed demangle i s ∧ nd.name = demangle s) ∧
              (∀ l, p.LocalShared search w.elf i l ↔ loc i = l) ∧
              ((∃ m, nd.max = some m) ↔ ∃ j k, p.Frame j k) ∧
              ∀ m, nd.max = some m →
                Heaviest (p.MayCallShared search w.elf chosen) loc i m.bytes ∧
                (m.IsExact ↔ ∀ v, Reach (p.MayCallShared search w.elf chosen) i v →
                  (loc v).Known ∧ ¬ p.MayLeaveShared search w.elf v ∧
                  (Recursive (p.MayCallShared search w.elf chosen) v → (loc v).bytes = 0))) := by
  obtain ⟨file, host, config, stderr, inp, h1, h2, h3⟩ := (C77_exit_status hw hcl).mp h
  unfold runFiles at h3
  split at h3
  · simp at h3
  rename_i p hp
  refine ⟨file, host, config, stderr, inp, p, h1, h2, hp, ?_⟩
  intro alike safe fits hn
  obtain ⟨addressed, defines, declares, sizes⟩ := C100_loaded typed h2 hp
  rw [start, dot] at h3
  unfold runText at h3
  cases hf : finalGraph demangle ord search p w.elf none with
  | error e => rw [hf] at h3; simp at h3
  | ok r =>
    obtain ⟨g', cycles⟩ := r
    rw [hf] at h3
    simp only [Except.ok.injEq] at h3
    subst h3
    obtain ⟨chosen, hch, hfig⟩ := C119_figures alike defines declares addressed safe sizes fits hf
    refine ⟨_, _, _, C22_dot_faithful demangle g' cycles (hn g' cycles hf), chosen, g'.locOf, hch, fun i hi => ?_⟩
    obtain ⟨nd, k1, k2⟩ := C98_displayed sizes fits hf hi
    obtain ⟨f1, f2, f3⟩ := hfig i hi
    have hmax : g'.maxOf? i = nd.max := by
      unfold Graph.maxOf?
      rw [k1]
    have hloc : g'.locOf i = nd.loc := by
      unfold Graph.locOf
      rw [k1]
    refine ⟨⟨demangle nd.name, nd.max, nd.loc, nd.dashed⟩, ?_, hloc.symm, ⟨_, (k2 _).mpr rfl, rfl⟩, f1, ?_, ?_⟩
    · rw [List.getElem?_map, k1]
      rfl
    · rw [← hmax]
      exact f2
    · intro m hm
      exact f3 m (hmax.trans hm)

end

theorem exIrTwins_ok : exIrTwins.NamesAlike ∧ ¬ exIrTwins.NamesOnce ∧ exIrTwins.DefinesOnce ∧
    exIrTwins.DeclaresOnce ∧ exIrTwins.Addressed ∧ exIrTwins.OrderSafe ∧ exIrTwins.SizesU64 := by
  refine ⟨?_, ?_, by unfold Program.DefinesOnce; decide, by unfold Program.DeclaresOnce; decide,
    by unfold Program.Addressed; decide, ?_, ?_⟩
  · intro i j a s b t n hi hj hs ht
    have l1 := exIrTwins_live ⟨a, s, hi, hs⟩
    have l2 := exIrTwins_live ⟨b, t, hj, ht⟩
    rcases l1 with ⟨rfl, rfl⟩ | ⟨rfl, rfl⟩ | ⟨rfl, rfl⟩ | ⟨rfl, rfl⟩ <;>
      rcases l2 with ⟨rfl, l2⟩ | ⟨rfl, l2⟩ | ⟨rfl, l2⟩ | ⟨rfl, l2⟩ <;>
        first
          | (exact absurd l2 (by decide))
          | (cases hi; cases hj; rfl)
  · intro h
    have := h c!"helper" 1 2 (mem_live rfl List.mem_cons_self rfl) (mem_live rfl List.mem_cons_self rfl)
    omega
  · rintro i s r ⟨d, h1, _, h2⟩ h3
    exfalso
    simp only [exIrTwins, List.mem_cons, List.not_mem_nil, or_false] at h1
    cases h3 with
    | memcmp => rcases h1 with rfl | rfl | rfl <;> revert h2 <;> decide
    | copy _ h => rcases h1 with rfl | rfl | rfl <;> simp at h2 <;> subst h2 <;> revert h <;> decide
    | fill _ h => rcases h1 with rfl | rfl | rfl <;> simp at h2 <;> subst h2 <;> revert h <;> decide
  · intro n k hk
    have := mget_mem hk
    simp only [exIrTwins, List.mem_cons, List.not_mem_nil, or_false, Prod.mk.injEq] at this
    omega

/-- The hypotheses are met. `main` calls `helper`, of which there are two, and `helper` calls `leaf`: the calls are
counted at the node of the second one only. -/
example : exIrTwins.LastOf 1 2 ∧
    (∀ search, exIrTwins.MayCallShared search ⟨[], none⟩ none 0 2 ∧
      exIrTwins.MayCallShared search ⟨[], none⟩ none 2 3 ∧ ¬ exIrTwins.MayCallShared search ⟨[], none⟩ none 1 3 ∧
      exIrTwins.LocalShared search ⟨[], none⟩ 2 (.exact 16)) ∧
    ∀ search, ∃ g' cycles, finalGraph id sameOrder search exIrTwins ⟨[], none⟩ none = .ok (g', cycles) ∧
      g'.nodes.map (fun nd => (nd.loc, nd.max)) = [(.exact 8, some (.exact 48)), (.exact 16, some (.exact 16)),
        (.exact 16, some (.exact 40)), (.exact 24, some (.exact 24))] := by
  have hh : ¬ IsIntrinsic c!"helper" := by rw [← classify_plain (t := false)]; rfl
  have hg : ¬ IsIntrinsic c!"leaf" := by rw [← classify_plain (t := false)]; rfl
  have l0 : exIrTwins.LastOf 0 0 := by
    refine ⟨_, _, _, _, rfl, rfl, rfl, ?_⟩
    intro k c u hk hu
    match k, hk, (List.getElem?_eq_some_iff.mp hu).1 with
    | 1, _, _ | 2, _, _ | 3, _, _ => cases hu; decide
  have l2 : ∀ i, i = 1 ∨ i = 2 → exIrTwins.LastOf i 2 := by
    rintro i (rfl | rfl) <;>
    · refine ⟨_, _, _, _, rfl, rfl, rfl, ?_⟩
      intro k c u hk hu
      match k, hk, (List.getElem?_eq_some_iff.mp hu).1 with
      | 3, _, _ => cases hu; decide
  have l3 : exIrTwins.LastOf 3 3 := by
    refine ⟨_, _, _, _, rfl, rfl, rfl, ?_⟩
    intro k c u hk hu
    have h1 := (List.getElem?_eq_some_iff.mp hu).1
    simp only [exIrTwins, List.length_cons, List.length_nil] at h1
    omega
  refine ⟨l2 1 (.inl rfl), fun search => ⟨?_, ?_, ?_, ?_⟩, fun search =>
    finalGraph_eval rfl search _ none (fun g _ => g.nodes.map (fun nd => (nd.loc, nd.max)) = _) (by decide +kernel)⟩
  · exact ⟨0, l0, .inl ⟨_, 1, ⟨_, List.mem_cons_self, mem_live rfl List.mem_cons_self rfl, List.mem_cons_self⟩,
      .direct hh (mem_live rfl List.mem_cons_self rfl) (fun h => absurd h (by decide)), l2 1 (.inl rfl)⟩⟩
  · exact ⟨1, l2 1 (.inl rfl), .inl ⟨_, 3, ⟨_, List.mem_cons_of_mem _ List.mem_cons_self,
      mem_live rfl List.mem_cons_self rfl, List.mem_cons_self⟩,
      .direct hg (mem_live rfl List.mem_cons_self rfl) (fun h => absurd h (by decide)), l3⟩⟩
  · rintro ⟨i, ⟨a, s, b, t, h1, h2, h3, h4⟩, _⟩
    have h5 := h4 2 24 ⟨[c!"helper"], 8⟩ (by omega) rfl
    cases h2
    exact h5 h3
  · refine .compiler (llvm := some 16) (.inl rfl) ?_
    exact (frame_iff (c := c!"helper") rfl rfl 16).mpr rfl

/-- The start point `helper` selects the second of the two functions. -/
example : exIrTwins.Starts id c!"helper" c!"helper" ∧ exIrTwins.Principal 1 c!"helper" ∧
    ∀ search, ∃ g' cycles, finalGraph id sameOrder search exIrTwins ⟨[], none⟩ (some c!"helper") = .ok (g', cycles) ∧
      g'.nodes.map (fun nd => (nd.loc, nd.max)) = [(.exact 16, some (.exact 40)), (.exact 24, some (.exact 24))] := by
  have hpr : exIrTwins.Principal 1 c!"helper" :=
    ⟨_, _, [], [], rfl, rfl, by rw [← isTag_iff]; decide, .inl ⟨⟨16, rfl⟩, by simp⟩⟩
  exact ⟨⟨.inl ⟨1, hpr⟩, .inl rfl⟩, hpr, fun search => finalGraph_eval rfl search _ (some c!"helper")
    (fun g _ => g.nodes.map (fun nd => (nd.loc, nd.max)) = _) (by decide +kernel)⟩

/-- The machine code of both functions `f` counts at the node of the second one: the first one calls through a register,
and the figures of both are compared. -/
example : exThumbTwin.MayLeaveShared linearSearch exThumbTwinElf 2 ∧
    exThumbTwin.MayCallShared linearSearch exThumbTwinElf none 0 2 ∧
    exThumbTwin.LocalShared linearSearch exThumbTwinElf 2 (.exact 0) ∧
    exThumbTwin.LocalShared linearSearch exThumbTwinElf 1 .unknown := by
  have l0 : exThumbTwin.LastOf 0 0 := by
    refine ⟨_, _, _, _, rfl, rfl, rfl, ?_⟩
    intro k c u hk hu
    match k, hk, (List.getElem?_eq_some_iff.mp hu).1 with
    | 1, _, _ | 2, _, _ => cases hu; decide
  have l2 : ∀ i, i = 1 ∨ i = 2 → exThumbTwin.LastOf i 2 := by
    rintro i (rfl | rfl) <;>
    · refine ⟨_, _, _, _, rfl, rfl, rfl, ?_⟩
      intro k c u hk hu
      have h1 := (List.getElem?_eq_some_iff.mp hu).1
      simp only [exThumbTwin, List.length_cons, List.length_nil] at h1
      omega
  have n02 : ¬ exThumbTwin.LastOf 0 2 := fun h => absurd (l0.unique h) (by decide)
  have n01 : ¬ exThumbTwin.LastOf 0 1 := fun h => absurd (l0.unique h) (by decide)
  have n1 : ∀ i, i = 1 ∨ i = 2 → ¬ exThumbTwin.LastOf i 1 := fun i hi h => absurd ((l2 i hi).unique h) (by decide)
  have d0 : exThumbTwin.Decoded linearSearch exThumbTwinElf 0 256 8 ⟨[8], [], false, true, some 8⟩ :=
    decoded_iff.mpr ⟨_, _, _, _, rfl, rfl, rfl, by decide +kernel, by decide, by decide, by decide +kernel⟩
  have d1 : exThumbTwin.Decoded linearSearch exThumbTwinElf 1 264 4 ⟨[], [], true, false, some 0⟩ :=
    decoded_iff.mpr ⟨_, _, _, _, rfl, rfl, rfl, by decide +kernel, by decide, by decide, by decide +kernel⟩
  have d2 : exThumbTwin.Decoded linearSearch exThumbTwinElf 2 268 2 ⟨[], [], false, false, some 0⟩ :=
    decoded_iff.mpr ⟨_, _, _, _, rfl, rfl, rfl, by decide +kernel, by decide, by decide, by decide +kernel⟩
  have fr : ∀ j, j = 1 ∨ j = 2 → exThumbTwin.FrameOpt j none := by
    rintro j (rfl | rfl) k hk
    · rw [frame_iff (c := c!"f") (e := (264, ⟨[c!"f"], 4⟩)) rfl rfl k] at hk
      cases hk
    · rw [frame_iff (c := c!"f") (e := (268, ⟨[c!"f"], 2⟩)) rfl rfl k] at hk
      cases hk
  have pr : exThumbTwin.Principal 2 c!"f" := by
    refine ⟨_, _, [], [], rfl, rfl, by rw [← isTag_iff]; decide, .inr ⟨?_, by simp⟩⟩
    rintro n ⟨hn, _⟩ k hk
    rw [List.mem_singleton.mp hn] at hk
    cases hk
  refine ⟨⟨1, l2 1 (.inl rfl), .inr (.inl ⟨rfl, ?_, _, _, _, d1, rfl⟩)⟩,
    ⟨0, l0, .inr (.inl ⟨1, ⟨rfl, _, _, _, 264, d0, .inl ⟨8, by simp, by decide⟩, _, rfl⟩, l2 1 (.inl rfl)⟩)⟩,
    .code rfl (by decide) ?_, .code rfl (by decide) ?_⟩
  · intro d hd
    simp only [exThumbTwin, exThumb, List.mem_singleton] at hd
    subst hd
    rintro ⟨a, s, h1, h2, _⟩
    simp only [exThumbTwin, List.getElem?_cons_succ, List.getElem?_cons_zero, Option.some.injEq,
      Prod.mk.injEq] at h1
    rw [← h1.2] at h2
    revert h2
    decide
  · have s0 := Program.LocalAfter.other (.compiler (search := linearSearch) (elf := exThumbTwinElf) (fr 2 (.inr rfl))) n02
    have s1 := Program.LocalAfter.code (known := none) s0 (l2 1 (.inl rfl)) d1 pr (.ours 0 (by simp))
    exact .code (known := some 0) s1 (l2 2 (.inr rfl)) d2 pr (.agree 0 (by simp))
  · have s0 := Program.LocalAfter.other (.compiler (search := linearSearch) (elf := exThumbTwinElf) (fr 1 (.inl rfl))) n01
    exact .other (.other s0 (n1 1 (.inl rfl))) (n1 2 (.inr rfl))

end CallStack
