import Verif.Proof.AnyCode
import Verif.Props.AnyFigures
import Verif.Props.SharedMachine

/-!
Property C128: the figures, exactly, whatever the names of the functions (main.rs:380-1290).
-/

namespace CallStack

section

variable {demangle : Str → Str} {ord : HashOrder} {search : TagSearch} {p : Program} {elf : Elf}

/-- The figures of a run without a start point, for the type that was chosen. -/
theorem SharedFacts.figures_node {g' : Graph} {cycles : List (List Nat)} {cs : List Str} {st0 stIr st : Build}
    {g : Graph}
    (defs : p.DefinesOnce)
    (decls : p.DeclaresOnce) (addressed : p.Addressed) (sizes : p.SizesU64) (fits : elf.Fits32)
    (h : finalGraph demangle ord search p elf none = .ok (g', cycles))
    (h1 : callGraph demangle ord search p elf = .ok (st, g)) (h2 : FinalFacts st.hasStackUsageInfo g g' cycles)
    (f : SharedFacts demangle ord search p elf cs st0 stIr st g) :
    p.Chosen (voidOf ord st) ∧ ∀ i < p.defined.length,
      (∀ l, p.LocalNode search elf i l ↔ g'.locOf i = l) ∧
      ((∃ m, g'.maxOf? i = some m) ↔ ∃ j k, p.Frame j k) ∧
      ∀ m, g'.maxOf? i = some m →
        Heaviest (p.MayCallNode search elf (voidOf ord st)) g'.locOf i m.bytes ∧
        (m.IsExact ↔ ∀ u, Reach (p.MayCallNode search elf (voidOf ord st)) i u →
          (g'.locOf u).Known ∧ ¬ p.MayLeaveNode search elf u ∧
          (Recursive (p.MayCallNode search elf (voidOf ord st)) u → (g'.locOf u).bytes = 0)) := by
  have hu := f.u64 sizes fits
  obtain ⟨g1, ha, he, hloc, hmx⟩ := h2.analysis
  have hE := f.mayCall_node defs decls addressed
  have hlive := f.liveGraph_node
  have hsame := analyzeMax_edges f.wf hu ha
  have hl : g'.locOf = g.locOf := by
    funext i
    rw [hloc, hsame.locOf]
  refine ⟨f.chosen defs decls, fun i hi => ?_⟩
  have hi' : i < cs.length := by rw [f.sym.len]; exact hi
  have hlt : i < g'.nodes.length := by
    obtain ⟨st', ga, gb, a1, a2, a3, _⟩ := finalGraph_steps h
    rw [h1] at a1
    simp only [Except.ok.injEq, Prod.mk.injEq] at a1
    obtain ⟨rfl, rfl⟩ := a1
    rw [← (shortenNodes_iff.mp a3).length_eq, (analyzeMax_edges f.wf hu a2).length]
    obtain ⟨nd, h3, _⟩ := f.live_node (List.getElem?_eq_getElem hi')
    exact (List.getElem?_eq_some_iff.mp h3).1
  have hshown := C82_shown_iff sizes fits h hlt
  refine ⟨fun l => by rw [hl]; exact f.localNode_iff hi l, hshown, fun m hm => ?_⟩
  have hinfo : st.hasStackUsageInfo = true := f.info_iff.mpr (hshown.mp ⟨m, hm⟩)
  rw [hinfo] at ha
  rw [hmx] at hm
  obtain ⟨⟨h3, h4⟩, _⟩ := analyzeMax_maxSpec f.wf hu ha hm
  rw [hsame.calls, hsame.locOf] at h3 h4
  rw [hl, ← hE]
  refine ⟨hlive.heaviest hi h3, h4.trans ((hlive.bounded_iff hi).trans ?_)⟩
  refine forall_congr' fun u => imp_congr_right fun hr => ?_
  rw [← f.mayLeave_node defs decls u]
  have hul := LiveHop.lt hi hr
  constructor
  · rintro ⟨a, b, c⟩
    exact ⟨a, fun hc => c hc.2, b⟩
  · rintro ⟨a, b, c⟩
    exact ⟨a, c, fun hc => b ⟨hul, hc⟩⟩

/-- **C128** The figures of a run without a start point are determined by the program whatever names the functions
share. The local usage at each node is the only one of `LocalNode`: the figure of the compiler, compared with all
machine code that counts for the node. A maximum is shown exactly if the compiler reports some frame. It is the
weight of the heaviest chain of recursion groups along the calls of the definitions and the machine code, each of
which counts for the last function that it is taken for and goes to the last function that the called one is shown
as. It is exact exactly if everything that can be reached that way is known, stays in the executable, and does not
use stack in recursion. -/
theorem C128_figures {g' : Graph} {cycles : List (List Nat)}
    (defs : p.DefinesOnce)
    (decls : p.DeclaresOnce) (addressed : p.Addressed) (sizes : p.SizesU64) (fits : elf.Fits32)
    (h : finalGraph demangle ord search p elf none = .ok (g', cycles)) :
    ∃ chosen, p.Chosen chosen ∧ ∀ i < p.defined.length,
      (∀ l, p.LocalNode search elf i l ↔ g'.locOf i = l) ∧
      ((∃ m, g'.maxOf? i = some m) ↔ ∃ j k, p.Frame j k) ∧
      ∀ m, g'.maxOf? i = some m →
        Heaviest (p.MayCallNode search elf chosen) g'.locOf i m.bytes ∧
        (m.IsExact ↔ ∀ u, Reach (p.MayCallNode search elf chosen) i u →
          (g'.locOf u).Known ∧ ¬ p.MayLeaveNode search elf u ∧
          (Recursive (p.MayCallNode search elf chosen) u → (g'.locOf u).bytes = 0)) := by
  obtain ⟨st, g, h1, h2⟩ := finalGraph_facts h
  obtain ⟨cs, st0, stIr, f⟩ := callGraph_shared h1
  exact ⟨_, SharedFacts.figures_node defs decls addressed sizes fits h h1 h2 f⟩

/-- **C128** Recursion: nodes whose functions may call each other in turn have the same maximum, and the clusters that
are shown are exactly the groups of such nodes. -/
theorem C128_recursion {g' : Graph} {cycles : List (List Nat)}
    (defs : p.DefinesOnce)
    (decls : p.DeclaresOnce) (addressed : p.Addressed) (sizes : p.SizesU64) (fits : elf.Fits32)
    (h : finalGraph demangle ord search p elf none = .ok (g', cycles)) :
    ∃ chosen, p.Chosen chosen ∧ ∀ i < p.defined.length, ∀ j < p.defined.length,
      (SameGroup (p.MayCallNode search elf chosen) i j → g'.maxOf? i = g'.maxOf? j) ∧
      ((∃ c ∈ cycles, i ∈ c ∧ j ∈ c) ↔ (∃ j k, p.Frame j k) ∧ Recursive (p.MayCallNode search elf chosen) i ∧
        SameGroup (p.MayCallNode search elf chosen) i j) := by
  obtain ⟨st, g, h1, h2⟩ := finalGraph_facts h
  obtain ⟨cs, st0, stIr, f⟩ := callGraph_shared h1
  obtain ⟨hch, hfig⟩ := SharedFacts.figures_node defs decls addressed sizes fits h h1 h2 f
  have hu := f.u64 sizes fits
  obtain ⟨g1, ha, -, -, -⟩ := h2.analysis
  have hsame := analyzeMax_edges f.wf hu ha
  have hE := f.mayCall_node defs decls addressed
  have hlive := f.liveGraph_node
  refine ⟨_, hch, fun i hi j hj => ⟨fun hg => ?_, ?_⟩⟩
  · obtain ⟨_, hs, hm⟩ := hfig i hi
    obtain ⟨_, hs', hm'⟩ := hfig j hj
    cases hmi : g'.maxOf? i with
    | none =>
      cases hmj : g'.maxOf? j with
      | none => rfl
      | some m => exact absurd (hs.mpr (hs'.mp ⟨m, hmj⟩)) (by simp [hmi])
    | some m =>
      obtain ⟨m', hmj⟩ := hs'.mpr (hs.mp ⟨m, hmi⟩)
      rw [hmj]
      obtain ⟨⟨⟨us, hc, hw⟩, hmax⟩, hex⟩ := hm m hmi
      obtain ⟨⟨⟨us', hc', hw'⟩, hmax'⟩, hex'⟩ := hm' m' hmj
      have hb : m.bytes = m'.bytes := by
        apply Nat.le_antisymm
        · rw [← hw]
          exact hmax' us ⟨fun u hu => hg.2.trans (hc.1 u hu), hc.2⟩
        · rw [← hw']
          exact hmax us' ⟨fun u hu => hg.1.trans (hc'.1 u hu), hc'.2⟩
      have hx : m.IsExact ↔ m'.IsExact := by
        rw [hex, hex']
        exact ⟨fun H u hr => H u (hg.1.trans hr), fun H u hr => H u (hg.2.trans hr)⟩
      cases m <;> cases m' <;> simp_all [Max.bytes, Max.IsExact]
  · rw [← f.info_iff]
    cases hinfo : st.hasStackUsageInfo with
    | false =>
      rw [hinfo] at ha
      simp only [analyzeMax, Bool.not_false, if_true, Except.ok.injEq, Prod.mk.injEq] at ha
      simp [← ha.2]
    | true =>
      rw [hinfo] at ha
      obtain ⟨c1, c2, -⟩ := C09_clusters f.wf hu ha
      rw [hsame.calls] at c1 c2
      have hri : Recursive (LiveHop g.Calls p.defined.length) i ↔ Recursive g.Calls i := (hlive.recursive_iff hi).symm
      rw [← hE, hri]
      have hgrp : SameGroup (LiveHop g.Calls p.defined.length) i j ↔ SameGroup g.Calls i j := by
        unfold SameGroup
        rw [hlive.reach_iff hi hj, hlive.reach_iff hj hi]
      rw [hgrp]
      constructor
      · rintro ⟨c, hc, hci, hcj⟩
        have hrec := (c1 i).mp ⟨c, hc, hci⟩
        exact ⟨rfl, hrec, (c2 i j hrec).mp ⟨c, hc, hci, hcj⟩⟩
      · rintro ⟨_, hrec, hg⟩
        exact (c2 i j hrec).mpr hg

/-- **C128** What is shown for a start point: if it selects a name then it selects the last live function `i` of that
name, and among the live functions exactly those nodes are shown that `i` may reach by calls, each once, with the
figures of the run without a start point. -/
theorem C128_start_figures {g : Graph} {cycles : List (List Nat)}
    (defs : p.DefinesOnce)
    (decls : p.DeclaresOnce) (addressed : p.Addressed) (sizes : p.SizesU64) (fits : elf.Fits32)
    (h : finalGraph demangle ord search p elf none = .ok (g, cycles)) {s n : Str} {i0 : Nat}
    (hs : p.Starts demangle s n) (hi0 : p.Principal i0 n) :
    ∃ g' cycles' chosen loc i, ∃ at_ : Nat → Nat,
      finalGraph demangle ord search p elf (some s) = .ok (g', cycles') ∧
      p.Principal i n ∧ (∀ j, p.Principal j n → j ≤ i) ∧
      p.Chosen chosen ∧
      (∀ j < p.defined.length, ∀ l, p.LocalNode search elf j l ↔ loc j = l) ∧
      (∀ j j', Reach (p.MayCallNode search elf chosen) i j → Reach (p.MayCallNode search elf chosen) i j' →
        at_ j = at_ j' → j = j') ∧
      (∀ k < g'.nodes.length, (∃ j, Reach (p.MayCallNode search elf chosen) i j ∧ at_ j = k) ∨
        ((g'.locOf k).bytes = 0 ∧ ∃ j, p.defined.length ≤ j ∧ g'.nodes[k]? = g.nodes[j]?)) ∧
      ∀ j, Reach (p.MayCallNode search elf chosen) i j → j < p.defined.length ∧
        at_ j < g'.nodes.length ∧
        (g'.nodes[at_ j]?).map Node.name = (g.nodes[j]?).map Node.name ∧
        g'.locOf (at_ j) = loc j ∧
        ((∃ m, g'.maxOf? (at_ j) = some m) ↔ ∃ f k, p.Frame f k) ∧
        ∀ m, g'.maxOf? (at_ j) = some m →
          Heaviest (p.MayCallNode search elf chosen) loc j m.bytes ∧
          (m.IsExact ↔ ∀ u, Reach (p.MayCallNode search elf chosen) j u →
            (loc u).Known ∧ ¬ p.MayLeaveNode search elf u ∧
            (Recursive (p.MayCallNode search elf chosen) u → (loc u).bytes = 0)) := by
  obtain ⟨st, g0, h1, h2⟩ := finalGraph_facts h
  obtain ⟨cs, st0, stIr, f⟩ := callGraph_shared h1
  obtain ⟨hcalls, hlocs⟩ := h2.calls f.wf (f.u64 sizes fits)
  have hE := f.mayCall_node defs decls addressed
  have hlive := f.liveGraph_node
  obtain ⟨g', cycles', ren, i, h3, hi, hlast, hr⟩ := start_last sizes fits h hs hi0
  obtain ⟨hch, hfig⟩ := SharedFacts.figures_node defs decls addressed sizes fits h h1 h2 f
  have hi' : i < p.defined.length := hi.lt
  have hlt : ∀ {j}, Reach (p.MayCallNode search elf (voidOf ord st)) i j → j < p.defined.length := by
    intro j hj
    rw [← hE] at hj
    exact LiveHop.lt hi' hj
  have hreach : ∀ {j}, Reach (p.MayCallNode search elf (voidOf ord st)) i j → Reach g.Calls i j := by
    intro j hj
    rw [hcalls]
    rw [← hE] at hj
    exact LiveHop.reach hj
  have hloc : ∀ {j}, Reach g.Calls i j → g'.locOf (ren j) = g.locOf j := by
    intro j hj
    unfold Graph.locOf
    rw [hr.nodes j hj]
  refine ⟨g', cycles', voidOf ord st, g.locOf, i, ren, h3, hi, hlast, hch,
    fun j hj => (hfig j hj).1,
    fun j j' hj hj' he => hr.bij.inj j j' (hreach hj) (hreach hj') he, fun k hk => ?_, fun j hj => ?_⟩
  · obtain ⟨j, hj, rfl⟩ := hr.bij.surj k hk
    by_cases hjl : j < p.defined.length
    · left
      refine ⟨j, ?_, rfl⟩
      rw [← hE]
      rw [hcalls] at hj
      exact (hlive.reach_iff hi' hjl).mp hj
    · right
      refine ⟨?_, j, by omega, hr.nodes j hj⟩
      rw [hloc hj, hlocs]
      exact hlive.zero j (by omega)
  · have hmax : g'.maxOf? (ren j) = g.maxOf? j := by
      unfold Graph.maxOf?
      rw [hr.nodes j (hreach hj)]
    refine ⟨hlt hj, hr.bij.lt j (hreach hj), by rw [hr.nodes j (hreach hj)], hloc (hreach hj), ?_⟩
    rw [hmax]
    exact (hfig j (hlt hj)).2

theorem Program.MayCallNode.lt {chosen : Option Str} {a b : Nat} (h : p.MayCallNode search elf chosen a b) :
    b < p.defined.length := by
  rcases h with h | h
  · exact h.lt
  · exact h.lt.2

theorem Program.MayCallNode.reach_lt {chosen : Option Str} {i u : Nat} (hi : i < p.defined.length)
    (h : Reach (p.MayCallNode search elf chosen) i u) : u < p.defined.length := by
  induction h with
  | refl => exact hi
  | step h _ ih => exact ih h.lt

/-- **C128** What the mark before a maximum means, as C107: see `MarkMeans`. -/
theorem C128_mark {g' : Graph} {cycles : List (List Nat)}
    (defs : p.DefinesOnce)
    (decls : p.DeclaresOnce) (addressed : p.Addressed) (sizes : p.SizesU64) (fits : elf.Fits32)
    (h : finalGraph demangle ord search p elf none = .ok (g', cycles)) :
    ∃ chosen, p.Chosen chosen ∧ ∀ i < p.defined.length, ∀ m, g'.maxOf? i = some m →
      MarkMeans (p.MayCallNode search elf chosen) (p.MayLeaveNode search elf) g'.locOf i m := by
  obtain ⟨chosen, hc, hf⟩ := C128_figures defs decls addressed sizes fits h
  refine ⟨chosen, hc, fun i hi m hm => ?_⟩
  obtain ⟨hh, he⟩ := (hf i hi).2.2 m hm
  exact markMeans_of hh he

/-- **C128** If functions that share a name share all names then these are the calls and usages of C119. -/
theorem C128_alike {st : Build} {g : Graph} (alike : p.NamesAlike) (defs : p.DefinesOnce) (decls : p.DeclaresOnce)
    (addressed : p.Addressed) (safe : p.OrderSafe) (h : callGraph demangle ord search p elf = .ok (st, g)) :
    ∃ chosen, p.Chosen chosen ∧ p.MayCallNode search elf chosen = p.MayCallShared search elf chosen ∧
      (∀ a, p.MayLeaveNode search elf a ↔ p.MayLeaveShared search elf a) ∧
      ∀ a < p.defined.length, ∀ l, p.LocalNode search elf a l ↔ p.LocalShared search elf a l := by
  obtain ⟨cs, st0, stIr, f⟩ := callGraph_shared h
  refine ⟨_, f.chosen defs decls, ?_, fun a => ?_, fun a ha l => ?_⟩
  · rw [← f.mayCall_node defs decls addressed, f.mayCall_iff alike defs decls addressed safe]
  · rw [← f.mayLeave_node defs decls a, f.mayLeave_iff alike defs decls safe a]
  · rw [f.localNode_iff ha, f.localShared_iff alike ha, eq_comm]

/-- **C128** If no machine code is analysed then these are the calls and usages of C127. -/
theorem C128_quiet (quiet : p.target.isThumb = false ∨ elf.text = none) (chosen : Option Str) :
    p.MayCallNode search elf chosen = p.MayCallAny chosen ∧
      (∀ a, p.MayLeaveNode search elf a ↔ p.MayLeaveAny a) ∧
      ∀ a k, p.Frame a k → p.LocalNode search elf a (.exact k) := by
  have no : ∀ {i address size r}, p.target.isThumb = true → ¬ p.Decoded search elf i address size r := by
    rintro i address size r ht ⟨_, _, _, _, _, _, hx, _⟩
    rcases quiet with h | h
    · rw [ht] at h
      cases h
    · rw [hx] at h
      cases h
  refine ⟨?_, fun a => ⟨?_, .inl⟩, fun a k hk => .compiler (llvm := some k) quiet hk⟩
  · funext a b
    refine propext ⟨?_, .inl⟩
    rintro (h | ⟨_, _, _, _, _, ⟨ht, _, _, _, _, hd, _⟩, _⟩)
    · exact h
    · exact absurd hd (no ht)
  · rintro (h | ⟨ht, _, _, _, _, _, _, _, hd, _⟩)
    · exact h
    · exact absurd hd (no ht)

/-- **C128** Two runs on the same program with the definitions in the same order, which differ in the order of the hash
map of signatures and in the demangler, show the same figures. -/
theorem C128_orders {demangle' : Str → Str} {ord' : HashOrder} {g g' : Graph} {cycles cycles' : List (List Nat)}
    (defs : p.DefinesOnce) (decls : p.DeclaresOnce) (addressed : p.Addressed)
    (one : p.OneVoid) (sizes : p.SizesU64) (fits : elf.Fits32)
    (h : finalGraph demangle ord search p elf none = .ok (g, cycles))
    (h' : finalGraph demangle' ord' search p elf none = .ok (g', cycles')) {i : Nat} (hi : i < p.defined.length) :
    g'.locOf i = g.locOf i ∧ g'.maxOf? i = g.maxOf? i := by
  obtain ⟨c, hc, hf⟩ := C128_figures defs decls addressed sizes fits h
  obtain ⟨c', hc', hf'⟩ := C128_figures defs decls addressed sizes fits h'
  obtain rfl := chosen_unique one hc hc'
  have hl : ∀ u < p.defined.length, g'.locOf u = g.locOf u := by
    intro u hu
    exact ((hf' u hu).1 _).mp (((hf u hu).1 _).mpr rfl)
  have hlt : ∀ {u}, Reach (p.MayCallNode search elf c) i u → u < p.defined.length :=
    fun hr => Program.MayCallNode.reach_lt hi hr
  refine ⟨hl i hi, ?_⟩
  refine maxima_congr ?_ (hf i hi).2.2 (hf' i hi).2.2 (fun _ _ _ => Iff.rfl) (fun u hu => hl u (hlt hu))
    (fun _ _ => Iff.rfl)
  rw [(hf i hi).2.1, (hf' i hi).2.1]

/-- **C128** From the command line to the figures, as C101: what can be read back from the output in the Graphviz
format of a run without a start point, with no assumption on the names nor on the order of the definitions. -/
theorem C128_command_line {u : CharClass} {w : World} {cl : Cli} {out : Str} (typed : w.Typed)
    (hw : w.wrapperVar = false) (hcl : w.cli = .ok cl) (start : cl.start = none) (dot : cl.format = .dot)
    (h : tool u demangle ord search w = .exit 0 out) :
    ∃ file host config stderr inp p, w.Built cl file host config (some 0) stderr ∧
      w.Inputs cl file host config stderr inp ∧ loadProgram u ord inp = .ok p ∧
      (w.elf.Fits32 →
        (∀ g' cycles, finalGraph demangle ord search p w.elf none = .ok (g', cycles) →
          ∀ nd ∈ g'.nodes, '\\' ∉ demangle nd.name) →
        ∃ nodes edges clusters, (readDot out).bind DotFile.meaning = some (nodes, edges, clusters) ∧
          ∃ (chosen : Option Str) (loc : Nat → Local), p.Chosen chosen ∧
            ∀ i < p.defined.length, ∃ nd, nodes[i]? = some nd ∧ nd.loc = loc i ∧
              (∃ s, p.Displayed demangle i s ∧ nd.name = demangle s) ∧
              (∀ l, p.LocalNode search w.elf i l ↔ loc i = l) ∧
              ((∃ m, nd.max = some m) ↔ ∃ j k, p.Frame j k) ∧
              ∀ m, nd.max = some m →
                Heaviest (p.MayCallNode search w.elf chosen) loc i m.bytes ∧
                (m.IsExact ↔ ∀ v, Reach (p.MayCallNode search w.elf chosen) i v →
                  (loc v).Known ∧ ¬ p.MayLeaveNode search w.elf v ∧
                  (Recursive (p.MayCallNode search w.elf chosen) v → (loc v).bytes = 0))) := by
  obtain ⟨file, host, config, stderr, inp, h1, h2, h3⟩ := (C77_exit_status hw hcl).mp h
  unfold runFiles at h3
  split at h3
  · simp at h3
  rename_i p hp
  refine ⟨file, host, config, stderr, inp, p, h1, h2, hp, ?_⟩
  intro fits hn
  obtain ⟨addressed, defines, declares, sizes⟩ := C100_loaded typed h2 hp
  rw [start, dot] at h3
  unfold runText at h3
  cases hf : finalGraph demangle ord search p w.elf none with
  | error e => rw [hf] at h3; simp at h3
  | ok r =>
    obtain ⟨g', cycles⟩ := r
    rw [hf] at h3
    simp only [Except.ok.injEq] at h3
    subst h3
    obtain ⟨chosen, hch, hfig⟩ := C128_figures defines declares addressed sizes fits hf
    refine ⟨_, _, _, C22_dot_faithful demangle g' cycles (hn g' cycles hf), chosen, g'.locOf, hch, fun i hi => ?_⟩
    obtain ⟨nd, k1, k2⟩ := C98_displayed sizes fits hf hi
    obtain ⟨f1, f2, f3⟩ := hfig i hi
    have hmax : g'.maxOf? i = nd.max := by
      unfold Graph.maxOf?
      rw [k1]
    have hloc : g'.locOf i = nd.loc := by
      unfold Graph.locOf
      rw [k1]
    refine ⟨⟨demangle nd.name, nd.max, nd.loc, nd.dashed⟩, ?_, hloc.symm, ⟨_, (k2 _).mpr rfl, rfl⟩, f1, ?_, ?_⟩
    · rw [List.getElem?_map, k1]
      rfl
    · rw [← hmax]
      exact f2
    · intro m hm
      exact f3 m (hmax.trans hm)

end

/-- `main` calls `left` in the LLVM-IR and in the machine code. The functions `left` and `right` also have the name
`swap`, which comes first; `left` is written in assembly and calls through a register. -/
def exThumbHomonyms : Program :=
  { target := .thumbv7m
    defined := [(256, ⟨[c!"main"], 8⟩), (264, ⟨[c!"swap", c!"left"], 4⟩), (268, ⟨[c!"swap", c!"right"], 2⟩)]
    undefined := []
    stackSizes := [(c!"main", 8), (c!"left", 0), (c!"right", 0)]
    defines := [⟨c!"main", exSig, [.directCall c!"left"]⟩]
    declares := [] }

/-- The machine code of `left` counts for `right`, the call of `left` does not. -/
theorem exThumbHomonyms_run : (finalGraph id sameOrder linearSearch exThumbHomonyms exThumbTwinElf none).toOption.map
    (fun x => (x.1.nodes.map (fun nd => (nd.loc, nd.max)), x.1.edges)) =
      some ([(.exact 8, some (.exact 8)), (.exact 0, some (.exact 0)), (.exact 0, some (.lowerBound 0)),
        (.unknown, some (.lowerBound 0))], [(0, 1), (2, 3)]) := by
  decide +kernel

/-- The hypotheses are met. -/
example : exThumbHomonyms.DefinesOnce ∧ exThumbHomonyms.DeclaresOnce ∧ exThumbHomonyms.Addressed ∧
    exThumbHomonyms.SizesU64 ∧ exThumbTwinElf.Fits32 := by
  refine ⟨by unfold Program.DefinesOnce; decide, by unfold Program.DeclaresOnce; decide,
    by unfold Program.Addressed; decide, fun n k hn => ?_, ?_⟩
  · simp only [Program.Reported, exThumbHomonyms, mget] at hn
    split_ifs at hn <;> simp only [Option.some.injEq] at hn <;> omega
  · rintro a b h
    simp only [exThumbTwinElf, Option.some.injEq, Prod.mk.injEq] at h
    rw [← h.2]
    decide

/-- **C128** A maximum can be shown as exact although the function calls one whose machine code contains an indirect
call of which nothing is known: here that code counts for another function, which has the same first symbol name. -/
theorem C128_unknown_lost : exThumbHomonyms.CodeCalls linearSearch exThumbTwinElf 0 1 ∧
    exThumbHomonyms.CodeLeaves linearSearch exThumbTwinElf 1 ∧
    ∃ g cycles, finalGraph id sameOrder linearSearch exThumbHomonyms exThumbTwinElf none = .ok (g, cycles) ∧
      g.maxOf? 0 = some (.exact 8) ∧ g.maxOf? 1 = some (.exact 0) := by
  refine ⟨⟨rfl, 256, 8, ⟨[8], [], false, true, some 8⟩, 264, ?_, .inl ⟨8, by simp, by decide⟩, _, rfl⟩,
    ⟨rfl, ?_, 264, 4, ⟨[], [], true, false, some 0⟩, ?_, rfl⟩, ?_⟩
  · exact decoded_iff.mpr ⟨_, _, _, _, rfl, rfl, rfl, by decide +kernel, by decide, by decide, by decide +kernel⟩
  · intro d hd
    simp only [exThumbHomonyms, List.mem_singleton] at hd
    subst hd
    rintro ⟨a, s, h1, h2, _⟩
    simp only [exThumbHomonyms, List.getElem?_cons_succ, List.getElem?_cons_zero, Option.some.injEq,
      Prod.mk.injEq] at h1
    rw [← h1.2] at h2
    revert h2
    decide
  · exact decoded_iff.mpr ⟨_, _, _, _, rfl, rfl, rfl, by decide +kernel, by decide, by decide, by decide +kernel⟩
  · have h := exThumbHomonyms_run
    cases hf : finalGraph id sameOrder linearSearch exThumbHomonyms exThumbTwinElf none with
    | error e =>
      rw [hf] at h
      cases h
    | ok r =>
      rw [hf] at h
      obtain ⟨g, cycles⟩ := r
      simp only [Except.toOption, Option.map_some, Option.some.injEq, Prod.mk.injEq] at h
      have at_ : ∀ i m, (List.map Prod.snd [(Local.exact 8, some (Max.exact 8)), (.exact 0, some (.exact 0)),
          (.exact 0, some (.lowerBound 0)), (.unknown, some (.lowerBound 0))])[i]? = some (some m) →
          g.maxOf? i = some m := by
        intro i m hm
        rw [← h.1, List.map_map, List.getElem?_map] at hm
        obtain ⟨nd, h1, h2⟩ := Option.map_eq_some_iff.mp hm
        unfold Graph.maxOf?
        rw [h1]
        exact h2
      exact ⟨g, cycles, rfl, at_ 0 _ rfl, at_ 1 _ rfl⟩

end CallStack
