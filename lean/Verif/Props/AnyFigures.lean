import Verif.Proof.AnyFigures
import Verif.Props.SharedFigures
import Verif.Props.SharedChange
import Verif.Props.AnyEdges

/-!
Property C127: the figures, exactly, if no machine code is analysed, whatever the names of the functions
(main.rs:380-1290).
-/

namespace CallStack

section

variable {demangle : Str → Str} {ord : HashOrder} {search : TagSearch} {p : Program} {elf : Elf}

/-- The figures of a run without a start point, for the type that was chosen. -/
theorem SharedFacts.figures_any {g' : Graph} {cycles : List (List Nat)} {cs : List Str} {st0 stIr st : Build}
    {g : Graph}
    (quiet : p.target.isThumb = false ∨ elf.text = none) (defs : p.DefinesOnce)
    (decls : p.DeclaresOnce) (sizes : p.SizesU64) (fits : elf.Fits32)
    (h : finalGraph demangle ord search p elf none = .ok (g', cycles))
    (h1 : callGraph demangle ord search p elf = .ok (st, g)) (h2 : FinalFacts st.hasStackUsageInfo g g' cycles)
    (f : SharedFacts demangle ord search p elf cs st0 stIr st g) :
    p.Chosen (voidOf ord st) ∧ ∀ i < p.defined.length,
      (∀ k, p.Frame i k → g'.locOf i = .exact k) ∧ ((∀ k, ¬ p.Frame i k) → g'.locOf i = .unknown) ∧
      ((∃ m, g'.maxOf? i = some m) ↔ ∃ j k, p.Frame j k) ∧
      ∀ m, g'.maxOf? i = some m →
        Heaviest (p.MayCallAny (voidOf ord st)) g'.locOf i m.bytes ∧
        (m.IsExact ↔ ∀ u, Reach (p.MayCallAny (voidOf ord st)) i u →
          (g'.locOf u).Known ∧ ¬ p.MayLeaveAny u ∧
          (Recursive (p.MayCallAny (voidOf ord st)) u → (g'.locOf u).bytes = 0)) := by
  have hu := f.u64 sizes fits
  obtain ⟨g1, ha, he, hloc, hmx⟩ := h2.analysis
  have hE := f.mayCall_any (f.quiet quiet) defs decls
  have hlive := f.liveGraph_any (f.quiet quiet)
  have hsame := analyzeMax_edges f.wf hu ha
  have hl : g'.locOf = g.locOf := by
    funext i
    rw [hloc, hsame.locOf]
  refine ⟨f.chosen defs decls, fun i hi => ?_⟩
  have hi' : i < cs.length := by rw [f.sym.len]; exact hi
  have hlt : i < g'.nodes.length := by
    obtain ⟨st', ga, gb, a1, a2, a3, _⟩ := finalGraph_steps h
    rw [h1] at a1
    simp only [Except.ok.injEq, Prod.mk.injEq] at a1
    obtain ⟨rfl, rfl⟩ := a1
    rw [← (shortenNodes_iff.mp a3).length_eq, (analyzeMax_edges f.wf hu a2).length]
    obtain ⟨nd, h3, _⟩ := f.live_node (List.getElem?_eq_getElem hi')
    exact (List.getElem?_eq_some_iff.mp h3).1
  have hshown := C82_shown_iff sizes fits h hlt
  refine ⟨fun k hk => by rw [hl]; exact f.local_any (f.quiet quiet) hi (llvm := some k) hk,
    fun hk => by rw [hl]; exact f.local_any (f.quiet quiet) hi (llvm := none) hk, hshown, fun m hm => ?_⟩
  have hinfo : st.hasStackUsageInfo = true := f.info_iff.mpr (hshown.mp ⟨m, hm⟩)
  rw [hinfo] at ha
  rw [hmx] at hm
  obtain ⟨⟨h3, h4⟩, _⟩ := analyzeMax_maxSpec f.wf hu ha hm
  rw [hsame.calls, hsame.locOf] at h3 h4
  rw [hl, ← hE]
  refine ⟨hlive.heaviest hi h3, h4.trans ((hlive.bounded_iff hi).trans ?_)⟩
  refine forall_congr' fun u => imp_congr_right fun hr => ?_
  rw [← f.mayLeave_any (f.quiet quiet) defs decls u]
  have hul := LiveHop.lt hi hr
  constructor
  · rintro ⟨a, b, c⟩
    exact ⟨a, fun hc => c hc.2, b⟩
  · rintro ⟨a, b, c⟩
    exact ⟨a, c, fun hc => b ⟨hul, hc⟩⟩

/-- **C127** If no machine code is analysed then the figures of a run without a start point are determined by the
program whatever names the functions share. The local usage at each node is what the compiler reports for the name
that the function is shown under. A maximum is shown exactly if the compiler reports some frame. It is the weight of
the heaviest chain of recursion groups along the calls of the definitions, each of which counts for the last function
that it is taken for and goes to the last function that the called one is shown as. It is exact exactly if everything
that can be reached that way is known, stays in the executable, and does not use stack in recursion. -/
theorem C127_figures {g' : Graph} {cycles : List (List Nat)}
    (quiet : p.target.isThumb = false ∨ elf.text = none) (defs : p.DefinesOnce)
    (decls : p.DeclaresOnce) (sizes : p.SizesU64) (fits : elf.Fits32)
    (h : finalGraph demangle ord search p elf none = .ok (g', cycles)) :
    ∃ chosen, p.Chosen chosen ∧ ∀ i < p.defined.length,
      (∀ k, p.Frame i k → g'.locOf i = .exact k) ∧ ((∀ k, ¬ p.Frame i k) → g'.locOf i = .unknown) ∧
      ((∃ m, g'.maxOf? i = some m) ↔ ∃ j k, p.Frame j k) ∧
      ∀ m, g'.maxOf? i = some m →
        Heaviest (p.MayCallAny chosen) g'.locOf i m.bytes ∧
        (m.IsExact ↔ ∀ u, Reach (p.MayCallAny chosen) i u →
          (g'.locOf u).Known ∧ ¬ p.MayLeaveAny u ∧
          (Recursive (p.MayCallAny chosen) u → (g'.locOf u).bytes = 0)) := by
  obtain ⟨st, g, h1, h2⟩ := finalGraph_facts h
  obtain ⟨cs, st0, stIr, f⟩ := callGraph_shared h1
  exact ⟨_, SharedFacts.figures_any quiet defs decls sizes fits h h1 h2 f⟩

/-- **C127** Recursion: nodes whose functions may call each other in turn have the same maximum, and the clusters that
are shown are exactly the groups of such nodes. -/
theorem C127_recursion {g' : Graph} {cycles : List (List Nat)}
    (quiet : p.target.isThumb = false ∨ elf.text = none) (defs : p.DefinesOnce)
    (decls : p.DeclaresOnce) (sizes : p.SizesU64) (fits : elf.Fits32)
    (h : finalGraph demangle ord search p elf none = .ok (g', cycles)) :
    ∃ chosen, p.Chosen chosen ∧ ∀ i < p.defined.length, ∀ j < p.defined.length,
      (SameGroup (p.MayCallAny chosen) i j → g'.maxOf? i = g'.maxOf? j) ∧
      ((∃ c ∈ cycles, i ∈ c ∧ j ∈ c) ↔ (∃ j k, p.Frame j k) ∧ Recursive (p.MayCallAny chosen) i ∧
        SameGroup (p.MayCallAny chosen) i j) := by
  obtain ⟨st, g, h1, h2⟩ := finalGraph_facts h
  obtain ⟨cs, st0, stIr, f⟩ := callGraph_shared h1
  obtain ⟨hch, hfig⟩ := SharedFacts.figures_any quiet defs decls sizes fits h h1 h2 f
  have hu := f.u64 sizes fits
  obtain ⟨g1, ha, -, -, -⟩ := h2.analysis
  have hsame := analyzeMax_edges f.wf hu ha
  have hE := f.mayCall_any (f.quiet quiet) defs decls
  have hlive := f.liveGraph_any (f.quiet quiet)
  refine ⟨_, hch, fun i hi j hj => ⟨fun hg => ?_, ?_⟩⟩
  · obtain ⟨_, _, hs, hm⟩ := hfig i hi
    obtain ⟨_, _, hs', hm'⟩ := hfig j hj
    cases hmi : g'.maxOf? i with
    | none =>
      cases hmj : g'.maxOf? j with
      | none => rfl
      | some m => exact absurd (hs.mpr (hs'.mp ⟨m, hmj⟩)) (by simp [hmi])
    | some m =>
      obtain ⟨m', hmj⟩ := hs'.mpr (hs.mp ⟨m, hmi⟩)
      rw [hmj]
      obtain ⟨⟨⟨us, hc, hw⟩, hmax⟩, hex⟩ := hm m hmi
      obtain ⟨⟨⟨us', hc', hw'⟩, hmax'⟩, hex'⟩ := hm' m' hmj
      have hb : m.bytes = m'.bytes := by
        apply Nat.le_antisymm
        · rw [← hw]
          exact hmax' us ⟨fun u hu => hg.2.trans (hc.1 u hu), hc.2⟩
        · rw [← hw']
          exact hmax us' ⟨fun u hu => hg.1.trans (hc'.1 u hu), hc'.2⟩
      have hx : m.IsExact ↔ m'.IsExact := by
        rw [hex, hex']
        exact ⟨fun H u hr => H u (hg.1.trans hr), fun H u hr => H u (hg.2.trans hr)⟩
      cases m <;> cases m' <;> simp_all [Max.bytes, Max.IsExact]
  · rw [← f.info_iff]
    cases hinfo : st.hasStackUsageInfo with
    | false =>
      rw [hinfo] at ha
      simp only [analyzeMax, Bool.not_false, if_true, Except.ok.injEq, Prod.mk.injEq] at ha
      simp [← ha.2]
    | true =>
      rw [hinfo] at ha
      obtain ⟨c1, c2, -⟩ := C09_clusters f.wf hu ha
      rw [hsame.calls] at c1 c2
      have hri : Recursive (LiveHop g.Calls p.defined.length) i ↔ Recursive g.Calls i := (hlive.recursive_iff hi).symm
      rw [← hE, hri]
      have hgrp : SameGroup (LiveHop g.Calls p.defined.length) i j ↔ SameGroup g.Calls i j := by
        unfold SameGroup
        rw [hlive.reach_iff hi hj, hlive.reach_iff hj hi]
      rw [hgrp]
      constructor
      · rintro ⟨c, hc, hci, hcj⟩
        have hrec := (c1 i).mp ⟨c, hc, hci⟩
        exact ⟨rfl, hrec, (c2 i j hrec).mp ⟨c, hc, hci, hcj⟩⟩
      · rintro ⟨_, hrec, hg⟩
        exact (c2 i j hrec).mpr hg

/-- **C127** What is shown for a start point: if it selects a name then it selects the last live function `i` of that
name, and among the live functions exactly those nodes are shown that `i` may reach by calls, each once, with the
figures of the run without a start point. -/
theorem C127_start_figures {g : Graph} {cycles : List (List Nat)}
    (quiet : p.target.isThumb = false ∨ elf.text = none) (defs : p.DefinesOnce)
    (decls : p.DeclaresOnce) (sizes : p.SizesU64) (fits : elf.Fits32)
    (h : finalGraph demangle ord search p elf none = .ok (g, cycles)) {s n : Str} {i0 : Nat}
    (hs : p.Starts demangle s n) (hi0 : p.Principal i0 n) :
    ∃ g' cycles' chosen loc i, ∃ at_ : Nat → Nat,
      finalGraph demangle ord search p elf (some s) = .ok (g', cycles') ∧
      p.Principal i n ∧ (∀ j, p.Principal j n → j ≤ i) ∧
      p.Chosen chosen ∧
      (∀ j < p.defined.length, (∀ k, p.Frame j k → loc j = .exact k) ∧ ((∀ k, ¬ p.Frame j k) → loc j = .unknown)) ∧
      (∀ j j', Reach (p.MayCallAny chosen) i j → Reach (p.MayCallAny chosen) i j' →
        at_ j = at_ j' → j = j') ∧
      (∀ k < g'.nodes.length, (∃ j, Reach (p.MayCallAny chosen) i j ∧ at_ j = k) ∨
        ((g'.locOf k).bytes = 0 ∧ ∃ j, p.defined.length ≤ j ∧ g'.nodes[k]? = g.nodes[j]?)) ∧
      ∀ j, Reach (p.MayCallAny chosen) i j → j < p.defined.length ∧
        at_ j < g'.nodes.length ∧
        (g'.nodes[at_ j]?).map Node.name = (g.nodes[j]?).map Node.name ∧
        g'.locOf (at_ j) = loc j ∧
        ((∃ m, g'.maxOf? (at_ j) = some m) ↔ ∃ f k, p.Frame f k) ∧
        ∀ m, g'.maxOf? (at_ j) = some m →
          Heaviest (p.MayCallAny chosen) loc j m.bytes ∧
          (m.IsExact ↔ ∀ u, Reach (p.MayCallAny chosen) j u →
            (loc u).Known ∧ ¬ p.MayLeaveAny u ∧
            (Recursive (p.MayCallAny chosen) u → (loc u).bytes = 0)) := by
  obtain ⟨st, g0, h1, h2⟩ := finalGraph_facts h
  obtain ⟨cs, st0, stIr, f⟩ := callGraph_shared h1
  obtain ⟨hcalls, hlocs⟩ := h2.calls f.wf (f.u64 sizes fits)
  have hE := f.mayCall_any (f.quiet quiet) defs decls
  have hlive := f.liveGraph_any (f.quiet quiet)
  obtain ⟨g', cycles', ren, i, h3, hi, hlast, hr⟩ := start_last sizes fits h hs hi0
  obtain ⟨hch, hfig⟩ := SharedFacts.figures_any quiet defs decls sizes fits h h1 h2 f
  have hi' : i < p.defined.length := hi.lt
  have hlt : ∀ {j}, Reach (p.MayCallAny (voidOf ord st)) i j → j < p.defined.length := by
    intro j hj
    rw [← hE] at hj
    exact LiveHop.lt hi' hj
  have hreach : ∀ {j}, Reach (p.MayCallAny (voidOf ord st)) i j → Reach g.Calls i j := by
    intro j hj
    rw [hcalls]
    rw [← hE] at hj
    exact LiveHop.reach hj
  have hloc : ∀ {j}, Reach g.Calls i j → g'.locOf (ren j) = g.locOf j := by
    intro j hj
    unfold Graph.locOf
    rw [hr.nodes j hj]
  refine ⟨g', cycles', voidOf ord st, g.locOf, i, ren, h3, hi, hlast, hch,
    fun j hj => ⟨(hfig j hj).1, (hfig j hj).2.1⟩,
    fun j j' hj hj' he => hr.bij.inj j j' (hreach hj) (hreach hj') he, fun k hk => ?_, fun j hj => ?_⟩
  · obtain ⟨j, hj, rfl⟩ := hr.bij.surj k hk
    by_cases hjl : j < p.defined.length
    · left
      refine ⟨j, ?_, rfl⟩
      rw [← hE]
      rw [hcalls] at hj
      exact (hlive.reach_iff hi' hjl).mp hj
    · right
      refine ⟨?_, j, by omega, hr.nodes j hj⟩
      rw [hloc hj, hlocs]
      exact hlive.zero j (by omega)
  · have hmax : g'.maxOf? (ren j) = g.maxOf? j := by
      unfold Graph.maxOf?
      rw [hr.nodes j (hreach hj)]
    refine ⟨hlt hj, hr.bij.lt j (hreach hj), by rw [hr.nodes j (hreach hj)], hloc (hreach hj), ?_⟩
    rw [hmax]
    exact (hfig j (hlt hj)).2.2

theorem Program.MayCallAny.lt {chosen : Option Str} {a b : Nat} (h : p.MayCallAny chosen a b) :
    b < p.defined.length := by
  rcases h with ⟨_, _, _, h1, _⟩ | ⟨sig, _, ⟨_, h2 | ⟨_, _, _, _, _, _, h2, _⟩⟩ | ⟨_, _, h2, _⟩⟩
  · exact h1.1.lt
  · exact h2.lt
  · exact (List.getElem?_eq_some_iff.mp h2).1
  · exact h2.lt

theorem Program.MayCallAny.reach_lt {chosen : Option Str} {i u : Nat} (hi : i < p.defined.length)
    (h : Reach (p.MayCallAny chosen) i u) : u < p.defined.length := by
  induction h with
  | refl => exact hi
  | step h _ ih => exact ih h.lt

/-- **C127** What the mark before a maximum means, as C107: see `MarkMeans`. -/
theorem C127_mark {g' : Graph} {cycles : List (List Nat)}
    (quiet : p.target.isThumb = false ∨ elf.text = none) (defs : p.DefinesOnce)
    (decls : p.DeclaresOnce) (sizes : p.SizesU64) (fits : elf.Fits32)
    (h : finalGraph demangle ord search p elf none = .ok (g', cycles)) :
    ∃ chosen, p.Chosen chosen ∧ ∀ i < p.defined.length, ∀ m, g'.maxOf? i = some m →
      MarkMeans (p.MayCallAny chosen) p.MayLeaveAny g'.locOf i m := by
  obtain ⟨chosen, hc, hf⟩ := C127_figures quiet defs decls sizes fits h
  refine ⟨chosen, hc, fun i hi m hm => ?_⟩
  obtain ⟨hh, he⟩ := (hf i hi).2.2.2 m hm
  exact markMeans_of hh he

/-- **C127** If functions that share a name share all names then these are the calls of C119. -/
theorem C127_alike {st : Build} {g : Graph} (quiet : p.target.isThumb = false ∨ elf.text = none)
    (alike : p.NamesAlike) (defs : p.DefinesOnce) (decls : p.DeclaresOnce) (addressed : p.Addressed)
    (safe : p.OrderSafe) (h : callGraph demangle ord search p elf = .ok (st, g)) :
    ∃ chosen, p.Chosen chosen ∧ p.MayCallAny chosen = p.MayCallShared search elf chosen ∧
      ∀ a, p.MayLeaveAny a ↔ p.MayLeaveShared search elf a := by
  obtain ⟨cs, st0, stIr, f⟩ := callGraph_shared h
  refine ⟨_, f.chosen defs decls, ?_, fun a => ?_⟩
  · rw [← f.mayCall_any (f.quiet quiet) defs decls, f.mayCall_iff alike defs decls addressed safe]
  · rw [← f.mayLeave_any (f.quiet quiet) defs decls a, f.mayLeave_iff alike defs decls safe a]

/-- **C127** Two runs on the same program with the definitions in the same order, which differ in the order of the hash
map of signatures and in the demangler, show the same figures. -/
theorem C127_orders {demangle' : Str → Str} {ord' : HashOrder} {g g' : Graph} {cycles cycles' : List (List Nat)}
    (quiet : p.target.isThumb = false ∨ elf.text = none) (defs : p.DefinesOnce) (decls : p.DeclaresOnce)
    (one : p.OneVoid) (sizes : p.SizesU64) (fits : elf.Fits32)
    (h : finalGraph demangle ord search p elf none = .ok (g, cycles))
    (h' : finalGraph demangle' ord' search p elf none = .ok (g', cycles')) {i : Nat} (hi : i < p.defined.length) :
    g'.locOf i = g.locOf i ∧ g'.maxOf? i = g.maxOf? i := by
  obtain ⟨c, hc, hf⟩ := C127_figures quiet defs decls sizes fits h
  obtain ⟨c', hc', hf'⟩ := C127_figures quiet defs decls sizes fits h'
  obtain rfl := chosen_unique one hc hc'
  have hl : ∀ u < p.defined.length, g'.locOf u = g.locOf u := by
    intro u hu
    by_cases hk : ∃ k, p.Frame u k
    · obtain ⟨k, hk⟩ := hk
      rw [(hf u hu).1 k hk, (hf' u hu).1 k hk]
    · rw [(hf u hu).2.1 (not_exists.mp hk), (hf' u hu).2.1 (not_exists.mp hk)]
  have hlt : ∀ {u}, Reach (p.MayCallAny c) i u → u < p.defined.length :=
    fun hr => Program.MayCallAny.reach_lt hi hr
  refine ⟨hl i hi, ?_⟩
  refine maxima_congr ?_ (hf i hi).2.2.2 (hf' i hi).2.2.2 (fun _ _ _ => Iff.rfl) (fun u hu => hl u (hlt hu))
    (fun _ _ => Iff.rfl)
  rw [(hf i hi).2.2.1, (hf' i hi).2.2.1]

/-- **C127** From the command line to the figures, as C101: what can be read back from the output in the Graphviz
format of a run without a start point, with no assumption on the names nor on the order of the definitions. -/
theorem C127_command_line {u : CharClass} {w : World} {cl : Cli} {out : Str} (typed : w.Typed)
    (hw : w.wrapperVar = false) (hcl : w.cli = .ok cl) (start : cl.start = none) (dot : cl.format = .dot)
    (h : tool u demangle ord search w = .exit 0 out) :
    ∃ file host config stderr inp p, w.Built cl file host config (some 0) stderr ∧
      w.Inputs cl file host config stderr inp ∧ loadProgram u ord inp = .ok p ∧
      ((p.target.isThumb = false ∨ w.elf.text = none) → w.elf.Fits32 →
        (∀ g' cycles, finalGraph demangle ord search p w.elf none = .ok (g', cycles) →
          ∀ nd ∈ g'.nodes, '\\' ∉ demangle nd.name) →
        ∃ nodes edges clusters, (readDot out).bind DotFile.meaning = some (nodes, edges, clusters) ∧
          ∃ (chosen : Option Str) (loc : Nat → Local), p.Chosen chosen ∧
            ∀ i < p.defined.length, ∃ nd, nodes[i]? = some nd ∧ nd.loc = loc i ∧
              (∃ s, p.Displayed demangle i s ∧ nd.name = demangle s) ∧
              (∀ k, p.Frame i k → loc i = .exact k) ∧ ((∀ k, ¬ p.Frame i k) → loc i = .unknown) ∧
              ((∃ m, nd.max = some m) ↔ ∃ j k, p.Frame j k) ∧
              ∀ m, nd.max = some m →
                Heaviest (p.MayCallAny chosen) loc i m.bytes ∧
                (m.IsExact ↔ ∀ v, Reach (p.MayCallAny chosen) i v →
                  (loc v).Known ∧ ¬ p.MayLeaveAny v ∧
                  (Recursive (p.MayCallAny chosen) v → (loc v).bytes = 0))) := by
  obtain ⟨file, host, config, stderr, inp, h1, h2, h3⟩ := (C77_exit_status hw hcl).mp h
  unfold runFiles at h3
  split at h3
  · simp at h3
  rename_i p hp
  refine ⟨file, host, config, stderr, inp, p, h1, h2, hp, ?_⟩
  intro quiet fits hn
  obtain ⟨_, defines, declares, sizes⟩ := C100_loaded typed h2 hp
  rw [start, dot] at h3
  unfold runText at h3
  cases hf : finalGraph demangle ord search p w.elf none with
  | error e => rw [hf] at h3; simp at h3
  | ok r =>
    obtain ⟨g', cycles⟩ := r
    rw [hf] at h3
    simp only [Except.ok.injEq] at h3
    subst h3
    obtain ⟨chosen, hch, hfig⟩ := C127_figures quiet defines declares sizes fits hf
    refine ⟨_, _, _, C22_dot_faithful demangle g' cycles (hn g' cycles hf), chosen, g'.locOf, hch, fun i hi => ?_⟩
    obtain ⟨nd, k1, k2⟩ := C98_displayed sizes fits hf hi
    obtain ⟨f1, f1', f2, f3⟩ := hfig i hi
    have hmax : g'.maxOf? i = nd.max := by
      unfold Graph.maxOf?
      rw [k1]
    have hloc : g'.locOf i = nd.loc := by
      unfold Graph.locOf
      rw [k1]
    refine ⟨⟨demangle nd.name, nd.max, nd.loc, nd.dashed⟩, ?_, hloc.symm, ⟨_, (k2 _).mpr rfl, rfl⟩, f1, f1', ?_, ?_⟩
    · rw [List.getElem?_map, k1]
      rfl
    · rw [← hmax]
      exact f2
    · intro m hm
      exact f3 m (hmax.trans hm)

end

/-- As `exHomonyms`; `leaf` uses 100 bytes. -/
def exHomonymsDeep : Program :=
  { exHomonyms with stackSizes := [(c!"main", 8), (c!"left", 4), (c!"right", 16), (c!"leaf", 100)] }

/-- The figures follow the calls through the second function with the name `swap`. -/
example (search : TagSearch) (elf : Elf) :
    ∃ g cycles, finalGraph id sameOrder search exHomonymsDeep elf none = .ok (g, cycles) ∧
      g.nodes.map (·.max) = [some (.exact 124), some (.exact 4), some (.exact 116), some (.exact 100)] :=
  finalGraph_eval (p := exHomonymsDeep) rfl search elf none
    (fun g _ => g.nodes.map (·.max) = [some (.exact 124), some (.exact 4), some (.exact 116), some (.exact 100)])
    (by decide +kernel)

example : (exHomonymsDeep.target.isThumb = false ∨ (⟨[], none⟩ : Elf).text = none) ∧ exHomonymsDeep.DefinesOnce ∧
    exHomonymsDeep.DeclaresOnce ∧ exHomonymsDeep.SizesU64 := by
  refine ⟨.inl rfl, by unfold Program.DefinesOnce; decide, by unfold Program.DeclaresOnce; decide, fun n k hn => ?_⟩
  simp only [Program.Reported, exHomonymsDeep, mget] at hn
  split_ifs at hn <;> simp only [Option.some.injEq] at hn <;> omega

/-- **C127** A maximum that is shown as exact can be lower than what the function needs by a definition under one of its
names: the definition of `swap`, which both functions with this name may have, calls `leaf`, which uses 100 bytes, but
the first of them is shown with exactly 4. -/
theorem C127_too_low (search : TagSearch) (elf : Elf) :
    exHomonymsDeep.Contains 1 (.directCall c!"leaf") ∧ exHomonymsDeep.LiveAt c!"leaf" 3 ∧
    (∀ k, exHomonymsDeep.LiveAt c!"leaf" k → k = 3) ∧ exHomonymsDeep.Frame 3 100 ∧
    ∃ g cycles, finalGraph id sameOrder search exHomonymsDeep elf none = .ok (g, cycles) ∧
      g.maxOf? 1 = some (.exact 4) := by
  obtain ⟨h1, h2, h3, _⟩ := C125_call_lost search elf
  refine ⟨h1, h2, h3, (frame_iff (c := c!"leaf") rfl (by decide +kernel) 100).mpr (by decide +kernel), ?_⟩
  exact finalGraph_eval (p := exHomonymsDeep) rfl search elf none (fun g _ => g.maxOf? 1 = some (.exact 4))
    (by decide +kernel)

end CallStack
