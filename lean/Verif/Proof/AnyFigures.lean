import Verif.Spec.AnyFigures
import Verif.Proof.AnyIndirect

/-! Lemmas for C127: the figures if no machine code is analysed, whatever the names of the functions. -/

namespace CallStack

section

variable {demangle : Str → Str} {ord : HashOrder} {search : TagSearch} {p : Program} {elf : Elf}
  {cs : List Str} {st0 stIr st : Build} {g : Graph}

theorem SharedFacts.quiet (f : SharedFacts demangle ord search p elf cs st0 stIr st g)
    (hq : p.target.isThumb = false ∨ elf.text = none) : stIr = st := by
  have h := f.pass
  unfold machinePass at h
  rcases hq with hq | hq
  · simp only [hq, Bool.false_eq_true, if_false] at h
    exact Except.ok.inj h
  · simp only [hq] at h
    split at h <;> exact Except.ok.inj h

theorem SharedFacts.edge_src (f : SharedFacts demangle ord search p elf cs st0 stIr st g) {x : Nat × Nat}
    (hx : x ∈ stIr.g.edges) : x.1 < p.defined.length := by
  obtain ⟨n, hn⟩ := f.ir.src x hx
  exact ((f.lastShown_iff n x.1).mp hn).1.lt

theorem Program.TakenIn.lt {a : Nat} {s : Stmt} (h : p.TakenIn a s) : a < p.defined.length := by
  obtain ⟨d, c, _, _, hi, _⟩ := h
  exact hi.1.lt

theorem Program.TakenAt.lt {before : Stmt → Prop} {a : Nat} {s : Stmt} (h : p.TakenAt before a s) :
    a < p.defined.length := by
  obtain ⟨_, _, _, _, _, c, _, _, hi, _⟩ := h
  exact hi.1.lt

theorem SharedFacts.from_fict_any (f : SharedFacts demangle ord search p elf cs st0 stIr st g) (hq : stIr = st)
    {a b : Nat} (ha : p.defined.length ≤ a) (hab : (a, b) ∈ g.edges) :
    ∃ e ∈ stIr.indirects, DashedFor st.hasUntypedSymbols st.fmts (voidOf ord st) e g a := by
  rcases f.edge_cases hab with h1 | ⟨k, e, h1, _, rfl | rfl, h3⟩
  · have := f.edge_src (hq ▸ h1)
    simp only at this
    omega
  · exact ⟨e, f.machine.indirects ▸ h1, h3⟩
  · obtain ⟨sig', h4, _⟩ := (f.callers_taken (f.machine.indirects ▸ h1) a).mp ((h3.pred a).mp hab)
    have := h4.lt
    omega

theorem SharedFacts.liveGraph_any (f : SharedFacts demangle ord search p elf cs st0 stIr st g) (hq : stIr = st) :
    LiveGraph p.defined.length g.Calls g.locOf := by
  refine ⟨fun a ha => (f.node_zero ha).1, ?_⟩
  intro a b c ha hb hab hbc
  obtain ⟨e, h0, h1⟩ := f.from_fict_any hq ha hab
  obtain ⟨e', _, h2⟩ := f.from_fict_any hq hb hbc
  rcases (h1.succ b).mp hab with h3 | ⟨h3, rfl⟩
  · have := f.callees_live h0 h3
    omega
  · have k1 := h1.extern h3
    have k2 := h2.node
    rw [k1] at k2
    have := congrArg Node.dashed (Option.some.inj k2)
    simp [questionNode, dashedNode, mkNode] at this

theorem SharedFacts.fict_any (f : SharedFacts demangle ord search p elf cs st0 stIr st g)
    (defs : p.DefinesOnce) (decls : p.DeclaresOnce) {a : Nat} {sig : FnSig} (h : p.TypeFrom a sig) :
    ∃ e ∈ stIr.indirects, e.1 = sig ∧ ∃ k, p.defined.length ≤ k ∧ g.Calls a k ∧
      DashedFor st.hasUntypedSymbols st.fmts (voidOf ord st) e g k := by
  obtain ⟨h1, sig', h2, h3⟩ := h
  obtain ⟨i0, he⟩ := (f.registered defs decls sig).mpr h1
  have ha := (f.callers_taken he a).mpr ⟨sig', h2, h3⟩
  obtain ⟨i, hi⟩ := (f.contains_taken _).mpr ⟨a, h2⟩
  have hc := (f.called_any he).mpr ⟨i, sig', hi, h3⟩
  obtain ⟨k, h4, h5⟩ := f.out.called _ ((ord.isPerm _ _ _).mem_iff.mpr (f.machine.indirects ▸ he)) hc
  have := f.live_length
  exact ⟨_, he, rfl, k, by omega, (h5.pred a).mpr ha, h5⟩

theorem SharedFacts.not_dashed (f : SharedFacts demangle ord search p elf cs st0 stIr st g) {k : Nat}
    (hk : k < p.defined.length) {e : FnSig × Indirect}
    (h : DashedFor st.hasUntypedSymbols st.fmts (voidOf ord st) e g k) : False := by
  obtain ⟨nd, hnd, _, hdash, _⟩ := f.live_node (List.getElem?_eq_getElem (f.sym.len ▸ hk : k < cs.length))
  rw [h.node] at hnd
  cases hnd
  cases hdash

/-- Which functions may call which. -/
theorem SharedFacts.mayCall_any (f : SharedFacts demangle ord search p elf cs st0 stIr st g) (hq : stIr = st)
    (defs : p.DefinesOnce) (decls : p.DeclaresOnce) :
    LiveHop g.Calls p.defined.length = p.MayCallAny (voidOf ord st) := by
  funext a b
  apply propext
  obtain ⟨aim, hall⟩ := f.any_edges
  constructor
  · rintro ⟨ha, hb, h1 | ⟨d, hd, h1, h2⟩⟩
    · rcases f.edge_cases h1 with h2 | ⟨k, e, _, _, h2, h3⟩
      · rw [← hq] at h2
        obtain ⟨n, hn⟩ := aim _ h2
        obtain ⟨before, s, h3, h4⟩ := (hall a n).mp ⟨b, hn, h2⟩
        refine .inl ⟨n, before, s, (f.lastShown_iff n b).mp ?_, h3, h4⟩
        rcases f.ir.fresh n b hn with h5 | h5
        · exact h5
        · rw [f.sym.nodes, List.length_map, f.sym.len] at h5
          omega
      · rcases h2 with rfl | rfl
        · exact (f.not_dashed ha h3).elim
        · exact (f.not_dashed hb h3).elim
    · obtain ⟨e, he, h3⟩ := f.from_fict_any hq hd h2
      refine .inr ⟨e.1, ⟨(f.registered defs decls e.1).mp ⟨_, he⟩, (f.callers_taken he a).mp ((h3.pred a).mp h1)⟩, ?_⟩
      rcases (h3.succ b).mp h2 with h7 | ⟨_, h7⟩
      · exact (f.candidate_iff defs decls he b).mp h7
      · omega
  · rintro (⟨n, before, s, h1, h2, h3⟩ | ⟨sig, h1, h2⟩)
    · obtain ⟨k, h4, h5⟩ := (hall a n).mpr ⟨before, s, h2, h3⟩
      rw [f.ir.indices _ _ ((f.lastShown_iff n b).mpr h1)] at h4
      cases h4
      exact ⟨h2.lt, h1.1.lt, .inl (f.edge_ir h5)⟩
    · have hlt : a < p.defined.length := by
        obtain ⟨_, sig', h3, _⟩ := h1
        exact h3.lt
      obtain ⟨e, he, rfl, k, h3, h4, h5⟩ := f.fict_any defs decls h1
      have h6 := (f.candidate_iff defs decls he b).mpr h2
      exact ⟨hlt, f.callees_live he h6, .inr ⟨k, h3, h4, (h5.succ b).mpr (.inl h6)⟩⟩

/-- Which functions may leave the executable. -/
theorem SharedFacts.mayLeave_any (f : SharedFacts demangle ord search p elf cs st0 stIr st g) (hq : stIr = st)
    (defs : p.DefinesOnce) (decls : p.DeclaresOnce) (a : Nat) :
    a < p.defined.length ∧ UnknownHop g.Calls g.locOf p.defined.length a ↔ p.MayLeaveAny a := by
  obtain ⟨aim, hall⟩ := f.any_edges
  constructor
  · rintro ⟨ha, d, hd, h1, h2⟩
    rcases f.edge_cases h1 with h3 | ⟨k, e, he, _, h3, h4⟩
    · rw [← hq] at h3
      obtain ⟨n, hn⟩ := aim _ h3
      obtain ⟨before, s, h4, h5⟩ := (hall a n).mp ⟨d, hn, h3⟩
      refine .inl ⟨n, before, s, fun j hj => ?_, h4, h5⟩
      obtain ⟨k, hk⟩ := Option.ne_none_iff_exists'.mp ((f.key0_iff n).mpr ⟨j, hj⟩)
      rw [f.ir.indices _ _ hk] at hn
      cases hn
      have := ((f.lastShown_iff n d).mp hk).1.lt
      omega
    · rcases h3 with rfl | rfl
      · exact (f.not_dashed ha h4).elim
      · have he' : e ∈ stIr.indirects := f.machine.indirects ▸ he
        refine .inr ⟨⟨e.1, (f.registered defs decls e.1).mp ⟨_, he'⟩, (f.callers_taken he' a).mp ((h4.pred a).mp h1)⟩, ?_⟩
        rw [← f.untyped decls]
        rcases h2 with h2 | ⟨d', hd', h8, _⟩
        · refine absurd ?_ h2
          unfold Graph.locOf
          rw [h4.node]
          trivial
        · rcases (h4.succ d').mp h8 with h9 | ⟨h9, _⟩
          · have := f.callees_live he' h9
            omega
          · exact h9
  · rintro (⟨n, before, s, h1, h2, h3⟩ | ⟨⟨sig, h2⟩, h3⟩)
    · obtain ⟨k, h4, h5⟩ := (hall a n).mpr ⟨before, s, h2, h3⟩
      have hk : p.defined.length ≤ k := by
        rcases f.ir.fresh n k h4 with h6 | h6
        · exact absurd ((f.lastShown_iff n k).mp h6).1 (h1 k)
        · rw [f.sym.nodes, List.length_map, f.sym.len] at h6
          exact h6
      refine ⟨h2.lt, k, hk, f.edge_ir h5, .inl ?_⟩
      rw [(f.node_zero hk).2 (hq ▸ f.ir.lt _ _ h4)]
      exact fun h => h
    · have hlt : a < p.defined.length := by
        obtain ⟨_, sig', h4, _⟩ := h2
        exact h4.lt
      obtain ⟨e, he, rfl, k, h4, h5, h6⟩ := f.fict_any defs decls h2
      have hu := (f.untyped decls).mpr h3
      refine ⟨hlt, k, h4, h5, .inr ⟨k + 1, by omega, (h6.succ _).mpr (.inr ⟨hu, rfl⟩), ?_⟩⟩
      unfold Graph.locOf
      rw [h6.extern hu]
      exact fun h => h

/-- The local usage is the figure of the compiler. -/
theorem SharedFacts.local_any (f : SharedFacts demangle ord search p elf cs st0 stIr st g) (hq : stIr = st)
    {m : Nat} (hm : m < p.defined.length) {llvm : Option Nat} (h : p.FrameOpt m llvm) :
    g.locOf m = figureLocal llvm := by
  have hlt : m < cs.length := by rw [f.sym.len]; exact hm
  have hc := List.getElem?_eq_getElem hlt
  have he := List.getElem?_eq_getElem hm
  have hcan := f.sym.canon m _ _ he hc
  have hfr := frame_iff he hcan
  have hn : g.nodes[m]? = some (mkNode cs[m] (mget cs[m] p.stackSizes) false) := by
    obtain ⟨ns, hns⟩ := f.out.nodes
    obtain ⟨ext, hext⟩ := f.ir.nodes
    have h0 : m < (List.map (fun c => mkNode c (mget c p.stackSizes) false) cs).length := by simpa using hlt
    rw [hns, ← hq, hext, f.sym.nodes, List.append_assoc, List.getElem?_append_left h0, List.getElem?_map, hc]
    rfl
  have hloc : g.locOf m = figureLocal (mget cs[m] p.stackSizes) := by
    unfold Graph.locOf
    rw [hn]
    unfold mkNode figureLocal
    cases mget cs[m] p.stackSizes <;> rfl
  rw [hloc]
  congr 1
  cases llvm with
  | some k => exact (hfr k).mp h
  | none =>
    cases hv : mget cs[m] p.stackSizes with
    | none => rfl
    | some k => exact absurd ((hfr k).mpr hv) (h k)

end

end CallStack
