import Verif.Spec.AnyCode
import Verif.Proof.AnyFigures

/-! Lemmas for C128: the figures whatever the names of the functions, with the machine code. -/

namespace CallStack

section

variable {demangle : Str → Str} {ord : HashOrder} {search : TagSearch} {p : Program} {elf : Elf}
  {cs : List Str} {st0 stIr st : Build} {g : Graph}

theorem SharedFacts.shown_ir (f : SharedFacts demangle ord search p elf cs st0 stIr st g) {n : Str} {j k : Nat}
    (hj : p.Principal j n) : mget n stIr.indices = some k ↔ p.LastShown n k := by
  rw [← f.lastShown_iff]
  constructor
  · intro h
    obtain ⟨k', hk⟩ := Option.ne_none_iff_exists'.mp ((f.key0_iff n).mpr ⟨j, hj⟩)
    rw [f.ir.indices _ _ hk] at h
    cases h
    exact hk
  · exact f.ir.indices _ _

theorem SharedFacts.nodeOf_any (f : SharedFacts demangle ord search p elf cs st0 stIr st g) {i : Nat} {e : Nat × Sym}
    (he : p.defined[i]? = some e) (c : Str) (m : Nat) : NodeOf stIr e c m ↔ p.CodeFor i c m := by
  constructor
  · rintro ⟨first, rest, h1, h2, h3⟩
    rw [f.ir.aliases, f.taken_iff] at h2
    obtain ⟨j, _, _, hj⟩ := id h2
    exact ⟨e.1, e.2, first, rest, he, h1, h2, (f.shown_ir hj).mp h3⟩
  · rintro ⟨a, s, first, rest, h1, h2, h3, h4⟩
    rw [he] at h1
    cases h1
    exact ⟨first, rest, h2, by rw [f.ir.aliases, f.taken_iff]; exact h3, (f.shown_ir h4.1).mpr h4⟩

theorem Program.CodeFor.lt {i m : Nat} {c : Str} (h : p.CodeFor i c m) : m < p.defined.length := by
  obtain ⟨_, _, _, _, _, _, _, h⟩ := h
  exact h.1.lt

theorem SharedFacts.codeFor_unique (f : SharedFacts demangle ord search p elf cs st0 stIr st g) {i m m' : Nat}
    {c c' : Str} (h : p.CodeFor i c m) (h' : p.CodeFor i c' m') : c = c' ∧ m = m' := by
  obtain ⟨_, _, _, _, he, _⟩ := id h
  exact NodeOf.unique ((f.nodeOf_any he c m).mpr h) ((f.nodeOf_any he c' m').mpr h')

theorem SharedFacts.resolves_any (f : SharedFacts demangle ord search p elf cs st0 stIr st g) {t k : Nat}
    (h : Resolves stIr t k) : ∃ j n, p.StartsAt j t ∧ p.Principal j n ∧ p.LastShown n k := by
  obtain ⟨name, h1, h2⟩ := h
  rw [f.ir.addr] at h1
  obtain ⟨j, s, h3, h4⟩ := f.sym.addr_some t name h1
  have hj := f.principal.mpr h4
  exact ⟨j, name, ⟨s, h3⟩, hj, (f.shown_ir hj).mp h2⟩

theorem SharedFacts.defined_any (f : SharedFacts demangle ord search p elf cs st0 stIr st g) (c : Str) :
    c ∉ stIr.defined ↔ ∀ d ∈ p.defines, ¬ p.TakenFor d.name c := by
  constructor
  · intro h d hd ht
    exact h ((definePass_defined_all p.defines f.definesOk).2 d hd c ((f.taken_iff _ _).mpr ht))
  · intro h hc
    obtain ⟨d, hd, ht⟩ := f.ir.defined c hc
    exact h d hd ((f.taken_iff _ _).mp ht)

theorem SharedFacts.asm_any (f : SharedFacts demangle ord search p elf cs st0 stIr st g) {c : Str} {m : Nat}
    (hm : p.LastShown c m) : stIr.asmFns.contains c = true ↔ ∃ x, p.TakenIn m (.asm x) := by
  rw [List.contains_iff_mem]
  constructor
  · intro h
    obtain ⟨d, hd, ht, x, hx⟩ := f.ir.asm c h
    exact ⟨x, d, c, hd, (f.taken_iff _ _).mp ht, hm, hx⟩
  · rintro ⟨x, d, c', hd, ht, hm', hx⟩
    have h1 := f.principal.mp hm.1
    rw [f.principal.mp hm'.1] at h1
    cases h1
    exact (definePass_asm p.defines f.definesOk).2 d hd c x ((f.taken_iff _ _).mpr ht) hx

/-- What an edge that is not one of the LLVM-IR stands for before the indirect calls are added. -/
theorem SharedFacts.edge_code (f : SharedFacts demangle ord search p elf cs st0 stIr st g) {a b : Nat}
    (h : (a, b) ∈ st.g.edges) : (a, b) ∈ stIr.g.edges ∨ p.JumpsTo search elf a b ∨
      (p.JumpsOut search elf a ∧ p.defined.length ≤ b) := by
  have hpass := f.pass
  unfold machinePass at hpass
  split at hpass
  · rename_i ht
    split at hpass
    · cases hpass
      exact .inl h
    · rename_i stext text hx
      obtain ⟨_, m⟩ := f.loop stext text ht hx
      rcases m.sound _ h with h2 | ⟨e, he, c, r, h3, h4, h5⟩
      · exact .inl h2
      · right
        obtain ⟨i, hi⟩ := List.getElem?_of_mem he
        have hc := (f.nodeOf_any hi c _).mp h3
        have hd := decoded_of hi hx h4
        rcases h5 with ⟨t, h5, h6⟩ | ⟨h5, h6, h7, h8⟩
        · obtain ⟨j, n, hj, hp, hl⟩ := f.resolves_any h6
          exact .inl ⟨i, j, c, n, hc, ⟨ht, _, _, r, t, hd, mem_calledAddrs.mp h5, hj⟩, hp, hl⟩
        · exact .inr ⟨⟨ht, i, c, _, _, r, hc, (f.defined_any c).mp h5, hd, h6⟩,
            Nat.le_trans f.live_length.1 h8⟩
  · cases hpass
    exact .inl h

theorem Program.JumpsTo.lt {a b : Nat} (h : p.JumpsTo search elf a b) :
    a < p.defined.length ∧ b < p.defined.length := by
  obtain ⟨_, _, _, _, h1, _, _, h2⟩ := h
  exact ⟨h1.lt, h2.1.lt⟩

theorem Program.JumpsOut.lt {a : Nat} (h : p.JumpsOut search elf a) : a < p.defined.length := by
  obtain ⟨_, _, _, _, _, _, h1, _⟩ := h
  exact h1.lt

theorem SharedFacts.jump_edge (f : SharedFacts demangle ord search p elf cs st0 stIr st g) (addressed : p.Addressed)
    {a b : Nat} (h : p.JumpsTo search elf a b) : g.Calls a b := by
  obtain ⟨i, j, c, n, hcf, ⟨ht, address, size, r, t, hdec, hleave, sj, hj⟩, hp, hl⟩ := h
  obtain ⟨ai, si, stext, text, hi, hx, _⟩ := decoded_iff.mp hdec
  obtain ⟨han, rfl, rfl⟩ := analyzed_of hi hx hdec
  obtain ⟨_, mf⟩ := f.loop stext text ht hx
  obtain ⟨c', a', r', hno, han', hcalls, _⟩ := mf.complete _ (List.mem_of_getElem? hi)
  obtain rfl := han.unique han'
  obtain ⟨rfl, rfl⟩ := f.codeFor_unique hcf ((f.nodeOf_any hi c' a').mp hno)
  obtain ⟨b', hres, hedge⟩ := hcalls t (mem_calledAddrs.mpr hleave)
  obtain ⟨j', n', ⟨s', h3⟩, hp', hl'⟩ := f.resolves_any hres
  obtain rfl : j' = j := addressed_inj addressed h3 hj
  have h4 := f.principal.mp hp
  rw [f.principal.mp hp'] at h4
  cases h4
  have h5 := (f.lastShown_iff _ _).mpr hl
  rw [(f.lastShown_iff _ _).mpr hl'] at h5
  cases h5
  exact f.edge_machine hedge

theorem SharedFacts.jump_out (f : SharedFacts demangle ord search p elf cs st0 stIr st g) {a : Nat}
    (h : p.JumpsOut search elf a) : ∃ k, p.defined.length ≤ k ∧ g.Calls a k ∧ ¬ (g.locOf k).Known := by
  obtain ⟨ht, i, c, address, size, r, hcf, hno, hd, hind⟩ := h
  obtain ⟨ai, si, stext, text, hi, hx, _⟩ := decoded_iff.mp hd
  obtain ⟨han, rfl, rfl⟩ := analyzed_of hi hx hd
  obtain ⟨_, mf⟩ := f.loop stext text ht hx
  obtain ⟨c', a', r', hn, han', _, hq⟩ := mf.complete _ (List.mem_of_getElem? hi)
  obtain rfl := han.unique han'
  obtain ⟨rfl, rfl⟩ := f.codeFor_unique hcf ((f.nodeOf_any hi c' a').mp hn)
  obtain ⟨k, h1, h3, h4⟩ := hq ((f.defined_any c).mpr hno) hind
  have hk := Nat.le_trans f.live_length.1 h1
  refine ⟨k, hk, f.edge_machine h4, ?_⟩
  rw [(f.node_zero hk).2 (List.getElem?_eq_some_iff.mp h3).1]
  exact fun h => h

theorem SharedFacts.from_fict_node (f : SharedFacts demangle ord search p elf cs st0 stIr st g)
    {a b : Nat} (ha : p.defined.length ≤ a) (hab : (a, b) ∈ g.edges) :
    ∃ e ∈ stIr.indirects, DashedFor st.hasUntypedSymbols st.fmts (voidOf ord st) e g a := by
  rcases f.edge_cases hab with h1 | ⟨k, e, h1, _, rfl | rfl, h3⟩
  · rcases f.edge_code h1 with h2 | h2 | ⟨h2, _⟩
    · have := f.edge_src h2
      simp only at this
      omega
    · have := h2.lt
      omega
    · have := h2.lt
      omega
  · exact ⟨e, f.machine.indirects ▸ h1, h3⟩
  · obtain ⟨sig', h4, _⟩ := (f.callers_taken (f.machine.indirects ▸ h1) a).mp ((h3.pred a).mp hab)
    have := h4.lt
    omega

theorem SharedFacts.liveGraph_node (f : SharedFacts demangle ord search p elf cs st0 stIr st g) :
    LiveGraph p.defined.length g.Calls g.locOf := by
  refine ⟨fun a ha => (f.node_zero ha).1, ?_⟩
  intro a b c ha hb hab hbc
  obtain ⟨e, h0, h1⟩ := f.from_fict_node ha hab
  obtain ⟨e', _, h2⟩ := f.from_fict_node hb hbc
  rcases (h1.succ b).mp hab with h3 | ⟨h3, rfl⟩
  · have := f.callees_live h0 h3
    omega
  · have k1 := h1.extern h3
    have k2 := h2.node
    rw [k1] at k2
    have := congrArg Node.dashed (Option.some.inj k2)
    simp [questionNode, dashedNode, mkNode] at this

/-- Which functions may call which. -/
theorem SharedFacts.mayCall_node (f : SharedFacts demangle ord search p elf cs st0 stIr st g)
    (defs : p.DefinesOnce) (decls : p.DeclaresOnce) (addressed : p.Addressed) :
    LiveHop g.Calls p.defined.length = p.MayCallNode search elf (voidOf ord st) := by
  funext a b
  apply propext
  obtain ⟨aim, hall⟩ := f.any_edges
  constructor
  · rintro ⟨ha, hb, h1 | ⟨d, hd, h1, h2⟩⟩
    · rcases f.edge_cases h1 with h2 | ⟨k, e, _, _, h2, h3⟩
      · rcases f.edge_code h2 with h2 | h2 | ⟨_, h2⟩
        · obtain ⟨n, hn⟩ := aim _ h2
          obtain ⟨before, s, h3, h4⟩ := (hall a n).mp ⟨b, hn, h2⟩
          refine .inl (.inl ⟨n, before, s, (f.lastShown_iff n b).mp ?_, h3, h4⟩)
          rcases f.ir.fresh n b hn with h5 | h5
          · exact h5
          · rw [f.sym.nodes, List.length_map, f.sym.len] at h5
            omega
        · exact .inr h2
        · omega
      · rcases h2 with rfl | rfl
        · exact (f.not_dashed ha h3).elim
        · exact (f.not_dashed hb h3).elim
    · obtain ⟨e, he, h3⟩ := f.from_fict_node hd h2
      refine .inl (.inr ⟨e.1, ⟨(f.registered defs decls e.1).mp ⟨_, he⟩,
        (f.callers_taken he a).mp ((h3.pred a).mp h1)⟩, ?_⟩)
      rcases (h3.succ b).mp h2 with h7 | ⟨_, h7⟩
      · exact (f.candidate_iff defs decls he b).mp h7
      · omega
  · rintro ((⟨n, before, s, h1, h2, h3⟩ | ⟨sig, h1, h2⟩) | h1)
    · obtain ⟨k, h4, h5⟩ := (hall a n).mpr ⟨before, s, h2, h3⟩
      rw [f.ir.indices _ _ ((f.lastShown_iff n b).mpr h1)] at h4
      cases h4
      exact ⟨h2.lt, h1.1.lt, .inl (f.edge_ir h5)⟩
    · have hlt : a < p.defined.length := by
        obtain ⟨_, sig', h3, _⟩ := h1
        exact h3.lt
      obtain ⟨e, he, rfl, k, h3, h4, h5⟩ := f.fict_any defs decls h1
      have h6 := (f.candidate_iff defs decls he b).mpr h2
      exact ⟨hlt, f.callees_live he h6, .inr ⟨k, h3, h4, (h5.succ b).mpr (.inl h6)⟩⟩
    · exact ⟨h1.lt.1, h1.lt.2, .inl (f.jump_edge addressed h1)⟩

/-- Which functions may leave the executable. -/
theorem SharedFacts.mayLeave_node (f : SharedFacts demangle ord search p elf cs st0 stIr st g)
    (defs : p.DefinesOnce) (decls : p.DeclaresOnce) (a : Nat) :
    a < p.defined.length ∧ UnknownHop g.Calls g.locOf p.defined.length a ↔ p.MayLeaveNode search elf a := by
  obtain ⟨aim, hall⟩ := f.any_edges
  have hlen := f.live_length
  constructor
  · rintro ⟨ha, d, hd, h1, h2⟩
    rcases f.edge_cases h1 with h3 | ⟨k, e, he, _, h3, h4⟩
    · rcases f.edge_code h3 with h3 | h3 | ⟨h3, _⟩
      · obtain ⟨n, hn⟩ := aim _ h3
        obtain ⟨before, s, h4, h5⟩ := (hall a n).mp ⟨d, hn, h3⟩
        refine .inl (.inl ⟨n, before, s, fun j hj => ?_, h4, h5⟩)
        have := ((f.shown_ir hj).mp hn).1.lt
        omega
      · have := h3.lt
        omega
      · exact .inr h3
    · rcases h3 with rfl | rfl
      · exact (f.not_dashed ha h4).elim
      · have he' : e ∈ stIr.indirects := f.machine.indirects ▸ he
        refine .inl (.inr ⟨⟨e.1, (f.registered defs decls e.1).mp ⟨_, he'⟩,
          (f.callers_taken he' a).mp ((h4.pred a).mp h1)⟩, ?_⟩)
        rw [← f.untyped decls]
        rcases h2 with h2 | ⟨d', hd', h8, _⟩
        · refine absurd ?_ h2
          unfold Graph.locOf
          rw [h4.node]
          trivial
        · rcases (h4.succ d').mp h8 with h9 | ⟨h9, _⟩
          · have := f.callees_live he' h9
            omega
          · exact h9
  · rintro ((⟨n, before, s, h1, h2, h3⟩ | ⟨⟨sig, h2⟩, h3⟩) | h1)
    · obtain ⟨k, h4, h5⟩ := (hall a n).mpr ⟨before, s, h2, h3⟩
      have hk : p.defined.length ≤ k := by
        rcases f.ir.fresh n k h4 with h6 | h6
        · exact absurd ((f.lastShown_iff n k).mp h6).1 (h1 k)
        · rw [f.sym.nodes, List.length_map, f.sym.len] at h6
          exact h6
      refine ⟨h2.lt, k, hk, f.edge_ir h5, .inl ?_⟩
      have := f.ir.lt _ _ h4
      rw [(f.node_zero hk).2 (by omega)]
      exact fun h => h
    · have hlt : a < p.defined.length := by
        obtain ⟨_, sig', h4, _⟩ := h2
        exact h4.lt
      obtain ⟨e, he, rfl, k, h4, h5, h6⟩ := f.fict_any defs decls h2
      have hu := (f.untyped decls).mpr h3
      refine ⟨hlt, k, h4, h5, .inr ⟨k + 1, by omega, (h6.succ _).mpr (.inr ⟨hu, rfl⟩), ?_⟩⟩
      unfold Graph.locOf
      rw [h6.extern hu]
      exact fun h => h
    · obtain ⟨k, h4, h5, h6⟩ := f.jump_out h1
      exact ⟨h1.lt, k, h4, h5, .inl h6⟩

/-- The comparison with the machine code, function by function. -/
theorem SharedFacts.local_loop_any (f : SharedFacts demangle ord search p elf cs st0 stIr st g)
    {stext : Nat} {text : List Nat} (hx : elf.text = some (stext, text)) {m : Nat} (es : List (Nat × Sym)) :
    ∀ (k : Nat) {st1 st2 : Build},
    p.defined.drop k = es → k + es.length = p.defined.length → MachineInv stIr.g.nodes.length stIr st1 →
    machineLoop search (p.target == .thumbv7m) (elfTags elf.symtab) stext text st1 es = .ok st2 →
    (∃ nd, st1.g.nodes[m]? = some nd ∧ p.LocalNodeAfter search elf m k nd.loc) →
    ∃ nd, st2.g.nodes[m]? = some nd ∧ p.LocalNodeAfter search elf m p.defined.length nd.loc := by
  induction es with
  | nil =>
    intro k st1 st2 _ hk _ h hl
    simp only [machineLoop, Except.ok.injEq] at h
    subst h
    simp only [List.length_nil, Nat.add_zero] at hk
    exact hk ▸ hl
  | cons e es ih =>
    intro k st1 st2 hdrop hk inv h ⟨nd, hnd, hloc⟩
    unfold machineLoop at h
    split at h
    · simp at h
    · rename_i st1' h1
      obtain ⟨inv1, c, i, r, hno, han, hu⟩ := machineStep_spec inv f.ir.lt h1
      have hek : p.defined[k]? = some e := by
        have := congrArg List.head? hdrop
        simpa using this
      have hcf := (f.nodeOf_any hek c i).mp hno
      refine ih (k + 1) ?_ (by simp only [List.length_cons] at hk; omega) inv1 h ?_
      · have := congrArg List.tail hdrop
        simpa using this
      · by_cases hi : i = m
        · subst hi
          obtain ⟨nd0, nd', h2, h3, h4⟩ := hu.loc
          rw [hnd] at h2
          cases h2
          refine ⟨nd', h3, ?_⟩
          obtain ⟨known, hkn⟩ := local_figure nd.loc
          rw [hkn] at h4 hloc
          have hl : p.LastShown c i := by
            obtain ⟨_, _, _, _, _, _, _, hl⟩ := hcf
            exact hl
          have h5 := (C50_override_policy known r.stack r.modifiesSp _ _ _).mp h4
          rw [inv.asmFns, f.asm_any hl, isOutlined_iff] at h5
          exact .code hloc hcf (decoded_of hek hx han) h5
        · refine ⟨nd, ?_, .other hloc fun c' hc' => hi (f.codeFor_unique hcf hc').2⟩
          rw [hu.other m (fun h => hi h.symm) (List.getElem?_eq_some_iff.mp hnd).1]
          exact hnd

/-- The local usages. -/
theorem SharedFacts.localNode (f : SharedFacts demangle ord search p elf cs st0 stIr st g)
    {m : Nat} (hm : m < p.defined.length) : p.LocalNode search elf m (g.locOf m) := by
  have hlt : m < cs.length := by rw [f.sym.len]; exact hm
  have hc := List.getElem?_eq_getElem hlt
  have he := List.getElem?_eq_getElem hm
  have hcan := f.sym.canon m _ _ he hc
  have hopt : p.FrameOpt m (mget cs[m] p.stackSizes) := by
    cases hs : mget cs[m] p.stackSizes with
    | none =>
      intro k hk
      rw [(frame_iff he hcan k).mp hk] at hs
      simp at hs
    | some k => exact (frame_iff he hcan k).mpr hs
  have hnode : stIr.g.nodes[m]? = some (mkNode cs[m] (mget cs[m] p.stackSizes) false) := by
    obtain ⟨ext, hex⟩ := f.ir.nodes
    have h0 : (cs.map (fun c => mkNode c (mget c p.stackSizes) false))[m]? =
        some (mkNode cs[m] (mget cs[m] p.stackSizes) false) := by
      rw [List.getElem?_map, hc]
      rfl
    rw [hex, f.sym.nodes, List.getElem?_append_left (List.getElem?_eq_some_iff.mp h0).1, h0]
  have hloc : (mkNode cs[m] (mget cs[m] p.stackSizes) false).loc = figureLocal (mget cs[m] p.stackSizes) := by
    unfold mkNode figureLocal
    cases mget cs[m] p.stackSizes <;> rfl
  have hg : ∀ nd, st.g.nodes[m]? = some nd → g.locOf m = nd.loc := by
    intro nd h
    obtain ⟨ns, hns⟩ := f.out.nodes
    unfold Graph.locOf
    rw [hns, List.getElem?_append_left (List.getElem?_eq_some_iff.mp h).1, h]
  have hpass := f.pass
  unfold machinePass at hpass
  split at hpass
  · rename_i ht
    split at hpass
    · rename_i hx
      cases hpass
      rw [hg _ hnode, hloc]
      exact .compiler (.inr hx) hopt
    · rename_i stext text hx
      obtain ⟨nd, h1, h2⟩ := f.local_loop_any hx p.defined 0 rfl (by omega)
        (MachineInv.init rfl f.ir.wf f.ir.seen) hpass ⟨_, hnode, hloc ▸ .compiler hopt⟩
      rw [hg _ h1]
      exact .code ht (by rw [hx]; exact Option.some_ne_none _) h2
  · rename_i ht
    cases hpass
    rw [hg _ hnode, hloc]
    exact .compiler (.inl (by simpa using ht)) hopt

/-- There is only one local usage. -/
theorem SharedFacts.localNode_iff (f : SharedFacts demangle ord search p elf cs st0 stIr st g)
    {m : Nat} (hm : m < p.defined.length) (l : Local) : p.LocalNode search elf m l ↔ g.locOf m = l := by
  have hfig : ∀ {a b : Option Nat}, figureLocal a = figureLocal b → a = b := by
    intro a b h
    cases a <;> cases b <;> simp_all [figureLocal]
  have hopt : ∀ {a b : Option Nat}, p.FrameOpt m a → p.FrameOpt m b → a = b := by
    intro a b h1 h2
    have hlt : m < cs.length := by rw [f.sym.len]; exact hm
    have he := List.getElem?_eq_getElem hm
    have hcan := f.sym.canon m _ _ he (List.getElem?_eq_getElem hlt)
    cases a <;> cases b
    · rfl
    · exact absurd h2 (h1 _)
    · exact absurd h1 (h2 _)
    · have h3 := (frame_iff he hcan _).mp h1
      rw [(frame_iff he hcan _).mp h2] at h3
      exact h3.symm
  have hafter : ∀ (k : Nat) (l l' : Local), p.target.isThumb = true → p.LocalNodeAfter search elf m k l →
      p.LocalNodeAfter search elf m k l' → l = l' := by
    intro k
    induction k with
    | zero =>
      intro l l' _ h1 h2
      cases h1 with
      | compiler a1 =>
        cases h2 with
        | compiler b1 => rw [hopt a1 b1]
    | succ k ih =>
      intro l l' ht h1 h2
      cases h1 with
      | code a1 a2 a3 a4 =>
        cases h2 with
        | code b1 b2 b3 b4 =>
          cases hfig (ih _ _ ht a1 b1)
          obtain rfl := (codeOf_iff.mpr ⟨ht, a3⟩).unique (codeOf_iff.mpr ⟨ht, b3⟩)
          obtain ⟨rfl, _⟩ := f.codeFor_unique a2 b2
          exact a4.unique b4
        | other b1 b2 => exact absurd a2 (b2 _)
      | other a1 a2 =>
        cases h2 with
        | code b1 b2 b3 b4 => exact absurd b2 (a2 _)
        | other b1 b2 => exact ih _ _ ht a1 b1
  have hg := f.localNode hm
  constructor
  · intro hl
    generalize g.locOf m = l2 at hg ⊢
    cases hl with
    | code a1 a2 a3 =>
      cases hg with
      | code b1 b2 b3 => exact hafter _ _ _ a1 b3 a3
      | compiler b1 b2 => rcases b1 with b1 | b1 <;> simp_all
    | compiler a1 a2 =>
      cases hg with
      | code b1 b2 b3 => rcases a1 with a1 | a1 <;> simp_all
      | compiler b1 b2 => rw [hopt a2 b2]
  · rintro rfl
    exact hg

end

end CallStack
