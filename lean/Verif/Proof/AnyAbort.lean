import Verif.Spec.AnyAbort
import Verif.Proof.AnyCode
import Verif.Proof.SharedAbort

/-!
When the machine code can be analysed, whatever the names of the functions.
-/

namespace CallStack

section

variable {demangle : Str → Str} {ord : HashOrder} {search : TagSearch} {p : Program} {elf elf0 : Elf} {cs : List Str}
  {st0 stIr st : Build} {g : Graph}

/-- There is only one local usage after the first functions. -/
theorem SharedFacts.localNodeAfter_unique (f : SharedFacts demangle ord search p elf0 cs st0 stIr st g)
    (ht : p.target.isThumb = true) {m : Nat} (hm : m < p.defined.length) (k : Nat) : ∀ (l l' : Local),
    p.LocalNodeAfter search elf m k l → p.LocalNodeAfter search elf m k l' → l = l' := by
  have hfig : ∀ {a b : Option Nat}, figureLocal a = figureLocal b → a = b := by
    intro a b h
    cases a <;> cases b <;> simp_all [figureLocal]
  induction k with
  | zero =>
    intro l l' h1 h2
    cases h1 with
    | @compiler a a1 =>
      cases h2 with
      | @compiler b b1 =>
        have hlt : m < cs.length := by rw [f.sym.len]; exact hm
        have he := List.getElem?_eq_getElem hm
        have hcan := f.sym.canon m _ _ he (List.getElem?_eq_getElem hlt)
        rw [(frameOpt_iff he hcan a).mp a1, (frameOpt_iff he hcan b).mp b1]
  | succ k ih =>
    intro l l' h1 h2
    cases h1 with
    | code a1 a2 a3 a4 =>
      cases h2 with
      | code b1 b2 b3 b4 =>
        cases hfig (ih _ _ a1 b1)
        obtain rfl := (codeOf_iff.mpr ⟨ht, a3⟩).unique (codeOf_iff.mpr ⟨ht, b3⟩)
        obtain ⟨rfl, _⟩ := f.codeFor_unique a2 b2
        exact a4.unique b4
      | other b1 b2 => exact absurd a2 (b2 _)
    | other a1 a2 =>
      cases h2 with
      | code b1 b2 b3 b4 => exact absurd b2 (a2 _)
      | other b1 b2 => exact ih _ _ a1 b1

/-- The comparison of one function with its machine code. -/
theorem SharedFacts.local_step_any (f : SharedFacts demangle ord search p elf0 cs st0 stIr st g)
    {stext : Nat} {text : List Nat} (hx : elf.text = some (stext, text)) {k : Nat} {e : Nat × Sym} {st1 st2 : Build}
    (hek : p.defined[k]? = some e) (inv : MachineInv stIr.g.nodes.length stIr st1)
    (h1 : machineStep search (p.target == .thumbv7m) (elfTags elf.symtab) stext text st1 e = .ok st2)
    (hl : ∀ (m : Nat) (name : Str), cs[m]? = some name →
      ∃ nd, st1.g.nodes[m]? = some nd ∧ p.LocalNodeAfter search elf m k nd.loc) :
    MachineInv stIr.g.nodes.length stIr st2 ∧
    (∀ (m : Nat) (name : Str), cs[m]? = some name →
      ∃ nd, st2.g.nodes[m]? = some nd ∧ p.LocalNodeAfter search elf m (k + 1) nd.loc) ∧
    ∃ c m l, p.CodeFor k c m ∧ p.LocalNodeAfter search elf m (k + 1) l := by
  obtain ⟨inv1, c, i, r, hno, han, hu⟩ := machineStep_spec inv f.ir.lt h1
  have hla := (f.nodeOf_any hek c i).mp hno
  obtain ⟨_, _, _, _, _, _, _, hls⟩ := id hla
  have all : ∀ (m : Nat) (name : Str), cs[m]? = some name →
      ∃ nd, st2.g.nodes[m]? = some nd ∧ p.LocalNodeAfter search elf m (k + 1) nd.loc := by
    intro m name hm
    obtain ⟨nd, hnd, hloc⟩ := hl m name hm
    by_cases hi : i = m
    · subst hi
      obtain ⟨nd0, nd', h2, h3, h4⟩ := hu.loc
      rw [hnd] at h2
      cases h2
      refine ⟨nd', h3, ?_⟩
      obtain ⟨known, hkn⟩ := local_figure nd.loc
      rw [hkn] at h4 hloc
      have h5 := (C50_override_policy known r.stack r.modifiesSp _ _ _).mp h4
      rw [inv.asmFns, f.asm_any hls, isOutlined_iff] at h5
      exact .code hloc hla (decoded_of hek hx han) h5
    · refine ⟨nd, ?_, .other hloc fun _ hl => hi (f.codeFor_unique hla hl).2⟩
      rw [hu.other m (fun h => hi h.symm) (List.getElem?_eq_some_iff.mp hnd).1]
      exact hnd
  refine ⟨inv1, all, ?_⟩
  have hi : i < cs.length := by rw [f.sym.len]; exact hla.lt
  obtain ⟨nd, _, h3⟩ := all i _ (List.getElem?_eq_getElem hi)
  exact ⟨c, i, nd.loc, hla, h3⟩

/-- The local usages before the comparison. -/
theorem SharedFacts.local_start_any (f : SharedFacts demangle ord search p elf0 cs st0 stIr st g) {m : Nat} {name : Str}
    (hm : cs[m]? = some name) : ∃ nd, stIr.g.nodes[m]? = some nd ∧ p.LocalNodeAfter search elf m 0 nd.loc := by
  have hlt : m < p.defined.length := by rw [← f.sym.len]; exact (List.getElem?_eq_some_iff.mp hm).1
  have he := List.getElem?_eq_getElem hlt
  have hcan := f.sym.canon m _ _ he hm
  refine ⟨mkNode name (mget name p.stackSizes) false, ?_, ?_⟩
  · obtain ⟨ext, hex⟩ := f.ir.nodes
    have h0 : (cs.map (fun c => mkNode c (mget c p.stackSizes) false))[m]? =
        some (mkNode name (mget name p.stackSizes) false) := by
      rw [List.getElem?_map, hm]
      rfl
    rw [hex, f.sym.nodes, List.getElem?_append_left (List.getElem?_eq_some_iff.mp h0).1, h0]
  · have hloc : (mkNode name (mget name p.stackSizes) false).loc = figureLocal (mget name p.stackSizes) := by
      unfold mkNode figureLocal
      cases mget name p.stackSizes <;> rfl
    rw [hloc]
    exact .compiler ((frameOpt_iff he hcan _).mpr rfl)

/-- A run of the loop compares every function. -/
theorem SharedFacts.loop_fits_any (f : SharedFacts demangle ord search p elf0 cs st0 stIr st g)
    {stext : Nat} {text : List Nat} (hx : elf.text = some (stext, text)) (es : List (Nat × Sym)) :
    ∀ (k : Nat) {st1 st2 : Build}, p.defined.drop k = es → MachineInv stIr.g.nodes.length stIr st1 →
    (∀ (m : Nat) (name : Str), cs[m]? = some name →
      ∃ nd, st1.g.nodes[m]? = some nd ∧ p.LocalNodeAfter search elf m k nd.loc) →
    machineLoop search (p.target == .thumbv7m) (elfTags elf.symtab) stext text st1 es = .ok st2 →
    ∀ j, k ≤ j → j < p.defined.length → ∃ c m l, p.CodeFor j c m ∧ p.LocalNodeAfter search elf m (j + 1) l := by
  induction es with
  | nil =>
    intro k st1 st2 hd _ _ _ j h1 h2
    rw [List.drop_eq_nil_iff] at hd
    omega
  | cons e es ih =>
    intro k st1 st2 hd inv hl h j h1 h2
    unfold machineLoop at h
    split at h
    · simp at h
    rename_i st1' hs
    have hek : p.defined[k]? = some e := by
      have := congrArg List.head? hd
      simpa using this
    obtain ⟨inv1, hl1, hk⟩ := f.local_step_any hx hek inv hs hl
    by_cases hj : j = k
    · subst hj
      exact hk
    · refine ih (k + 1) ?_ inv1 hl1 h j (by omega) h2
      have := congrArg List.tail hd
      simpa using this

/-- If every function fits, the loop runs. -/
theorem SharedFacts.fits_loop_any (f : SharedFacts demangle ord search p elf0 cs st0 stIr st g)
    (ht : p.target.isThumb = true) {stext : Nat} {text : List Nat} (hx : elf.text = some (stext, text))
    (hok : ∀ i, i < p.defined.length → p.CodeFitsNode search elf i) (es : List (Nat × Sym)) :
    ∀ (k : Nat) {st1 : Build}, p.defined.drop k = es → MachineInv stIr.g.nodes.length stIr st1 →
    (∀ (m : Nat) (name : Str), cs[m]? = some name →
      ∃ nd, st1.g.nodes[m]? = some nd ∧ p.LocalNodeAfter search elf m k nd.loc) →
    ∃ st2, machineLoop search (p.target == .thumbv7m) (elfTags elf.symtab) stext text st1 es = .ok st2 := by
  induction es with
  | nil => exact fun _ _ _ _ _ => ⟨_, rfl⟩
  | cons e es ih =>
    intro k st1 hd inv hl
    have hek : p.defined[k]? = some e := by
      have := congrArg List.head? hd
      simpa using this
    have hk := (List.getElem?_eq_some_iff.mp hek).1
    obtain ⟨c, m, address, size, r, l, h6, h4, h5, h7⟩ := hok k hk
    obtain ⟨k1, rfl, rfl⟩ := analyzed_of hek hx h4
    have hno := (f.nodeOf_any hek c m).mpr h6
    obtain ⟨_, _, _, _, _, _, _, hls⟩ := id h6
    obtain ⟨nd, hnd, hloc⟩ := hl m _ (List.getElem?_eq_getElem (by rw [f.sym.len]; exact h6.lt))
    have hpol : ∃ known, nd.loc = figureLocal known ∧
        LocalPolicy (r.modifiesSp = true) (∃ x, p.TakenIn m (.asm x)) (OutlinedName c) known r.stack l := by
      cases h7 with
      | @code _ known _ _ _ _ _ b1 b2 b3 b4 =>
        refine ⟨known, f.localNodeAfter_unique ht h6.lt k _ _ hloc b1, ?_⟩
        obtain rfl := (codeOf_iff.mpr ⟨ht, h4⟩).unique (codeOf_iff.mpr ⟨ht, b3⟩)
        obtain ⟨rfl, _⟩ := f.codeFor_unique h6 b2
        exact b4
      | other b1 b2 => exact absurd h6 (b2 _)
    obtain ⟨known, hkn, hpol⟩ := hpol
    have hov := (C50_override_policy known r.stack r.modifiesSp (stIr.asmFns.contains c) (isOutlined c) l).mpr
      (by rw [f.asm_any hls, isOutlined_iff]; exact hpol)
    obtain ⟨st1', hs⟩ := machineStep_of (hno.inv inv) k1 hnd
      (by rw [inv.asmFns, hkn]; exact hov)
      (fun addr ha => by
        obtain ⟨j, hj⟩ := (f.resolves_iff addr).mpr (h5 addr (mem_calledAddrs.mp ha))
        exact ⟨j, (inv.resolves addr j).mpr hj⟩)
    obtain ⟨inv1, hl1, _⟩ := f.local_step_any hx hek inv hs hl
    obtain ⟨st2, hs2⟩ := ih (k + 1) (by
      have := congrArg List.tail hd
      simpa using this) inv1 hl1
    exact ⟨st2, by unfold machineLoop; rw [hs]; exact hs2⟩

/-- The names of all nodes, whatever those of the functions. -/
theorem SharedFacts.node_names_any (f : SharedFacts demangle ord search p elf cs st0 stIr st g)
    (defs : p.DefinesOnce) (decls : p.DeclaresOnce) {nd : Node} (h : nd ∈ g.nodes) :
    p.Shown nd.name ∨ nd.name = c!"?" ∨
      ∃ sig, ((∃ j, p.TakenAs j sig) ∧ p.Called sig) ∧ nd.name = (labelSig (voidOf ord st) sig).show ++ c!"*" := by
  obtain ⟨k, hk⟩ := List.getElem?_of_mem h
  obtain ⟨ns, hns⟩ := f.out.nodes
  by_cases h1 : k < stIr.g.nodes.length
  · left
    obtain ⟨nd', k1, k2, _⟩ := f.node (List.getElem?_eq_getElem h1)
    rw [hk] at k1
    cases k1
    rw [k2, ← f.shown_iff, f.machine.indices]
    obtain ⟨j, hj⟩ := Option.ne_none_iff_exists'.mp (f.keyed _ (List.getElem_mem h1))
    exact List.mem_map.mpr ⟨_, mget_mem hj, rfl⟩
  · by_cases h2 : k < st.g.nodes.length
    · have h3 := f.machine.new k (by omega) h2
      rw [hns, List.getElem?_append_left h2, h3] at hk
      cases hk
      exact .inr (.inl rfl)
    · rcases f.out.new k (by omega) (List.getElem?_eq_some_iff.mp hk).1 with ⟨e, he, hc, hd⟩ | ⟨_, h3, _⟩
      · right; right
        rw [hd.node] at hk
        cases hk
        rw [(ord.isPerm _ _ _).mem_iff, f.machine.indirects] at he
        exact ⟨e.1, ⟨(f.registered defs decls e.1).mp ⟨e.2, he⟩, (f.called_any he).mp hc⟩, rfl⟩
      · rw [h3] at hk
        cases hk
        exact .inr (.inl rfl)

/-- A figure at a node was found for the function itself or in machine code that counts for it. -/
theorem Program.LocalNodeAfter.figure {m k n : Nat} {l : Local}
    (h : p.LocalNodeAfter search elf m k l) (hl : l = .exact n) :
    n = 0 ∨ p.Frame m n ∨ ∃ i c, p.CodeFor i c m ∧ p.CodeFigure search elf i n := by
  have known : ∀ {known : Option Nat} {a : Nat}, known = some a → figureLocal known = .exact a := by
    rintro _ a rfl
    rfl
  induction h generalizing n with
  | @compiler llvm hf =>
    cases llvm with
    | none => cases hl
    | some k =>
      cases hl
      exact .inr (.inl hf)
  | other _ _ ih => exact ih hl
  | @code i known address size r c l h1 h2 h3 h5 ih =>
    subst hl
    have code : ∀ k, r.stack = some k → n = k → n = 0 ∨ p.Frame m n ∨ ∃ i c, p.CodeFor i c m ∧ p.CodeFigure search elf i n := by
      rintro k hr rfl
      exact .inr (.inr ⟨_, _, h2, _, _, r, h3, hr⟩)
    generalize hr : r.stack = ours at h5
    cases h5 with
    | ours k _ => exact code _ hr rfl
    | zero _ => exact .inl rfl
    | only n _ => exact ih rfl
    | agree n _ => exact ih rfl
    | asm n k _ _ _ => exact code _ hr rfl
    | outlinedZero k _ _ _ _ => exact code _ hr rfl
    | outlined n k _ _ _ _ _ _ => exact ih rfl

/-- There are nodes for all these names, except the question mark. -/
theorem SharedFacts.names_node_any (f : SharedFacts demangle ord search p elf cs st0 stIr st g)
    (defs : p.DefinesOnce) (decls : p.DeclaresOnce) {n : Str} (h : p.Shown n ∨
      ∃ sig, ((∃ j, p.TakenAs j sig) ∧ p.Called sig) ∧ n = (labelSig (voidOf ord st) sig).show ++ c!"*") :
    ∃ nd ∈ g.nodes, nd.name = n := by
  rcases h with h | ⟨sig, ⟨h1, h2⟩, rfl⟩
  · obtain ⟨e, he, rfl⟩ := List.mem_map.mp ((f.shown_iff n).mpr h)
    have hne : mget e.1 st.indices ≠ none := fun hno => mget_none.mp hno e he rfl
    obtain ⟨k, hk⟩ := Option.ne_none_iff_exists'.mp hne
    obtain ⟨nd, h1, h2⟩ := f.index hk
    exact ⟨nd, List.mem_of_getElem? h1, h2⟩
  · obtain ⟨i0, h3⟩ := (f.registered defs decls sig).mpr h1
    obtain ⟨k, _, h4⟩ := f.out.called (sig, i0)
      (by rw [(ord.isPerm _ _ _).mem_iff, f.machine.indirects]; exact h3) ((f.called_any h3).mpr h2)
    exact ⟨_, List.mem_of_getElem? h4.node, rfl⟩

section orders

variable {ord' : HashOrder} {cs' : List Str} {st0' stIr' st' : Build} {g' : Graph}

/-- The names of the nodes are the same with another order of the hash maps, except for the question mark. -/
theorem SharedFacts.same_names_any (defs : p.DefinesOnce) (decls : p.DeclaresOnce) (one : p.OneVoid)
    (f : SharedFacts demangle ord search p elf cs st0 stIr st g)
    (f' : SharedFacts demangle ord' search p elf cs' st0' stIr' st' g') {nd' : Node} (hn : nd' ∈ g'.nodes) :
    nd'.name = c!"?" ∨ ∃ nd ∈ g.nodes, nd.name = nd'.name := by
  have hv := chosen_unique one (f.chosen defs decls) (f'.chosen defs decls)
  rcases f'.node_names_any defs decls hn with h | h | h
  · exact .inr (f.names_node_any defs decls (.inl h))
  · exact .inl h
  · rw [← hv] at h
    exact .inr (f.names_node_any defs decls (.inr h))

/-- The calls, unknown calls and local usages of the live functions are the same. -/
theorem SharedFacts.same_any (defs : p.DefinesOnce) (decls : p.DeclaresOnce) (addressed : p.Addressed)
    (one : p.OneVoid) (f : SharedFacts demangle ord search p elf cs st0 stIr st g)
    (f' : SharedFacts demangle ord' search p elf cs' st0' stIr' st' g') :
    LiveSame p.defined.length g.Calls g.locOf g'.Calls g'.locOf := by
  have hv := chosen_unique one (f.chosen defs decls) (f'.chosen defs decls)
  refine ⟨f.liveGraph_node, f'.liveGraph_node, ?_, ?_, ?_⟩
  · intro a b ha hb
    have h1 := congrFun (congrFun (f.mayCall_node defs decls addressed) a) b
    have h2 := congrFun (congrFun (f'.mayCall_node defs decls addressed) a) b
    rw [← hv, ← h1] at h2
    unfold LiveHop at h2
    simp only [ha, hb, true_and] at h2
    exact (iff_of_eq h2).symm
  · intro a ha
    have h1 := f.mayLeave_node defs decls a
    have h2 := f'.mayLeave_node defs decls a
    rw [← h1] at h2
    simp only [ha, true_and] at h2
    exact h2.symm
  · intro a ha
    exact (f.localNode_iff ha _).mp (f'.localNode ha)

end orders

end

end CallStack
