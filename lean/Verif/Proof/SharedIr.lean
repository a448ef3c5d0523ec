import Verif.Proof.SharedExec
import Verif.Spec.Dropped

/-! Lemmas for C117: the LLVM-IR of programs with functions of the same names. -/

namespace CallStack

theorem callRoutines_edge {p : Program} {st0 st : Build} (w : WeakIr p st0 st) {i : Nat} (hix : NodeOfName st0 i)
    (hi : i < st.g.nodes.length) {r : Str} {k : Nat} (hr : mget r st.indices = some k) (rs : List Str)
    (hm : r ∈ rs) : (i, k) ∈ (st.callRoutines i rs).g.edges := by
  induction rs generalizing st with
  | nil => cases hm
  | cons a rs ih =>
    have hcons : st.callRoutines i (a :: rs) = (match mget a st.indices with
        | some callee => st.call i callee
        | none => st).callRoutines i rs := rfl
    rw [hcons]
    by_cases ha : a = r
    · subst ha
      rw [hr]
      have hk := w.lt _ _ hr
      refine ((w.call hix hi hk).routines hix (by rw [(call_frame st i k).1]; exact hi) rs).2.1 _ ?_
      exact (mem_call_edges (w.seen i k) _).mpr (.inr rfl)
    · have hm' : r ∈ rs := by
        rcases List.mem_cons.mp hm with h | h
        · exact absurd h.symm ha
        · exact h
      split
      · rename_i callee hc
        have f := call_frame st i callee
        exact ih (w.call hix hi (w.lt _ _ hc)) (by rw [f.1]; exact hi) (by rw [f.2.1]; exact hr) hm'
      · exact ih w hi hr hm'

section

variable {demangle : Str → Str} {ord : HashOrder} {search : TagSearch} {p : Program} {elf : Elf}
  {cs : List Str} {st0 stIr st : Build} {g g' : Graph} {cycles : List (List Nat)}

/-- The nodes for names without a function have unknown usage. -/
theorem SharedFacts.ext_unknown (f : SharedFacts demangle ord search p elf cs st0 stIr st g) {k : Nat}
    (hk : st0.g.nodes.length ≤ k) (hlt : k < stIr.g.nodes.length) : g.locOf k = .unknown := by
  have hir : ∃ nd, stIr.g.nodes[k]? = some nd ∧ nd.loc = .unknown := by
    obtain ⟨ext, he⟩ := f.ir.nodes
    refine ⟨_, List.getElem?_eq_getElem hlt, ?_⟩
    have hm : stIr.g.nodes[k]? = (ext.map (fun n => mkNode n none false))[k - st0.g.nodes.length]? := by
      rw [he, List.getElem?_append_right hk]
    rw [List.getElem?_eq_getElem hlt] at hm
    obtain ⟨n, _, hn⟩ := List.mem_map.mp (List.mem_of_getElem? hm.symm)
    rw [← hn]
    rfl
  obtain ⟨nd, hnd, hloc⟩ := hir
  have hst : st.g.nodes[k]? = some nd := by
    rw [← hnd]
    by_cases ht : p.target.isThumb = true
    · cases hx : elf.text with
      | none =>
        have := f.pass
        unfold machinePass at this
        rw [if_pos ht, hx] at this
        cases this
        rfl
      | some x =>
        obtain ⟨stext, text⟩ := x
        refine (f.loop stext text ht hx).2.other k hlt ?_
        rintro e he c' i' ⟨first, rest, _, h2, h3⟩ rfl
        rw [f.ir.aliases] at h2
        obtain ⟨j, e', _, h4, _⟩ := f.sym.aliases_some first c' h2
        obtain ⟨i, hi⟩ := Option.ne_none_iff_exists'.mp (f.sym.indices_ne c' (List.mem_of_getElem? h4))
        have := f.ir.indices _ _ hi
        rw [h3] at this
        cases this
        have := (List.getElem?_eq_some_iff.mp (f.sym.indices_some c' i' hi)).1
        rw [f.sym.nodes, List.length_map] at hk
        omega
    · have := f.pass
      unfold machinePass at this
      rw [if_neg ht] at this
      cases this
      rfl
  obtain ⟨ns, hns⟩ := f.out.nodes
  unfold Graph.locOf
  rw [hns, List.getElem?_append_left (List.getElem?_eq_some_iff.mp hst).1, hst]
  exact hloc

/-- The node of a function with a statement, and when the statement was processed. -/
theorem SharedFacts.contains (f : SharedFacts demangle ord search p elf cs st0 stIr st g) (alike : p.NamesAlike)
    {i : Nat} {s : Stmt} (h : p.Contains i s) :
    ∃ a c, p.LastOf i a ∧ NodeOfName st0 a ∧ Processed p st0 stIr c a s := by
  obtain ⟨d, hd, ⟨ai, si, hi, hni⟩, hst⟩ := h
  obtain ⟨ci, hci, _⟩ := f.canon_at hi
  obtain ⟨a, ha, hla⟩ := f.lookup alike hi hci
  exact ⟨a, ci, hla, ⟨ci, ha⟩, f.each d hd ci a s (f.alias alike hi hci hni) ha hst⟩

/-- A node that was looked up without regard to aliases: that of the last function of the name, or one with unknown
usage. -/
theorem SharedFacts.got (f : SharedFacts demangle ord search p elf cs st0 stIr st g) (alike : p.NamesAlike)
    {st1 : Build} (w : WeakIr p st0 st1) {n : Str} (hlt : (st1.getOrAddNode n).2 < stIr.g.nodes.length) :
    (∃ j a s, p.defined[j]? = some (a, s) ∧ s.Named n ∧ p.LastOf j (st1.getOrAddNode n).2) ∨
      g.locOf (st1.getOrAddNode n).2 = .unknown := by
  unfold Build.getOrAddNode at hlt ⊢
  cases hm : mget n st1.indices with
  | some k =>
    rw [hm] at hlt
    simp only at hlt ⊢
    rcases w.fresh n k hm with h1 | h1
    · left
      have hcs := f.sym.indices_some n k h1
      have hk : k < p.defined.length := by rw [← f.sym.len]; exact (List.getElem?_eq_some_iff.mp hcs).1
      have he := List.getElem?_eq_getElem hk
      obtain ⟨k', hk', hl⟩ := f.lookup alike he hcs
      rw [h1] at hk'
      cases hk'
      obtain ⟨c, hc, _, hcm⟩ := f.canon_at he
      rw [hcs] at hc
      cases hc
      exact ⟨k, _, _, he, (mem_realNames _ _).mp hcm, hl⟩
    · exact .inr (f.ext_unknown h1 hlt)
  | none =>
    rw [hm] at hlt
    simp only [Graph.addNode] at hlt ⊢
    right
    refine f.ext_unknown ?_ hlt
    obtain ⟨ext, he⟩ := w.nodes
    rw [he, List.length_append]
    omega

/-- A call through a bitcast leads to the last function of the name, or to a node with unknown usage. -/
theorem SharedFacts.bitcast (f : SharedFacts demangle ord search p elf cs st0 stIr st g) (alike : p.NamesAlike)
    {i : Nat} {n : Str} (h : p.Contains i (.bitcastCall (some n))) :
    ∃ a k, p.LastOf i a ∧ g.Calls a k ∧
      ((∃ j a s, p.defined[j]? = some (a, s) ∧ s.Named n ∧ p.LastOf j k) ∨ g.locOf k = .unknown) := by
  obtain ⟨a, c, hla, hix, st1, st2, w, hlt, hs, he⟩ := f.contains alike h
  have h2 := Except.ok.inj hs
  have hedge : (a, (st1.getOrAddNode n).2) ∈ stIr.g.edges := by
    apply he
    rw [← h2]
    exact List.mem_append.mpr (.inr (List.mem_singleton.mpr rfl))
  exact ⟨a, _, hla, f.edge_ir hedge, f.got alike w (f.ir.wf _ hedge).2⟩

/-- A direct call of a function that is not in the executable leads to a node with unknown usage. -/
theorem SharedFacts.outside (f : SharedFacts demangle ord search p elf cs st0 stIr st g) (alike : p.NamesAlike)
    {i : Nat} {n : Str} (h : p.Contains i (.directCall n)) (hint : ¬ IsIntrinsic n) (hno : p.NotLive n)
    (hm : n ≠ c!"memcmp") : ∃ a k, p.LastOf i a ∧ g.Calls a k ∧ g.locOf k = .unknown := by
  obtain ⟨a, c, hla, hix, st1, st2, w, hlt, hs, he⟩ := f.contains alike h
  simp only [stmtStep, classify_plain.mpr hint] at hs
  have hal : mget n st1.aliases = none := by
    rw [w.aliases]
    by_contra h1
    obtain ⟨c', hc'⟩ := Option.ne_none_iff_exists'.mp h1
    obtain ⟨j, e', h2, _, h3⟩ := f.sym.aliases_some n c' hc'
    exact hno j ⟨e'.1, e'.2, h2, (mem_realNames _ _).mp h3⟩
  have hns : symbollessIntrinsics.contains n = false := by
    simpa [symbollessIntrinsics] using hm
  unfold plainCall at hs
  simp only [hns, hal, Bool.false_and, Bool.false_eq_true, if_false] at hs
  split at hs
  · obtain ⟨w1, e1, h3, h4⟩ := w.getOrAdd n
    have h2 := Except.ok.inj hs
    change (st1.getOrAddNode n).1.call a (st1.getOrAddNode n).2 = st2 at h2
    have hedge : (a, (st1.getOrAddNode n).2) ∈ stIr.g.edges := by
      apply he
      rw [← h2]
      exact (mem_call_edges (w1.seen _ _) _).mpr (.inr rfl)
    refine ⟨a, _, hla, f.edge_ir hedge, ?_⟩
    rcases f.got alike w (f.ir.wf _ hedge).2 with ⟨j, b, s, h5, h6, _⟩ | h5
    · exact absurd ⟨b, s, h5, h6⟩ (hno j)
    · exact h5
  · cases hs

/-- A memory intrinsic leads to the last of the routines of a name that the tool looks for. -/
theorem SharedFacts.memory (f : SharedFacts demangle ord search p elf cs st0 stIr st g) (alike : p.NamesAlike)
    (other : p.target.isThumb = false) {i j : Nat} {n r : Str} (h : p.Contains i (.directCall n))
    (hj : p.Principal j r) (hr : (c!"llvm.memcpy." <+: n ∧ r ∈ CopyRoutines) ∨
      ((c!"llvm.memset." <+: n ∨ c!"llvm.memmove." <+: n) ∧ r ∈ FillRoutines)) :
    ∃ a b, p.LastOf i a ∧ p.LastOf j b ∧ g.Calls a b := by
  obtain ⟨a, c, hla, hix, st1, st2, w, hlt, hs, he⟩ := f.contains alike h
  obtain ⟨aj, sj, pre, post, hdj, _⟩ := id hj
  obtain ⟨cj, hcj, hcan, _⟩ := f.canon_at hdj
  obtain rfl := (principal_iff hdj hcan r).mp hj
  obtain ⟨b, hb, hlb⟩ := f.lookup alike hdj hcj
  refine ⟨a, b, hla, hlb, f.edge_ir (he _ ?_)⟩
  have hb1 := w.indices _ _ hb
  rcases hr with ⟨h1, h2⟩ | ⟨h1, h2⟩
  · simp only [stmtStep, other, classify_memcpy h1] at hs
    rw [← Except.ok.inj hs]
    exact callRoutines_edge w hix hlt hb1 _ h2
  · simp only [stmtStep, other, classify_memset h1] at hs
    rw [← Except.ok.inj hs]
    exact callRoutines_edge w hix hlt hb1 _ h2

/-- On other targets the local usage of the last function of the names is the figure of the compiler. -/
theorem SharedFacts.frames (f : SharedFacts demangle ord search p elf cs st0 stIr st g) (alike : p.NamesAlike)
    (other : p.target.isThumb = false) {i m : Nat} (hl : p.LastOf i m) (k : Nat) :
    g.locOf m = .exact k ↔ p.Frame i k := by
  obtain ⟨ai, si, am, sm, hi, hm, hnames, hlast⟩ := id hl
  obtain ⟨c, hc, hcan, _⟩ := f.canon_at hi
  obtain ⟨m', hm', hl'⟩ := f.lookup alike hi hc
  obtain rfl := Program.LastOf.unique hl hl'
  have hcm := f.sym.indices_some c m hm'
  have hst : st = stIr := by
    have := f.pass
    unfold machinePass at this
    rw [if_neg (by rw [other]; simp)] at this
    cases this
    rfl
  have hnode : st.g.nodes[m]? = some (mkNode c (mget c p.stackSizes) false) := by
    obtain ⟨ext, he⟩ := f.ir.nodes
    have h0 : (cs.map (fun c => mkNode c (mget c p.stackSizes) false))[m]? =
        some (mkNode c (mget c p.stackSizes) false) := by
      rw [List.getElem?_map, hcm]
      rfl
    rw [hst, he, f.sym.nodes, List.getElem?_append_left (List.getElem?_eq_some_iff.mp h0).1, h0]
  have hg : g.locOf m = (mkNode c (mget c p.stackSizes) false).loc := by
    obtain ⟨ns, hns⟩ := f.out.nodes
    unfold Graph.locOf
    rw [hns, List.getElem?_append_left (List.getElem?_eq_some_iff.mp hnode).1, hnode]
  rw [hg, frame_iff hi hcan k]
  unfold mkNode
  cases hs : mget c p.stackSizes <;> simp

end

end CallStack
