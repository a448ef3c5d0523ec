import Verif.Model.Filter
import Verif.Proof.Chains

/-! Correctness of the start point filter. -/

namespace CallStack

/-- State of the loop in terms of the list of kept nodes, in the order in which they were added. -/
structure FilterInv (g : Graph) (st : FilterState) (keys : List Nat) : Prop where
  nodup : keys.Nodup
  lt : ∀ k ∈ keys, k < g.nodes.length
  lookup : ∀ i, lookupIx i st.one2two = if i ∈ keys then some (keys.idxOf i) else none
  nodes : st.g2.nodes = keys.filterMap (fun i => g.nodes[i]?)

theorem FilterInv.length {g : Graph} {st : FilterState} {keys : List Nat}
    (h : FilterInv g st keys) : st.g2.nodes.length = keys.length := by
  rw [h.nodes]
  have : ∀ l : List Nat, (∀ k ∈ l, k < g.nodes.length) →
      (l.filterMap (fun i => g.nodes[i]?)).length = l.length := by
    intro l
    induction l with
    | nil => simp
    | cons a l ih =>
      intro hl
      have ha := hl a (by simp)
      simp only [List.filterMap_cons, List.getElem?_eq_getElem ha, List.length_cons]
      rw [ih (fun k hk => hl k (.tail _ hk))]
  exact this keys h.lt

theorem getOrAdd_spec {g : Graph} {st : FilterState} {keys : List Nat} (h : FilterInv g st keys)
    (i : Nat) (hi : i < g.nodes.length) :
    ∃ st' ext, getOrAdd g st i = .ok (st', (keys ++ ext).idxOf i) ∧ FilterInv g st' (keys ++ ext) ∧
      i ∈ keys ++ ext ∧ st'.g2.edges = st.g2.edges ∧ ∀ x ∈ ext, x = i := by
  by_cases hk : i ∈ keys
  · refine ⟨st, [], ?_, by simpa using h, by simpa using hk, rfl, by simp⟩
    simp [getOrAdd, h.lookup, hk]
  · refine ⟨⟨(st.g2.addNode g.nodes[i]).1, (i, st.g2.nodes.length) :: st.one2two⟩, [i], ?_, ?_,
      by simp, rfl, by simp⟩
    · have : (keys ++ [i]).idxOf i = keys.length := by
        rw [List.idxOf_append]; simp [hk]
      simp [getOrAdd, h.lookup, hk, List.getElem?_eq_getElem hi, Graph.addNode, h.length]
      simpa using this.symm
    · refine ⟨?_, ?_, ?_, ?_⟩
      · rw [List.nodup_append]
        refine ⟨h.nodup, by simp, ?_⟩
        intro a ha b hb hab
        simp only [List.mem_singleton] at hb
        exact hk (hb ▸ hab ▸ ha)
      · intro k hk'
        rcases List.mem_append.mp hk' with h' | h'
        · exact h.lt k h'
        · simp only [List.mem_singleton] at h'; exact h' ▸ hi
      · intro j
        simp only [lookupIx]
        by_cases hij : i = j
        · subst hij
          simp [List.idxOf_append, hk, h.length]
        · rw [if_neg hij, h.lookup]
          have hji : j ≠ i := fun e => hij e.symm
          by_cases hj : j ∈ keys
          · simp [hj, List.idxOf_append]
          · simp [hj, hji]
      · simp [Graph.addNode, h.nodes, List.filterMap_append, List.getElem?_eq_getElem hi]

theorem idxOf_append_of_mem {l ext : List Nat} {i : Nat} (h : i ∈ l) :
    (l ++ ext).idxOf i = l.idxOf i := by
  rw [List.idxOf_append]; simp [h]

theorem filterCallees_spec {g : Graph} {st : FilterState} {keys : List Nat} (h : FilterInv g st keys)
    (c2 : Nat) (cs : List Nat) (hcs : ∀ c ∈ cs, c < g.nodes.length) :
    ∃ st' ext, filterCallees g c2 st cs = .ok st' ∧ FilterInv g st' (keys ++ ext) ∧
      (∀ c ∈ cs, c ∈ keys ++ ext) ∧ (∀ x ∈ ext, x ∈ cs) ∧
      st'.g2.edges = st.g2.edges ++ cs.map (fun c => (c2, (keys ++ ext).idxOf c)) := by
  induction cs generalizing st keys with
  | nil => exact ⟨st, [], rfl, by simpa using h, by simp, by simp, by simp⟩
  | cons c cs ih =>
    obtain ⟨st1, ext1, e1, i1, m1, d1, x1⟩ := getOrAdd_spec h c (hcs c (by simp))
    have i1' : FilterInv g { st1 with g2 := st1.g2.addEdge c2 ((keys ++ ext1).idxOf c) }
        (keys ++ ext1) := ⟨i1.nodup, i1.lt, i1.lookup, i1.nodes⟩
    obtain ⟨st2, ext2, e2, i2, m2, x2, d2⟩ := ih i1' (fun x hx => hcs x (.tail _ hx))
    refine ⟨st2, ext1 ++ ext2, ?_, ?_, ?_, ?_, ?_⟩
    · simp [filterCallees, e1, e2]
    · rw [← List.append_assoc]; exact i2
    · intro x hx
      rw [← List.append_assoc]
      rcases List.mem_cons.mp hx with rfl | hx
      · exact List.mem_append_left _ m1
      · exact m2 x hx
    · intro x hx
      rcases List.mem_append.mp hx with hx | hx
      · rw [x1 x hx]; simp
      · exact .tail _ (x2 x hx)
    · rw [d2]
      simp only [Graph.addEdge, d1, List.map_cons, ← List.append_assoc]
      rw [idxOf_append_of_mem (ext := ext2) m1]
      simp

theorem filterLoop_spec {g : Graph} (hwf : g.WF) {st : FilterState} {keys : List Nat}
    (h : FilterInv g st keys) (order : List Nat) (ho : ∀ c ∈ order, c < g.nodes.length) :
    ∃ st' ext, filterLoop g st order = .ok st' ∧ FilterInv g st' (keys ++ ext) ∧
      (∀ c ∈ order, c ∈ keys ++ ext ∧ ∀ d ∈ g.out c, d ∈ keys ++ ext) ∧
      (∀ x ∈ ext, x ∈ order ∨ ∃ c ∈ order, x ∈ g.out c) ∧
      st'.g2.edges = st.g2.edges ++ order.flatMap (fun c => (g.out c).map
        (fun d => ((keys ++ ext).idxOf c, (keys ++ ext).idxOf d))) := by
  induction order generalizing st keys with
  | nil => exact ⟨st, [], rfl, by simpa using h, by simp, by simp, by simp⟩
  | cons c order ih =>
    obtain ⟨st1, ext1, e1, i1, m1, d1, x1⟩ := getOrAdd_spec h c (ho c (by simp))
    obtain ⟨st2, ext2, e2, i2, m2, x2, d2⟩ := filterCallees_spec i1 ((keys ++ ext1).idxOf c) (g.out c)
      (fun d hd => (hwf.out_lt c d hd).2)
    obtain ⟨st3, ext3, e3, i3, m3, x3, d3⟩ := ih i2 (fun x hx => ho x (.tail _ hx))
    have hassoc : keys ++ (ext1 ++ ext2 ++ ext3) = keys ++ ext1 ++ ext2 ++ ext3 := by simp
    refine ⟨st3, ext1 ++ ext2 ++ ext3, ?_, ?_, ?_, ?_, ?_⟩
    · simp [filterLoop, e1, e2, e3]
    · rw [hassoc]; exact i3
    · intro x hx
      rw [hassoc]
      rcases List.mem_cons.mp hx with rfl | hx
      · exact ⟨List.mem_append_left _ (List.mem_append_left _ m1),
          fun d hd => List.mem_append_left _ (m2 d hd)⟩
      · exact m3 x hx
    · intro x hx
      rcases List.mem_append.mp hx with hx | hx
      · rcases List.mem_append.mp hx with hx | hx
        · left; rw [x1 x hx]; simp
        · right; exact ⟨c, by simp, x2 x hx⟩
      · rcases x3 x hx with h' | ⟨c', h1, h2⟩
        · exact .inl (.tail _ h')
        · exact .inr ⟨c', .tail _ h1, h2⟩
    · rw [d3, d2, d1, hassoc, List.flatMap_cons, List.append_assoc]
      congr 2
      apply List.map_congr_left
      intro d hd
      rw [idxOf_append_of_mem (ext := ext3) (List.mem_append_left _ m1),
        idxOf_append_of_mem (ext := ext2) m1, idxOf_append_of_mem (ext := ext3) (m2 d hd)]

/-- `keep` lists the kept nodes; `ren` renumbers them. -/
theorem filterGraph_spec {g : Graph} (hwf : g.WF) {start : Nat} (hs : start < g.nodes.length) :
    ∃ (st : FilterState) (keep order : List Nat), filterGraph g start = .ok st ∧ FilterInv g st keep ∧
      (∀ i, i ∈ keep ↔ Reach g.Calls start i) ∧ order.Nodup ∧ (∀ i, i ∈ order ↔ i ∈ keep) ∧
      st.g2.edges = order.flatMap (fun c => (g.out c).map
        (fun d => (keep.idxOf c, keep.idxOf d))) := by
  obtain ⟨order, disc', e, _, hn, hm, _, _⟩ := dfsCollect_single g.nodes.length g.out
    (fun u v h => (hwf.out_lt u v h).2) start [] hs (by simp) (by simp) (by simp)
  rw [adjRel_out] at hm
  have hm' : ∀ y, y ∈ order ↔ Reach g.Calls start y := fun y => by simpa using hm y
  obtain ⟨st, ext, e', i, m, x, d⟩ := filterLoop_spec hwf (st := ⟨Graph.empty, []⟩) (keys := [])
    ⟨by simp, by simp, by simp [lookupIx], rfl⟩ order
    (fun c hc => hwf.reach_lt ((hm' c).mp hc) hs)
  simp only [List.nil_append] at i m d
  have hkeep : ∀ i, i ∈ ext ↔ Reach g.Calls start i := by
    intro j
    constructor
    · intro hj
      rcases x j hj with h | ⟨c, h1, h2⟩
      · exact (hm' j).mp h
      · exact ((hm' c).mp h1).tail (Graph.mem_out.mp h2)
    · intro hj
      exact (m j ((hm' j).mpr hj)).1
  exact ⟨st, ext, order, by simp [filterGraph, e, e'], i, hkeep, hn, fun j => by rw [hm', hkeep], by
    simpa [Graph.empty] using d⟩

/-! ### counting edges -/

theorem count_out (g : Graph) (a b : Nat) : (g.out a).count b = g.edges.count (a, b) := by
  unfold Graph.out
  rw [List.count_reverse]
  induction g.edges with
  | nil => simp
  | cons e es ih =>
    obtain ⟨x, y⟩ := e
    by_cases hx : x = a
    · subst hx
      simp only [List.filter_cons, beq_self_eq_true, if_true, List.map_cons, List.count_cons, ih]
      congr 1
      by_cases hy : y = b
      · simp [hy]
      · simp [hy]
    · have : (x == a) = false := by simp [hx]
      simp only [List.filter_cons, this, Bool.false_eq_true, if_false, ih, List.count_cons]
      have : ((x, y) == (a, b)) = false := by simp [hx]
      simp [this]

theorem count_flatMap_edges {g : Graph} {keep order : List Nat} (hon : order.Nodup)
    (hmem : ∀ i ∈ order, i ∈ keep) (hcl : ∀ i ∈ order, ∀ d ∈ g.out i, d ∈ keep)
    {a b : Nat} (ha : a ∈ keep) (hb : b ∈ keep) :
    (order.flatMap (fun c => (g.out c).map (fun d => (keep.idxOf c, keep.idxOf d)))).count
        (keep.idxOf a, keep.idxOf b) = if a ∈ order then (g.out a).count b else 0 := by
  have hinj : ∀ i ∈ keep, ∀ j ∈ keep, keep.idxOf i = keep.idxOf j → i = j := by
    intro i hi j hj hij
    have h1 := List.getElem_idxOf (xs := keep) (x := i) (List.idxOf_lt_length_of_mem hi)
    have h2 := List.getElem_idxOf (xs := keep) (x := j) (List.idxOf_lt_length_of_mem hj)
    rw [← h1, ← h2]
    congr 1
  have hself : ∀ ds : List Nat, (∀ d ∈ ds, d ∈ keep) →
      (ds.map (fun d => (keep.idxOf a, keep.idxOf d))).count (keep.idxOf a, keep.idxOf b) =
        ds.count b := by
    intro ds
    induction ds with
    | nil => simp
    | cons d ds ih =>
      intro hds
      simp only [List.map_cons, List.count_cons, ih (fun x hx => hds x (.tail _ hx))]
      congr 1
      by_cases hdb : d = b
      · simp [hdb]
      · have : keep.idxOf d ≠ keep.idxOf b := fun h => hdb (hinj d (hds d (by simp)) b hb h)
        simp [hdb, this]
  have hother : ∀ c, c ∈ keep → c ≠ a → ∀ ds : List Nat,
      (ds.map (fun d => (keep.idxOf c, keep.idxOf d))).count (keep.idxOf a, keep.idxOf b) = 0 := by
    intro c hc hca ds
    rw [List.count_eq_zero]
    intro hm
    obtain ⟨d, _, hd⟩ := List.mem_map.mp hm
    simp only [Prod.mk.injEq] at hd
    exact hca (hinj c hc a ha hd.1)
  induction order with
  | nil => simp
  | cons c order ih =>
    have hon' := List.nodup_cons.mp hon
    rw [List.flatMap_cons, List.count_append,
      ih hon'.2 (fun i hi => hmem i (.tail _ hi)) (fun i hi => hcl i (.tail _ hi))]
    by_cases hca : c = a
    · subst hca
      rw [hself _ (hcl c (by simp))]
      simp [hon'.1]
    · rw [hother c (hmem c (by simp)) hca]
      have : a ≠ c := fun e => hca e.symm
      simp [this]

theorem FilterInv.getElem {g : Graph} {st : FilterState} {keys : List Nat} (h : FilterInv g st keys)
    {i : Nat} (hi : i ∈ keys) : st.g2.nodes[keys.idxOf i]? = g.nodes[i]? := by
  rw [h.nodes]
  have : ∀ l : List Nat, (∀ k ∈ l, k < g.nodes.length) → i ∈ l →
      (l.filterMap (fun i => g.nodes[i]?))[l.idxOf i]? = g.nodes[i]? := by
    intro l
    induction l with
    | nil => simp
    | cons a l ih =>
      intro hl hil
      have ha := hl a (by simp)
      rw [List.filterMap_cons, List.getElem?_eq_getElem ha]
      simp only
      by_cases hai : a = i
      · subst hai; simp [List.getElem?_eq_getElem ha]
      · have hil' : i ∈ l := by
          rcases List.mem_cons.mp hil with h | h
          · exact absurd h.symm hai
          · exact h
        rw [List.idxOf_cons_ne _ hai]
        simpa using ih (fun k hk => hl k (.tail _ hk)) hil'
  exact this keys h.lt hi

/-- Everything about the filtered graph in terms of a renumbering. -/
theorem filterGraph_full {g : Graph} (hwf : g.WF) {start : Nat} (hs : start < g.nodes.length) :
    ∃ (st : FilterState) (ren : Nat → Nat), filterGraph g start = .ok st ∧ st.g2.WF ∧
      (∀ i, Reach g.Calls start i → ren i < st.g2.nodes.length) ∧
      (∀ i j, Reach g.Calls start i → Reach g.Calls start j → ren i = ren j → i = j) ∧
      (∀ k < st.g2.nodes.length, ∃ i, Reach g.Calls start i ∧ ren i = k) ∧
      (∀ i, Reach g.Calls start i → st.g2.nodes[ren i]? = g.nodes[i]?) ∧
      (∀ i j, Reach g.Calls start i → Reach g.Calls start j →
        st.g2.edges.count (ren i, ren j) = g.edges.count (i, j)) := by
  obtain ⟨st, keep, order, e, inv, hk, hon, ho, hed⟩ := filterGraph_spec hwf hs
  have hcl : ∀ i ∈ order, ∀ d ∈ g.out i, d ∈ keep := by
    intro i hi d hd
    exact (hk d).mpr (((hk i).mp ((ho i).mp hi)).tail (Graph.mem_out.mp hd))
  have hlt : ∀ i ∈ keep, keep.idxOf i < st.g2.nodes.length := by
    intro i hi; rw [inv.length]; exact List.idxOf_lt_length_of_mem hi
  refine ⟨st, keep.idxOf, e, ?_, fun i hi => hlt i ((hk i).mpr hi), ?_, ?_, ?_, ?_⟩
  · intro ed hed'
    rw [hed] at hed'
    obtain ⟨c, hc, hm⟩ := List.mem_flatMap.mp hed'
    obtain ⟨d, hd, rfl⟩ := List.mem_map.mp hm
    exact ⟨hlt c ((ho c).mp hc), hlt d (hcl c hc d hd)⟩
  · intro i j hi hj hij
    have h1 := List.getElem_idxOf (xs := keep) (x := i)
      (List.idxOf_lt_length_of_mem ((hk i).mpr hi))
    have h2 := List.getElem_idxOf (xs := keep) (x := j)
      (List.idxOf_lt_length_of_mem ((hk j).mpr hj))
    rw [← h1, ← h2]
    congr 1
  · intro k hk'
    rw [inv.length] at hk'
    refine ⟨keep[k], (hk _).mp (List.getElem_mem hk'), ?_⟩
    exact inv.nodup.idxOf_getElem k hk'
  · intro i hi
    exact inv.getElem ((hk i).mpr hi)
  · intro i j hi hj
    rw [hed, count_flatMap_edges hon (fun i hi => (ho i).mp hi) hcl ((hk i).mpr hi) ((hk j).mpr hj),
      if_pos ((ho i).mpr ((hk i).mpr hi)), count_out]

/-- The filter embeds the reachable part. -/
theorem filterGraph_embed {g g2 : Graph} {start : Nat} {ren : Nat → Nat}
    (hwf2 : g2.WF)
    (h2 : ∀ i j, Reach g.Calls start i → Reach g.Calls start j → ren i = ren j → i = j)
    (h3 : ∀ k < g2.nodes.length, ∃ i, Reach g.Calls start i ∧ ren i = k)
    (h4 : ∀ i, Reach g.Calls start i → g2.nodes[ren i]? = g.nodes[i]?)
    (h5 : ∀ i j, Reach g.Calls start i → Reach g.Calls start j →
      g2.edges.count (ren i, ren j) = g.edges.count (i, j)) :
    Embed (Reach g.Calls start) g.Calls g.locOf g2.Calls g2.locOf ren where
  closed a b ha hab := ha.tail hab
  inj a ha b hb := h2 a b ha hb
  fwd a b ha hab := by
    have := h5 a b ha (ha.tail hab)
    have hpos : 0 < g.edges.count (a, b) := List.count_pos_iff.mpr hab
    exact List.count_pos_iff.mp (by omega)
  back a c ha hac := by
    obtain ⟨b, hb, rfl⟩ := h3 c (hwf2 (_, _) hac).2
    refine ⟨b, ?_, rfl⟩
    have := h5 a b ha hb
    have hpos : 0 < g2.edges.count (ren a, ren b) := List.count_pos_iff.mpr hac
    exact List.count_pos_iff.mp (by omega)
  loc a ha := by
    unfold Graph.locOf
    rw [h4 a ha]

theorem localsU64_of_nodes {g : Graph} (h : ∀ nd ∈ g.nodes, nd.loc.bytes < 2 ^ 64) : g.LocalsU64 := by
  intro i
  unfold Graph.locOf
  cases hn : g.nodes[i]? with
  | none => simp [Local.bytes]
  | some nd => exact h nd (List.mem_of_getElem? hn)

theorem Graph.LocalsU64.node {g : Graph} (h : g.LocalsU64) {nd : Node} (hn : nd ∈ g.nodes) :
    nd.loc.bytes < 2 ^ 64 := by
  obtain ⟨i, hi⟩ := List.mem_iff_getElem?.mp hn
  have := h i
  simpa [Graph.locOf, hi] using this

end CallStack
