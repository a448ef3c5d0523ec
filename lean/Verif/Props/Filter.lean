import Verif.Spec.Start
import Verif.Proof.Filter
import Verif.Proof.Str
import Verif.Props.Analysis

/-!
Properties C13-C16 and C66: the `--start` filter (main.rs:1067-1133).
-/

namespace CallStack

/-- Number of nodes of `g` that are reachable from `s`, counted independently of the filter. -/
def IsReachCount (g : Graph) (s n : Nat) : Prop :=
  ∃ l : List Nat, l.Nodup ∧ (∀ i, i ∈ l ↔ Reach g.Calls s i) ∧ l.length = n

/-- `ren` is a bijection from the functions reachable from `start` in `g` onto all nodes of `g2`. -/
structure ReachBijection (g : Graph) (start : Nat) (g2 : Graph) (ren : Nat → Nat) : Prop where
  lt : ∀ i, Reach g.Calls start i → ren i < g2.nodes.length
  inj : ∀ i j, Reach g.Calls start i → Reach g.Calls start j → ren i = ren j → i = j
  surj : ∀ k < g2.nodes.length, ∃ i, Reach g.Calls start i ∧ ren i = k

/-- **C13** Filtering never aborts, and the nodes of the filtered graph are in one-to-one
correspondence with the functions reachable from the start point, each under its own name. -/
theorem C13_start_keeps_reachable {g : Graph} (hwf : g.WF) {start : Nat}
    (hs : start < g.nodes.length) :
    ∃ st ren, filterGraph g start = .ok st ∧ ReachBijection g start st.g2 ren ∧
      ∀ i, Reach g.Calls start i →
        (st.g2.nodes[ren i]?).map (·.name) = (g.nodes[i]?).map (·.name) := by
  obtain ⟨st, ren, e, _, h1, h2, h3, h4, _⟩ := filterGraph_full hwf hs
  exact ⟨st, ren, e, ⟨h1, h2, h3⟩, fun i hi => by rw [h4 i hi]⟩

/-- **C13** (counting form) the printed graph has as many nodes as there are reachable functions. -/
theorem C13_count {g : Graph} (hwf : g.WF) {start : Nat} (hs : start < g.nodes.length)
    {st : FilterState} (h : filterGraph g start = .ok st) :
    IsReachCount g start st.g2.nodes.length := by
  obtain ⟨st', keep, order, e, inv, hk, _⟩ := filterGraph_spec hwf hs
  rw [h] at e
  cases e
  exact ⟨keep, inv.nodup, hk, inv.length.symm⟩

/-- **C14** The same bijection preserves whole nodes (name, local usage, style) and the number of
calls between any two functions; and the filtered graph has no other call. -/
theorem C14_start_keeps_calls {g : Graph} (hwf : g.WF) {start : Nat} (hs : start < g.nodes.length) :
    ∃ st ren, filterGraph g start = .ok st ∧ st.g2.WF ∧ ReachBijection g start st.g2 ren ∧
      (∀ i, Reach g.Calls start i → st.g2.nodes[ren i]? = g.nodes[i]?) ∧
      (∀ i j, Reach g.Calls start i → Reach g.Calls start j →
        st.g2.edges.count (ren i, ren j) = g.edges.count (i, j)) := by
  obtain ⟨st, ren, e, hw, h1, h2, h3, h4, h5⟩ := filterGraph_full hwf hs
  exact ⟨st, ren, e, hw, ⟨h1, h2, h3⟩, h4, h5⟩

/-- **C15** If the whole graph can be analysed then so can the filtered one, and the max printed for
a kept function is the same with and without the start point. -/
theorem C15_max_unchanged {g : Graph} (hwf : g.WF) (hu : g.LocalsU64) {start : Nat}
    (hs : start < g.nodes.length) {gf : Graph} {cs : List (List Nat)}
    (hfull : analyzeMax true g = .ok (gf, cs)) :
    ∃ st ren g' cs', filterGraph g start = .ok st ∧ analyzeMax true st.g2 = .ok (g', cs') ∧
      ReachBijection g start st.g2 ren ∧
      (∀ i, Reach g.Calls start i → st.g2.nodes[ren i]? = g.nodes[i]?) ∧
      (∀ i j, Reach g.Calls start i → Reach g.Calls start j →
        st.g2.edges.count (ren i, ren j) = g.edges.count (i, j)) ∧
      SameButMax st.g2 g' ∧
      ∀ i, Reach g.Calls start i → g'.maxOf? (ren i) = gf.maxOf? i := by
  obtain ⟨st, ren, e, hw, h1, h2, h3, h4, h5⟩ := filterGraph_full hwf hs
  have hu2 : st.g2.LocalsU64 := by
    apply localsU64_of_nodes
    intro nd hnd
    obtain ⟨k, hk⟩ := List.mem_iff_getElem?.mp hnd
    have hkl : k < st.g2.nodes.length := by
      rcases Nat.lt_or_ge k st.g2.nodes.length with h | h
      · exact h
      · rw [List.getElem?_eq_none h] at hk; simp at hk
    obtain ⟨j, hj, rfl⟩ := h3 k hkl
    rw [h4 j hj] at hk
    exact hu.node (List.mem_of_getElem? hk)
  have hemb := filterGraph_embed hw h2 h3 h4 h5
  obtain ⟨_, a2, _⟩ := analyzeMax_ok hwf hu hfull
  rcases analyzeMax_spec hw hu2 with ⟨_, v, hv, k, hk, hheavy⟩ | ⟨g', cs', ha, b1, b2, _⟩
  · exfalso
    obtain ⟨i, hi, rfl⟩ := h3 v hv
    obtain ⟨m, _, k2, k3⟩ := a2 i (hwf.reach_lt hi hs)
    have := (hemb.maxSpec hi k3).1.unique hheavy
    omega
  · refine ⟨st, ren, g', cs', e, ha, ⟨h1, h2, h3⟩, h4, h5, b1, fun i hi => ?_⟩
    obtain ⟨m, k1, _, k3⟩ := a2 i (hwf.reach_lt hi hs)
    obtain ⟨m', l1, _, l3⟩ := b2 (ren i) (h1 i hi)
    rw [k1, l1, (hemb.maxSpec hi k3).unique l3]

/-- The hypotheses of C13-C15 are met by `exGraph` started at `f`: `main` and `k` disappear. -/
example : (filterGraph exGraph 1).toOption.map (fun st => (st.g2.nodes.map (·.name), st.g2.edges)) =
    some ([c!"f", c!"h", c!"l"], [(0, 1), (1, 2), (1, 0)]) := by decide

example : 1 < exGraph.nodes.length ∧ ∃ gf cs, analyzeMax true exGraph = .ok (gf, cs) :=
  ⟨by decide, _, _, rfl⟩

/-! ### resolution of the start point -/

/-- **C16** Start point resolution. -/
theorem C16_start_resolution (demangle : Str → Str) {indices : List (Str × Nat)}
    (hn : (indices.map (·.1)).Nodup) (start : Str) (i : Nat) :
    resolveStart demangle indices start = some i ↔
      (start, i) ∈ indices ∨
      ((∀ j, (start, j) ∉ indices) ∧
        ∃ key, (key, i) ∈ indices ∧ StartMatches demangle start key ∧
          ∀ key' j, (key', j) ∈ indices → StartMatches demangle start key' → key' = key) := by
  unfold resolveStart
  cases hl : lookupStr start indices with
  | some j =>
    have hj := (lookupStr_iff hn).mp hl
    simp only [Option.some.injEq]
    constructor
    · rintro rfl; exact .inl hj
    · rintro (h | ⟨h, _⟩)
      · have := (lookupStr_iff hn).mpr h
        rw [hl] at this; simpa using this
      · exact absurd hj (h j)
  | none =>
    have hnone := lookupStr_none.mp hl
    simp only
    have hmem : ∀ key, key ∈ (indices.map (·.1)).filter
        (fun key => startsWith (demangle key) (start ++ c!"::h")) ↔
        (∃ j, (key, j) ∈ indices) ∧ StartMatches demangle start key := by
      intro key
      rw [List.mem_filter, startsWith_iff]
      simp [StartMatches]
    have hnd : ((indices.map (·.1)).filter
        (fun key => startsWith (demangle key) (start ++ c!"::h"))).Nodup := hn.filter _
    generalize (indices.map (·.1)).filter
        (fun key => startsWith (demangle key) (start ++ c!"::h")) = hits at hmem hnd
    have hno : (start, i) ∉ indices := hnone i
    match hits with
    | [] =>
      simp only [List.length_nil, gt_iff_lt, Nat.not_lt_zero, if_false, reduceCtorEq, false_iff]
      rintro (h | ⟨_, key, h1, h2, _⟩)
      · exact hno h
      · have := (hmem key).mpr ⟨⟨i, h1⟩, h2⟩
        simp at this
    | [key] =>
      simp only [List.length_singleton, gt_iff_lt, Nat.lt_irrefl, if_false]
      have hkey := (hmem key).mp (by simp)
      rw [lookupStr_iff hn]
      constructor
      · intro h
        refine .inr ⟨hnone, key, h, hkey.2, ?_⟩
        intro key' j h1 h2
        have := (hmem key').mpr ⟨⟨j, h1⟩, h2⟩
        simpa using this
      · rintro (h | ⟨_, key', h1, h2, _⟩)
        · exact absurd h hno
        · have := (hmem key').mpr ⟨⟨i, h1⟩, h2⟩
          simp only [List.mem_singleton] at this
          exact this ▸ h1
    | k1 :: k2 :: rest =>
      have : (k1 :: k2 :: rest).length > 1 := by simp
      simp only [this, if_true, reduceCtorEq, false_iff]
      rintro (h | ⟨_, key, h1, h2, h3⟩)
      · exact hno h
      · obtain ⟨⟨j1, g1⟩, m1⟩ := (hmem k1).mp (by simp)
        obtain ⟨⟨j2, g2⟩, m2⟩ := (hmem k2).mp (by simp)
        have e1 := h3 k1 j1 g1 m1
        have e2 := h3 k2 j2 g2 m2
        simp [e1, e2] at hnd

/-- **C16** When no symbol is selected the graph is printed unfiltered; when one is, it is filtered at
that symbol. -/
theorem C16_unfiltered (demangle : Str → Str) {indices : List (Str × Nat)} (start : Str) (g : Graph) :
    (resolveStart demangle indices start = none →
      applyStart demangle indices (some start) g = .ok g) ∧
    (∀ i st, resolveStart demangle indices start = some i → filterGraph g i = .ok st →
      applyStart demangle indices (some start) g = .ok st.g2) := by
  constructor
  · intro h; simp [applyStart, h]
  · intro i st h h2; simp [applyStart, h, h2]

/-- Two symbols, identity demangler: exact match, unique match, and ambiguous match. -/
example :
    resolveStart id [(c!"a::f::h01", 0), (c!"main", 1)] c!"main" = some 1 ∧
    resolveStart id [(c!"a::f::h01", 0), (c!"main", 1)] c!"a::f" = some 0 ∧
    resolveStart id [(c!"a::f::h01", 0), (c!"a::f::h02", 1)] c!"a::f" = none := by decide

/-- A demangled name that is `path` followed by a hash (`::h` and 16 hexadecimal digits). -/
def IsHashed (path s : Str) : Prop :=
  ∃ hash : Str, s = path ++ c!"::h" ++ hash ∧ hash.length = 16 ∧
    ∀ c ∈ hash, c ∈ c!"0123456789abcdef"

/-- **C66 is false**: `--start foo` can select a function that is not `foo` but a helper in a module
of that name. -/
theorem C66_wrong_start : ∃ (indices : List (Str × Nat)) (start : Str) (i : Nat),
    resolveStart id indices start = some i ∧
      ∀ key, (key, i) ∈ indices → key ≠ start ∧ ¬ IsHashed start key := by
  refine ⟨[(c!"foo::helper::h0123456789abcdef", 7)], c!"foo", 7, by decide, ?_⟩
  intro key hk
  simp only [List.mem_singleton, Prod.mk.injEq, and_true] at hk
  subst hk
  refine ⟨by decide, ?_⟩
  rintro ⟨hash, h1, h2, _⟩
  have := congrArg List.length h1
  simp [h2] at this

/-- **C66 (partial)** The selected function is the one asked for if no symbol demangles to something
that continues with `::h` after the start point without being a hash. What is missing: the case where
such a symbol exists, see `C66_wrong_start`. -/
theorem C66_start_is_named_partial (demangle : Str → Str) {indices : List (Str × Nat)}
    (hn : (indices.map (·.1)).Nodup) (start : Str) (i : Nat)
    (hh : ∀ key j, (key, j) ∈ indices → (start ++ c!"::h") <+: demangle key →
      IsHashed start (demangle key))
    (h : resolveStart demangle indices start = some i) :
    ∃ key, (key, i) ∈ indices ∧ (key = start ∨ IsHashed start (demangle key)) := by
  rcases (C16_start_resolution demangle hn start i).mp h with h | ⟨_, key, h1, h2, _⟩
  · exact ⟨start, h, .inl rfl⟩
  · exact ⟨key, h1, .inr (hh key i h1 h2)⟩

/-- **C66** Exactly when the function that was asked for by its path is selected: if the start point is no symbol,
and `key` is the symbol whose path it is, the latter is selected if and only if no other symbol continues with
`::h` after the start point. -/
theorem C66_selected_iff (demangle : Str → Str) {indices : List (Str × Nat)}
    (hn : (indices.map (·.1)).Nodup) {start key : Str} {i : Nat} (hno : ∀ j, (start, j) ∉ indices)
    (hkey : (key, i) ∈ indices) (hh : IsHashed start (demangle key)) :
    resolveStart demangle indices start = some i ↔
      ∀ key' j, (key', j) ∈ indices → (start ++ c!"::h") <+: demangle key' → key' = key := by
  have hpre : (start ++ c!"::h") <+: demangle key := by
    obtain ⟨hash, h, _⟩ := hh
    exact ⟨hash, h.symm⟩
  constructor
  · intro h key' j' h1 h2
    rcases (C16_start_resolution demangle hn start i).mp h with h | ⟨_, k, _, _, h3⟩
    · exact absurd h (hno i)
    · rw [h3 key' j' h1 h2, h3 key i hkey hpre]
  · intro h
    exact (C16_start_resolution demangle hn start i).mpr
      (.inr ⟨hno, key, hkey, hpre, fun k j h1 h2 => h k j h1 h2⟩)

/-- **C66** So a helper in a module of the same name hides the function: `--start foo` selects nothing though there
is exactly one function `foo`. -/
theorem C66_hidden : ∃ (indices : List (Str × Nat)) (start : Str) (key : Str) (i : Nat),
    (key, i) ∈ indices ∧ IsHashed start key ∧ (∀ key' j, (key', j) ∈ indices → IsHashed start key' → key' = key) ∧
      resolveStart id indices start = none := by
  refine ⟨[(c!"foo::helper::h0123456789abcdef", 7), (c!"foo::h0123456789abcdef", 8)], c!"foo",
    c!"foo::h0123456789abcdef", 8, by simp, ⟨c!"0123456789abcdef", rfl, rfl, by simp⟩, ?_, by decide⟩
  intro key' j hk
  simp only [List.mem_cons, Prod.mk.injEq, List.not_mem_nil, or_false] at hk
  rcases hk with ⟨rfl, _⟩ | ⟨rfl, _⟩
  · rintro ⟨hash, h1, h2, _⟩
    have := congrArg List.length h1
    simp [h2] at this
  · exact fun _ => rfl

end CallStack
