import Verif.Proof.SharedIr
import Verif.Props.Shared
import Verif.Props.IrExec

/-!
Property C117: executions at the level of the LLVM-IR, on targets without machine code analysis, of programs in which
functions may have the same names. Unlike C104, names need not be unique.
-/

namespace CallStack

variable {demangle : Str → Str} {ord : HashOrder} {search : TagSearch} {p : Program} {elf : Elf}

/-- A call of the program is a path between the last functions of the names, or the caller has an edge to a node with
unknown usage. -/
theorem shared_path {cs : List Str} {st0 stIr st : Build} {g : Graph}
    (f : SharedFacts demangle ord search p elf cs st0 stIr st g) (alike : p.NamesAlike)
    (other : p.target.isThumb = false) (declares : p.DeclaresOnce) {i j : Nat}
    (hd : ¬ p.Dropped i j) (hm : ¬ p.DroppedMemory i j) (hc : p.RunsInto i j) :
    (∃ a b, p.LastOf i a ∧ p.LastOf j b ∧ g.Path a b) ∨
      ∃ a k, p.LastOf i a ∧ g.Calls a k ∧ g.locOf k = .unknown := by
  cases hc with
  | direct h1 h2 h3 => exact .inl (f.call alike declares hd (.inl ⟨_, h1, h2, h3⟩))
  | pointer h1 => exact .inl (f.call alike declares hd (.inr h1))
  | @bitcast n h1 h2 =>
    obtain ⟨a, k, h3, h4, ⟨j', b, s, h5, h6, h7⟩ | h5⟩ := f.bitcast alike h1
    · left
      refine ⟨a, k, h3, ?_, .inl h4⟩
      obtain ⟨b', s', h8, h9⟩ := h2
      have hnames := alike j j' b' s' b s n h8 h5 h9 h6
      obtain ⟨_, _, c, t, e1, e2, e3, e4⟩ := h7
      rw [h5] at e1
      cases e1
      exact ⟨b', s', c, t, h8, e2, by rw [e3, hnames], fun k c u hk hu => by rw [hnames]; exact e4 k c u hk hu⟩
    · exact .inr ⟨a, k, h3, h4, h5⟩
  | @memory n r h1 h2 h3 =>
    by_cases h6 : ∃ r', p.Principal j r' ∧ ((c!"llvm.memcpy." <+: n ∧ r' ∈ CopyRoutines) ∨
      ((c!"llvm.memset." <+: n ∨ c!"llvm.memmove." <+: n) ∧ r' ∈ FillRoutines))
    · obtain ⟨r', h4, h5⟩ := h6
      obtain ⟨a, b, h7, h8, h9⟩ := f.memory alike other h1 h4 h5
      exact .inl ⟨a, b, h7, h8, .inl h9⟩
    · exact absurd ⟨n, r, h1, h2, h3, fun r' h4 => ⟨fun h5 => h6 ⟨r', h4, .inl h5⟩,
        fun h5 => h6 ⟨r', h4, .inr h5⟩⟩⟩ hm

/-- The last function of the names of each function. -/
theorem last_exists {cs : List Str} {st0 stIr st : Build} {g : Graph}
    (f : SharedFacts demangle ord search p elf cs st0 stIr st g) (alike : p.NamesAlike) :
    ∃ L : Nat → Nat, (∀ {j a}, p.LastOf j a → L j = a) ∧ ∀ {j}, j < p.defined.length → p.LastOf j (L j) := by
  classical
  let L : Nat → Nat := fun j => if h : ∃ a, p.LastOf j a then h.choose else 0
  have hL : ∀ {j a}, p.LastOf j a → L j = a := by
    intro j a hj
    have hex : ∃ a, p.LastOf j a := ⟨a, hj⟩
    have : L j = hex.choose := dif_pos hex
    rw [this]
    exact Program.LastOf.unique hex.choose_spec hj
  refine ⟨L, hL, ?_⟩
  intro j hj
  have he := List.getElem?_eq_getElem hj
  obtain ⟨c, hc, _⟩ := f.canon_at he
  obtain ⟨a, _, ha⟩ := f.lookup alike he hc
  rw [hL ha]
  exact ha

/-- What an exact max says of the functions on a chain. -/
theorem path_exact {cs : List Str} {st0 stIr st : Build} {g g' : Graph} {cycles : List (List Nat)}
    (f : SharedFacts demangle ord search p elf cs st0 stIr st g) (sizes : p.SizesU64) (fits : elf.Fits32)
    (h2 : FinalFacts st.hasStackUsageInfo g g' cycles) {m n : Nat} (hmax : g'.maxOf? m = some (.exact n))
    {l : List Nat} (hl : CallChain g.Path m l) : (∀ u ∈ l, (g.locOf u).Known) ∧ weight g.locOf l ≤ n := by
  obtain ⟨l', h3, h4, h5⟩ := chain_path (g := g) id hl
  obtain ⟨h6, h7⟩ := f.exact sizes fits h2 hmax h3
  exact ⟨fun u hu => h6 u (h4 u hu), by omega⟩

/-- The active functions lie on a chain of the graph, each at the last function of its names. -/
theorem shared_stacked {cs : List Str} {st0 stIr st : Build} {g g' : Graph} {cycles : List (List Nat)}
    (f : SharedFacts demangle ord search p elf cs st0 stIr st g) (alike : p.NamesAlike)
    (other : p.target.isThumb = false) (declares : p.DeclaresOnce) (sizes : p.SizesU64) (fits : elf.Fits32)
    (h2 : FinalFacts st.hasStackUsageInfo g g' cycles) {L : Nat → Nat} (hL : ∀ {j a}, p.LastOf j a → L j = a)
    {i m n : Nat} (hm : p.LastOf i m)
    (keeps : ∀ a b, Reach p.RunsInto i a → ¬ p.Dropped a b ∧ ¬ p.DroppedMemory a b)
    (hmax : g'.maxOf? m = some (.exact n)) {acts : List Nat} (he : IrExecution p i acts) :
    Stacked g.Path m (acts.map L) ∧ ∀ j ∈ acts, j < p.defined.length := by
  induction he with
  | entry =>
    refine ⟨?_, ?_⟩
    · rw [List.map_singleton, hL hm]
      exact .entry m
    · obtain ⟨_, _, _, _, e1, _⟩ := hm
      simpa using (List.getElem?_eq_some_iff.mp e1).1
  | @step acts acts' hex hs ih =>
    obtain ⟨ih, hlt⟩ := ih
    have path : ∀ {a b rest}, acts = a :: rest → p.RunsInto a b → g.Path (L a) (L b) := by
      rintro a b rest rfl hr
      have hk := keeps a b (hex.reach a List.mem_cons_self)
      rcases shared_path f alike other declares hk.1 hk.2 hr with ⟨x, y, h3, h4, h5⟩ | ⟨x, k, h3, h4, h5⟩
      · rw [hL h3, hL h4]
        exact h5
      · exfalso
        rw [List.map_cons, hL h3] at ih
        rcases ih.call (b := k) (Or.inl h4) with h6 | ⟨a', rest', l, h6, h7, h8, h9⟩
        · simp at h6
        · simp only [List.cons.injEq] at h6
          obtain ⟨rfl, rfl⟩ := h6
          have := (path_exact f sizes fits h2 hmax (chain_of_stacked h8 h9)).1 k (by simp)
          rw [h5] at this
          exact this
    cases hs with
    | call hr =>
      refine ⟨?_, ?_⟩
      · rw [List.map_cons] at ih
        rw [List.map_cons, List.map_cons]
        exact ih.call (path rfl hr)
      · intro j hj
        rcases List.mem_cons.mp hj with rfl | hj
        · exact RunsInto.lt hr
        · exact hlt j hj
    | tail hr =>
      refine ⟨?_, ?_⟩
      · rw [List.map_cons] at ih
        rw [List.map_cons]
        exact ih.tail (path rfl hr)
      · intro j hj
        rcases List.mem_cons.mp hj with rfl | hj
        · exact RunsInto.lt hr
        · exact hlt j (List.mem_cons_of_mem _ hj)
    | ret =>
      rw [List.map_cons] at ih
      exact ⟨ih.ret, fun j hj => hlt j (List.mem_cons_of_mem _ hj)⟩

/-- **C117** On a target without machine code analysis, for every program: if the tool prints `max = n` for the last
function with the names of `i`, then whenever a call of `i` is executed, the sizes that the compiler reports for the
active functions are known and sum to at most `n`; or else a function that can be reached from `i` has a call of one of
the kinds that may be dropped. -/
theorem C117_reasons {g' : Graph} {cycles : List (List Nat)} (other : p.target = .other) (alike : p.NamesAlike)
    (declares : p.DeclaresOnce) (sizes : p.SizesU64)
    (h : finalGraph demangle ord search p elf none = .ok (g', cycles)) {i m n : Nat} (hm : p.LastOf i m)
    (hmax : g'.maxOf? m = some (.exact n)) {acts : List Nat} (he : IrExecution p i acts) :
    (∃ frames, List.Forall₂ p.Frame acts frames ∧ frames.sum ≤ n) ∨
    ∃ a b, Reach p.RunsInto i a ∧ (p.Dropped a b ∨ p.DroppedMemory a b) := by
  rw [or_iff_not_imp_right]
  intro hno
  simp only [not_exists, not_and, not_or] at hno
  have hother : p.target.isThumb = false := by rw [other]; rfl
  rw [finalGraph_other hother search search elf ⟨[], none⟩] at h
  have fits : (⟨[], none⟩ : Elf).Fits32 := by intro _ _ h; simp at h
  obtain ⟨st, g, h1, h2⟩ := finalGraph_facts h
  obtain ⟨cs, st0, stIr, f⟩ := callGraph_shared h1
  obtain ⟨L, hL, hlast⟩ := last_exists f alike
  obtain ⟨hs, hlt⟩ := shared_stacked f alike hother declares sizes fits h2 hL hm hno hmax he
  have key : (∀ j ∈ acts, (g.locOf (L j)).Known) ∧ weight g.locOf (acts.map L) ≤ n := by
    rcases hs with hnil | ⟨a, rest, l, heq, h5, h6, h7⟩
    · simp only [List.map_eq_nil_iff] at hnil
      subst hnil
      simp [weight]
    · obtain ⟨h8, h9⟩ := path_exact f sizes fits h2 hmax (chain_of_stacked h6 h7)
      have hsub : (acts.map L).Sublist (a :: l) := by rw [heq]; exact h5.cons_cons a
      refine ⟨fun j hj => h8 _ (by rw [List.mem_reverse]; exact hsub.subset (List.mem_map_of_mem hj)), le_trans ?_ h9⟩
      unfold weight
      rw [List.map_reverse (l := a :: l), List.sum_reverse]
      exact sublist_sum_le (hsub.map _)
  refine ⟨acts.map (fun j => (g.locOf (L j)).bytes), ?_, ?_⟩
  · rw [List.forall₂_map_right_iff]
    refine List.forall₂_same.mpr fun j hj => ?_
    have h5 := key.1 j hj
    cases hnl : g.locOf (L j) with
    | unknown => rw [hnl] at h5; exact h5.elim
    | exact k => exact (f.frames alike hother (hlast (hlt j hj)) k).mp hnl
  · have := key.2
    unfold weight at this
    rw [List.map_map] at this
    exact this

/-- **C117** On a target without machine code analysis: if the tool prints `max = n` for the last function with the
names of `i`, then whenever a call of `i` is executed, the sizes that the compiler reports for the active functions are
known and sum to at most `n`. Partial: the known cases of dropped calls are excluded, and functions that share a name
must share all of their names (`C117_bound_violated`). -/
theorem C117_executions_partial {g' : Graph} {cycles : List (List Nat)} (other : p.target = .other)
    (alike : p.NamesAlike) (declares : p.DeclaresOnce) (un : p.Unambiguous) (found : p.RoutinesFound)
    (sizes : p.SizesU64) (h : finalGraph demangle ord search p elf none = .ok (g', cycles)) {i m n : Nat}
    (hm : p.LastOf i m) (hmax : g'.maxOf? m = some (.exact n)) {acts : List Nat} (he : IrExecution p i acts) :
    ∃ frames, List.Forall₂ p.Frame acts frames ∧ frames.sum ≤ n := by
  rcases C117_reasons other alike declares sizes h hm hmax he with h1 | ⟨a, b, _, h1 | h1⟩
  · exact h1
  · exact absurd h1 (un.keeps a b)
  · exact absurd h1 (found.keeps a b)

/-- **C117** If the tool prints an exact maximum for the last function with the names of `i`, then no function that is
active during a call of `i` calls a function outside the executable (other than `memcmp`), or else a function that can
be reached from `i` has a call of one of the kinds that may be dropped. -/
theorem C117_closed {g' : Graph} {cycles : List (List Nat)} (other : p.target = .other) (alike : p.NamesAlike)
    (declares : p.DeclaresOnce) (sizes : p.SizesU64)
    (h : finalGraph demangle ord search p elf none = .ok (g', cycles)) {i m n : Nat} (hm : p.LastOf i m)
    (hmax : g'.maxOf? m = some (.exact n)) {acts : List Nat} (he : IrExecution p i acts) {j : Nat} (hj : j ∈ acts) :
    ¬ p.CallsOutside j ∨ ∃ a b, Reach p.RunsInto i a ∧ (p.Dropped a b ∨ p.DroppedMemory a b) := by
  rw [or_iff_not_imp_right]
  intro hno
  simp only [not_exists, not_and, not_or] at hno
  rintro ⟨n', hnl, hc⟩
  have hother : p.target.isThumb = false := by rw [other]; rfl
  rw [finalGraph_other hother search search elf ⟨[], none⟩] at h
  have fits : (⟨[], none⟩ : Elf).Fits32 := by intro _ _ h; simp at h
  obtain ⟨st, g, h1, h2⟩ := finalGraph_facts h
  obtain ⟨cs, st0, stIr, f⟩ := callGraph_shared h1
  obtain ⟨L, hL, hlast⟩ := last_exists f alike
  obtain ⟨pre, post, rfl⟩ := List.append_of_mem hj
  have hs := (shared_stacked f alike hother declares sizes fits h2 hL hm hno hmax he.outer).1
  have hk : ∃ a k, p.LastOf j a ∧ g.Calls a k ∧ g.locOf k = .unknown := by
    rcases hc with hc | ⟨hc, hf, hm⟩
    · obtain ⟨a, k, h3, h4, ⟨j', b, s, h5, h6, _⟩ | h5⟩ := f.bitcast alike hc
      · exact absurd ⟨b, s, h5, h6⟩ (hnl j')
      · exact ⟨a, k, h3, h4, h5⟩
    · exact f.outside alike hc hf hnl hm
  obtain ⟨a, k, h3, h4, h5⟩ := hk
  rw [List.map_cons, hL h3] at hs
  rcases hs.call (b := k) (Or.inl h4) with h6 | ⟨a', rest', l, h6, _, h7, h8⟩
  · simp at h6
  · simp only [List.cons.injEq] at h6
    obtain ⟨rfl, rfl⟩ := h6
    have := (path_exact f sizes fits h2 hmax (chain_of_stacked h7 h8)).1 k (by simp)
    rw [h5] at this
    exact this

/-! ### Examples -/

/-- `main` calls one of two functions of the same name and type, which call `leaf` in tail position. -/
def exIrTwins : Program :=
  { target := .other
    defined := [(8, ⟨[c!"main"], 4⟩), (16, ⟨[c!"helper"], 8⟩), (24, ⟨[c!"helper"], 8⟩), (32, ⟨[c!"leaf"], 8⟩)]
    undefined := []
    stackSizes := [(c!"main", 8), (c!"helper", 16), (c!"leaf", 24)]
    defines := [⟨c!"main", exSig, [.directCall c!"helper"]⟩, ⟨c!"helper", exBinSig, [.directCall c!"leaf"]⟩,
      ⟨c!"leaf", exPtrSig, []⟩]
    declares := [] }

theorem exIrTwins_live {n : Str} {j : Nat} (h : exIrTwins.LiveAt n j) :
    (j = 0 ∧ n = c!"main") ∨ (j = 1 ∧ n = c!"helper") ∨ (j = 2 ∧ n = c!"helper") ∨ (j = 3 ∧ n = c!"leaf") := by
  obtain ⟨a, s, h1, h2, _⟩ := h
  have hlt : j < 4 := (List.getElem?_eq_some_iff.mp h1).1
  match j, hlt with
  | 0, _ | 1, _ | 2, _ | 3, _ =>
    simp only [exIrTwins, List.getElem?_cons_succ, List.getElem?_cons_zero, Option.some.injEq, Prod.mk.injEq] at h1
    obtain ⟨_, rfl⟩ := h1
    simpa using h2

/-- The hypotheses are met, names are not unique, there are executions by way of each of the two functions, and the
tool prints `max = 48` for `main`. -/
example : exIrTwins.NamesAlike ∧ ¬ exIrTwins.NamesOnce ∧ exIrTwins.DeclaresOnce ∧ exIrTwins.Unambiguous ∧
    exIrTwins.RoutinesFound ∧ exIrTwins.SizesU64 ∧ exIrTwins.LastOf 0 0 ∧ exIrTwins.LastOf 1 2 ∧
    IrExecution exIrTwins 0 [1, 0] ∧ IrExecution exIrTwins 0 [3, 2, 0] ∧
    ∀ search, ∃ g' cycles, finalGraph id sameOrder search exIrTwins ⟨[], none⟩ none = .ok (g', cycles) ∧
      g'.maxOf? 0 = some (.exact 48) := by
  have hdef : ∀ {j s}, exIrTwins.DefinedSig j s →
      (j = 0 ∧ s = exSig) ∨ (j = 1 ∧ s = exBinSig) ∨ (j = 2 ∧ s = exBinSig) ∨ (j = 3 ∧ s = exPtrSig) := by
    rintro j s ⟨d, h1, h2, h3⟩
    simp only [exIrTwins, List.mem_cons, List.not_mem_nil, or_false] at h1
    have := exIrTwins_live h2
    rcases h1 with rfl | rfl | rfl <;> subst h3 <;> simp at this <;> simp [this]
    omega
  have hdec : ∀ {j s}, ¬ exIrTwins.DeclaredSig j s := by
    rintro j s ⟨d, h1, h2, h3⟩
    simp [exIrTwins] at h1
  have hh : ¬ IsIntrinsic c!"helper" := by rw [← classify_plain (t := false)]; rfl
  have hg : ¬ IsIntrinsic c!"leaf" := by rw [← classify_plain (t := false)]; rfl
  have c0 : exIrTwins.Contains 0 (.directCall c!"helper") :=
    ⟨_, List.mem_cons_self, mem_live rfl List.mem_cons_self rfl, by simp⟩
  have h1 : exIrTwins.RunsInto 0 1 := .direct c0 hh (mem_live rfl List.mem_cons_self rfl)
  have h2 : exIrTwins.RunsInto 0 2 := .direct c0 hh (mem_live rfl List.mem_cons_self rfl)
  have h3 : exIrTwins.RunsInto 2 3 := .direct (f := c!"leaf")
    ⟨_, List.mem_cons_of_mem _ List.mem_cons_self, mem_live rfl List.mem_cons_self rfl, by simp⟩ hg
    (mem_live rfl List.mem_cons_self rfl)
  refine ⟨?_, ?_, by unfold Program.DeclaresOnce; decide, ⟨?_, ?_, ?_, ?_⟩, ?_, ?_, ?_, ?_,
    .step .entry (.call h1), .step (.step .entry (.call h2)) (.call h3), ?_⟩
  · intro i j a s b t n hi hj hs ht
    obtain ⟨hi', e1⟩ := List.getElem?_eq_some_iff.mp hi
    obtain ⟨hj', e2⟩ := List.getElem?_eq_some_iff.mp hj
    have l1 := exIrTwins_live ⟨a, s, hi, hs⟩
    have l2 := exIrTwins_live ⟨b, t, hj, ht⟩
    rcases l1 with ⟨rfl, rfl⟩ | ⟨rfl, rfl⟩ | ⟨rfl, rfl⟩ | ⟨rfl, rfl⟩ <;>
      rcases l2 with ⟨rfl, l2⟩ | ⟨rfl, l2⟩ | ⟨rfl, l2⟩ | ⟨rfl, l2⟩ <;>
        first
          | (exact absurd l2 (by decide))
          | (cases hi; cases hj; rfl)
  · intro h
    have := h c!"helper" 1 2 (mem_live rfl List.mem_cons_self rfl) (mem_live rfl List.mem_cons_self rfl)
    omega
  · intro j h
    have := exIrTwins_live h
    simp at this
  · intro j s s' h1 h2
    have h1 := hdef h1
    have h2 := hdef h2
    rcases h1 with ⟨rfl, rfl⟩ | ⟨rfl, rfl⟩ | ⟨rfl, rfl⟩ | ⟨rfl, rfl⟩ <;> simp at h2 <;> exact h2.symm
  · intro j s s' _ h1 h2
    exact absurd h1 hdec
  · intro j s _ h1
    exact absurd h1 hdec
  · rintro i f r j ⟨d, hd, _, hs⟩ hr hl
    exfalso
    simp only [exIrTwins, List.mem_cons, List.not_mem_nil, or_false] at hd
    rcases hd with rfl | rfl | rfl
    · simp only [List.mem_cons, Stmt.directCall.injEq, List.not_mem_nil, or_false] at hs
      subst hs
      rcases hr with ⟨⟨t, ht⟩, _⟩ | ⟨⟨t, ht⟩, _⟩ | ⟨⟨t, ht⟩, _⟩ <;> simp at ht
    · simp only [List.mem_cons, Stmt.directCall.injEq, List.not_mem_nil, or_false] at hs
      subst hs
      rcases hr with ⟨⟨t, ht⟩, _⟩ | ⟨⟨t, ht⟩, _⟩ | ⟨⟨t, ht⟩, _⟩ <;> simp at ht
    · simp at hs
  · intro n k hk
    have := mget_mem hk
    simp only [exIrTwins, List.mem_cons, List.not_mem_nil, or_false, Prod.mk.injEq] at this
    omega
  · refine ⟨_, _, _, _, rfl, rfl, rfl, ?_⟩
    intro k c u hk hu
    match k, hk, (List.getElem?_eq_some_iff.mp hu).1 with
    | 1, _, _ | 2, _, _ | 3, _, _ => cases hu; decide
  · refine ⟨_, _, _, _, rfl, rfl, rfl, ?_⟩
    intro k c u hk hu
    match k, hk, (List.getElem?_eq_some_iff.mp hu).1 with
    | 3, _, _ => cases hu; decide
  · intro search
    exact finalGraph_eval rfl search _ none (fun g _ => g.maxOf? 0 = _) (by decide +kernel)

/-- `main` calls `helper`. There are two such functions; the first has a second name. -/
def exUnlike : Program :=
  { target := .other
    defined := [(8, ⟨[c!"main"], 4⟩), (16, ⟨[c!"big", c!"helper"], 8⟩), (24, ⟨[c!"helper"], 8⟩)]
    undefined := []
    stackSizes := [(c!"main", 8), (c!"big", 64), (c!"helper", 8)]
    defines := [⟨c!"main", exSig, [.directCall c!"helper"]⟩, ⟨c!"helper", exBinSig, []⟩]
    declares := [] }

/-- **C117** is false for functions that share some of their names only: the tool prints `max = 16` for `main`, but 72
bytes are used if `main` calls the first `helper`. -/
theorem C117_bound_violated (search : TagSearch) :
    exUnlike.LastOf 0 0 ∧ ¬ exUnlike.NamesAlike ∧ IrExecution exUnlike 0 [1, 0] ∧
      List.Forall₂ exUnlike.Frame [1, 0] [64, 8] ∧
      ∃ g' cycles, finalGraph id sameOrder search exUnlike ⟨[], none⟩ none = .ok (g', cycles) ∧
        g'.maxOf? 0 = some (.exact 16) := by
  have hh : ¬ IsIntrinsic c!"helper" := by rw [← classify_plain (t := false)]; rfl
  refine ⟨⟨_, _, _, _, rfl, rfl, rfl, ?_⟩, ?_, .step .entry (.call (.direct (f := c!"helper")
    ⟨_, List.mem_cons_self, mem_live rfl List.mem_cons_self rfl, by simp⟩ hh (mem_live rfl (by simp) rfl))), ?_,
    finalGraph_eval rfl search _ none (fun g _ => g.maxOf? 0 = _) (by decide +kernel)⟩
  · intro k c u hk hu
    match k, hk, (List.getElem?_eq_some_iff.mp hu).1 with
    | 1, _, _ | 2, _, _ => cases hu; decide
  · intro h
    have hn : ¬ IsMappingSymbol c!"helper" := by rw [← isTag_iff]; decide
    have := h 1 2 16 _ 24 _ c!"helper" rfl rfl ⟨by simp, hn⟩ ⟨by simp, hn⟩
    revert this
    decide
  · refine .cons ⟨16, _, [], c!"big", [c!"helper"], rfl, rfl, ?_, rfl, by simp⟩
      (.cons ⟨8, _, [], c!"main", [], rfl, rfl, ?_, rfl, by simp⟩ .nil)
    · rw [← isTag_iff]; decide
    · rw [← isTag_iff]; decide

end CallStack
