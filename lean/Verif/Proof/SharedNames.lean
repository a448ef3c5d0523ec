import Verif.Proof.Shared
import Verif.Proof.LogShown

/-! The names of the nodes and start points, for programs in which several functions may have the same names. -/

namespace CallStack

/-! ### The names that have a node -/

def HasKey (st : Build) (n : Str) : Prop := mget n st.indices ≠ none

/-- The statement asks for a node of this name. -/
def AddsKey (thumb : Bool) (aliases : List (Str × Str)) (s : Stmt) (n : Str) : Prop :=
  s = .bitcastCall (some n) ∨
  (s = .directCall n ∧ classify thumb n = .plain ∧ mget n aliases = none ∧ n ∉ symbollessIntrinsics)

theorem HasKey.getOrAdd (st : Build) (name n : Str) :
    (st.getOrAddNode name).1.aliases = st.aliases ∧
      (HasKey (st.getOrAddNode name).1 n ↔ HasKey st n ∨ n = name) := by
  unfold Build.getOrAddNode HasKey
  cases hm : mget name st.indices with
  | some k =>
    refine ⟨rfl, ⟨.inl, ?_⟩⟩
    rintro (h | rfl)
    · exact h
    · simp [hm]
  | none =>
    simp only [Graph.addNode, mget_mset, true_and]
    split
    · rename_i h
      simp [h]
    · rename_i h
      simp only [eq_comm, h, or_false] at h ⊢

theorem HasKey.stmt {p : Program} {c : Str} {i : Nat} {st st' : Build} {s : Stmt}
    (h : stmtStep p c i st s = .ok st') :
    st'.aliases = st.aliases ∧ ∀ n, HasKey st' n ↔ HasKey st n ∨ AddsKey p.target.isThumb st.aliases s n := by
  have none_ : st'.aliases = st.aliases → st'.indices = st.indices →
      (∀ n, HasKey st n ∨ ¬ AddsKey p.target.isThumb st.aliases s n) →
      st'.aliases = st.aliases ∧ ∀ n, HasKey st' n ↔ HasKey st n ∨ AddsKey p.target.isThumb st.aliases s n := by
    intro h1 h2 h3
    refine ⟨h1, fun n => ?_⟩
    have : HasKey st' n ↔ HasKey st n := by unfold HasKey; rw [h2]
    rw [this]
    exact ⟨.inl, fun h => h.elim id fun h => (h3 n).elim id fun h' => absurd h h'⟩
  unfold stmtStep at h
  split at h
  · cases h
    exact none_ rfl rfl fun n => .inr (by rintro (h | ⟨h, _⟩) <;> cases h)
  · cases h
  · rename_i sym
    have he := Except.ok.inj h
    subst he
    have := HasKey.getOrAdd st sym
    refine ⟨(this sym).1, fun n => (this n).2.trans ?_⟩
    unfold AddsKey
    simp [eq_comm]
  · rename_i func
    split at h
    · rename_i hk
      cases h
      refine none_ rfl rfl fun n => .inr ?_
      rintro (h | ⟨h, hp, _⟩)
      · cases h
      · cases h
        rw [hk] at hp
        cases hp
    · rename_i rs hk
      cases h
      obtain ⟨_, h2, _, _, h1, _⟩ := callRoutines_frame i rs st
      refine none_ h1 h2 fun n => .inr ?_
      rintro (h | ⟨h, hp, _⟩)
      · cases h
      · cases h
        rw [hk] at hp
        cases hp
    · cases h
    · rename_i hk
      unfold plainCall at h
      split at h
      · rename_i hm
        cases h
        refine none_ rfl rfl fun n => .inr ?_
        rintro (h | ⟨h, _, _, hs⟩)
        · cases h
        · cases h
          simp only [Bool.and_eq_true, List.contains_iff_mem] at hm
          exact hs hm.1
      · rename_i hm
        split at h
        · rename_i canon hcan
          split at h
          · rename_i callee hcallee
            cases h
            obtain ⟨_, f2, _, _, f5, _⟩ := call_frame st i callee
            refine none_ f5 f2 fun n => .inr ?_
            rintro (h | ⟨h, _, ha, _⟩)
            · cases h
            · cases h
              rw [hcan] at ha
              cases ha
          · cases h
        · rename_i hnone
          split at h
          · have he := Except.ok.inj h
            change (st.getOrAddNode func).1.call i (st.getOrAddNode func).2 = st' at he
            subst he
            obtain ⟨_, f2, _, _, f5, _⟩ := call_frame (st.getOrAddNode func).1 i (st.getOrAddNode func).2
            have := HasKey.getOrAdd st func
            refine ⟨f5.trans (this func).1, fun n => ?_⟩
            have hk' : HasKey ((st.getOrAddNode func).1.call i (st.getOrAddNode func).2) n ↔
                HasKey (st.getOrAddNode func).1 n := by unfold HasKey; rw [f2]
            rw [hk', (this n).2]
            simp only [Bool.and_eq_true, List.contains_iff_mem, Option.isNone_iff_eq_none, not_and] at hm
            constructor
            · rintro (h | rfl)
              · exact .inl h
              · by_cases hs : n ∈ symbollessIntrinsics
                · exact .inl (hm hs)
                · exact .inr (.inr ⟨rfl, hk, hnone, hs⟩)
            · rintro (h | h | ⟨h, _⟩)
              · exact .inl h
              · cases h
              · cases h
                exact .inr rfl
          · cases h
  · cases h
    exact none_ rfl rfl fun n => .inr (by rintro (h | ⟨h, _⟩) <;> cases h)
  all_goals
    cases h
    exact none_ rfl rfl fun n => .inr (by rintro (h | ⟨h, _⟩) <;> cases h)

theorem HasKey.stmts {p : Program} {c : Str} {i : Nat} (ss : List Stmt) : ∀ {st st' : Build},
    stmtsPass p c i st ss = .ok st' →
    st'.aliases = st.aliases ∧
      ∀ n, HasKey st' n ↔ HasKey st n ∨ ∃ s ∈ ss, AddsKey p.target.isThumb st.aliases s n := by
  induction ss with
  | nil =>
    intro st st' h
    cases h
    simp
  | cons s ss ih =>
    intro st st' h
    simp only [stmtsPass] at h
    split at h
    · cases h
    · rename_i st1 h1
      obtain ⟨a1, a2⟩ := HasKey.stmt h1
      obtain ⟨b1, b2⟩ := ih h
      refine ⟨b1.trans a1, fun n => ?_⟩
      rw [b2, a2, a1, or_assoc]
      simp

theorem HasKey.defines {p : Program} (ds : List Define) : ∀ {st st' : Build}, definePass p st ds = .ok st' →
    st'.aliases = st.aliases ∧ ∀ n, HasKey st' n ↔ HasKey st n ∨
      ∃ d ∈ ds, mget d.name st.aliases ≠ none ∧ ∃ s ∈ d.stmts, AddsKey p.target.isThumb st.aliases s n := by
  induction ds with
  | nil =>
    intro st st' h
    cases h
    simp
  | cons d ds ih =>
    intro st st' h
    simp only [definePass] at h
    split at h
    · cases h
    · rename_i st1 h1
      have key : st1.aliases = st.aliases ∧ ∀ n, HasKey st1 n ↔ HasKey st n ∨
          (mget d.name st.aliases ≠ none ∧ ∃ s ∈ d.stmts, AddsKey p.target.isThumb st.aliases s n) := by
        unfold defineStep at h1
        split at h1
        · rename_i hn
          cases h1
          simp [hn]
        · rename_i canonical hcn
          split at h1
          · cases h1
          · rename_i caller hcal
            obtain ⟨b1, b2⟩ := HasKey.stmts d.stmts h1
            refine ⟨b1, fun n => (b2 n).trans ?_⟩
            simp only [hcn, ne_eq, reduceCtorEq, not_false_eq_true, true_and]
            exact Iff.rfl
      obtain ⟨b1, b2⟩ := ih h
      refine ⟨b1.trans key.1, fun n => ?_⟩
      rw [b2, key.2, key.1, or_assoc]
      simp only [List.mem_cons, exists_eq_or_imp]

section

variable {demangle : Str → Str} {ord : HashOrder} {search : TagSearch} {p : Program} {elf : Elf}
  {cs : List Str} {st0 stIr st : Build} {g : Graph}

theorem SharedFacts.indices_nodup (f : SharedFacts demangle ord search p elf cs st0 stIr st g) :
    (st.indices.map (·.1)).Nodup := by
  rw [f.machine.indices]
  exact definePass_nodup _ f.definesOk (symPass_nodup _ f.symOk (by simp [Build.empty]))

theorem SharedFacts.ambiguous (f : SharedFacts demangle ord search p elf cs st0 stIr st g) :
    st.ambiguous = ambiguousOf demangle cs := by
  rw [f.machine.ambiguous, f.ir.ambiguous, f.sym.ambiguous]

theorem SharedFacts.principal (f : SharedFacts demangle ord search p elf cs st0 stIr st g) {n : Str} {j : Nat} :
    p.Principal j n ↔ cs[j]? = some n := by
  constructor
  · intro hp
    obtain ⟨a, s, _, _, he, _⟩ := id hp
    obtain ⟨c, hc⟩ := f.sym.idx_lt he
    rw [(principal_iff he (f.sym.canon j _ c he hc) n).mp hp, hc]
  · intro hc
    have he := List.getElem?_eq_getElem (f.sym.len ▸ (List.getElem?_eq_some_iff.mp hc).1 : j < p.defined.length)
    exact (principal_iff he (f.sym.canon j _ n he hc) n).mpr rfl

/-- The later passes leave the nodes of functions alone, except for their local usage. -/
theorem SharedFacts.node (f : SharedFacts demangle ord search p elf cs st0 stIr st g) {k : Nat} {nd0 : Node}
    (h : stIr.g.nodes[k]? = some nd0) :
    ∃ nd, g.nodes[k]? = some nd ∧ nd.name = nd0.name ∧ nd.dashed = nd0.dashed ∧ nd.max = nd0.max := by
  obtain ⟨nd1, nd, h1, h2, h3⟩ := f.machine.old k (List.getElem?_eq_some_iff.mp h).1
  obtain ⟨ns, hn⟩ := f.out.nodes
  rw [h] at h1
  cases h1
  refine ⟨nd, ?_, by rw [h3], by rw [h3], by rw [h3]⟩
  rw [hn, List.getElem?_append_left (List.getElem?_eq_some_iff.mp h2).1]
  exact h2

theorem SharedFacts.live_node (f : SharedFacts demangle ord search p elf cs st0 stIr st g) {i : Nat} {c : Str}
    (h : cs[i]? = some c) : ∃ nd, g.nodes[i]? = some nd ∧ nd.name = c ∧ nd.dashed = false ∧ nd.max = none := by
  refine f.node (nd0 := mkNode c (mget c p.stackSizes) false) ?_
  obtain ⟨ext, he⟩ := f.ir.nodes
  have hlt := (List.getElem?_eq_some_iff.mp h).1
  rw [he, f.sym.nodes, List.getElem?_append_left (by simpa using hlt), List.getElem?_map, h]
  rfl

theorem SharedFacts.index (f : SharedFacts demangle ord search p elf cs st0 stIr st g) {n : Str} {k : Nat}
    (h : mget n st.indices = some k) : ∃ nd, g.nodes[k]? = some nd ∧ nd.name = n := by
  rw [f.machine.indices] at h
  obtain ⟨nd0, h1, h2⟩ := f.ir.named n k h
  obtain ⟨nd, h3, h4, _⟩ := f.node h1
  exact ⟨nd, h3, h4.trans h2⟩

theorem SharedFacts.info_iff (f : SharedFacts demangle ord search p elf cs st0 stIr st g) :
    st.hasStackUsageInfo = true ↔ ∃ i k, p.Frame i k := by
  rw [f.machine.info, f.ir.info, f.sym.info]
  constructor
  · rintro ⟨c, hc, hs⟩
    obtain ⟨i, hi⟩ := List.getElem?_of_mem hc
    obtain ⟨k, hk⟩ := Option.isSome_iff_exists.mp hs
    have he := List.getElem?_eq_getElem (f.sym.len ▸ (List.getElem?_eq_some_iff.mp hi).1 : i < p.defined.length)
    exact ⟨i, k, (frame_iff he (f.sym.canon i _ c he hi) k).mpr hk⟩
  · rintro ⟨i, k, hk⟩
    obtain ⟨_, _, _, _, _, he, _⟩ := id hk
    obtain ⟨c, hc⟩ := f.sym.idx_lt he
    exact ⟨c, List.mem_of_getElem? hc, by rw [(frame_iff he (f.sym.canon i _ c he hc) k).mp hk]; rfl⟩

theorem SharedFacts.dead (f : SharedFacts demangle ord search p elf cs st0 stIr st g) (n : Str) :
    mget n st0.aliases = none ↔ p.NotLive n := f.sym.dead n

/-- The names that have a node are those under which functions are shown. -/
theorem SharedFacts.shown_iff (f : SharedFacts demangle ord search p elf cs st0 stIr st g) (n : Str) :
    n ∈ st.indices.map (·.1) ↔ p.Shown n := by
  have hkey : n ∈ st.indices.map (·.1) ↔ HasKey stIr n := by
    unfold HasKey
    rw [f.machine.indices]
    constructor
    · intro hm hno
      obtain ⟨e, he, rfl⟩ := List.mem_map.mp hm
      exact mget_none.mp hno e he rfl
    · intro hm
      obtain ⟨k, hk⟩ := Option.ne_none_iff_exists'.mp hm
      exact List.mem_map.mpr ⟨_, mget_mem hk, rfl⟩
  have hkey0 : HasKey st0 n ↔ ∃ j, p.Principal j n := by
    unfold HasKey
    constructor
    · intro hm
      obtain ⟨k, hk⟩ := Option.ne_none_iff_exists'.mp hm
      exact ⟨k, f.principal.mpr (f.sym.indices_some n k hk)⟩
    · rintro ⟨j, hj⟩
      exact f.sym.indices_ne n (List.mem_of_getElem? (f.principal.mp hj))
  have hlive : ∀ d : Define, mget d.name st0.aliases ≠ none ↔ ∃ i, p.LiveAt d.name i := by
    intro d
    rw [ne_eq, f.dead]
    unfold Program.NotLive
    simp
  rw [hkey, (HasKey.defines p.defines f.definesOk).2, hkey0]
  unfold Program.Shown
  constructor
  · rintro (h | ⟨d, hd, hal, s, hs, h⟩)
    · exact .inl h
    · obtain ⟨i, hi⟩ := (hlive d).mp hal
      have hcon : p.Contains i s := ⟨d, hd, hi, hs⟩
      by_cases hp : ∃ j, p.Principal j n
      · exact .inl hp
      · right
        rcases h with rfl | ⟨rfl, h2, h3, h4⟩
        · exact .inl ⟨⟨i, hcon⟩, not_exists.mp hp⟩
        · refine .inr ⟨⟨i, hcon⟩, classify_plain.mp h2, (f.dead n).mp h3, ?_⟩
          rintro rfl
          exact h4 (by simp [symbollessIntrinsics])
  · rintro (h | ⟨⟨i, d, hd, hi, hs⟩, _⟩ | ⟨⟨i, d, hd, hi, hs⟩, h2, h3, h4⟩)
    · exact .inl h
    · exact .inr ⟨d, hd, (hlive d).mpr ⟨i, hi⟩, _, hs, .inl rfl⟩
    · refine .inr ⟨d, hd, (hlive d).mpr ⟨i, hi⟩, _, hs,
        .inr ⟨rfl, classify_plain.mpr h2, (f.dead n).mpr h3, ?_⟩⟩
      intro h5
      exact h4 (by simpa [symbollessIntrinsics] using h5)

end

end CallStack
