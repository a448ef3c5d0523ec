import Verif.Proof.SharedAbort
import Verif.Proof.SharedEdges
import Verif.Proof.Order
import Verif.Spec.AnyEdges

/-! Lemmas for C125: exactly which edges the LLVM-IR gives, whatever the names of the functions. -/

namespace CallStack

/-! ### The pass over the symbols: the last function with a name -/

theorem symPass_alias {demangle : Str → Str} {p : Program} (es : List (Nat × Sym)) : ∀ {st st' : Build},
    symPass demangle p st es = .ok st' → ∀ n c : Str, mget n st'.aliases = some c →
      (∃ (j : Nat) (e : Nat × Sym), es[j]? = some e ∧ n ∈ realNames e.2 ∧ canonicalOf p.stackSizes (realNames e.2) = .ok c ∧
        ∀ (k : Nat) (e' : Nat × Sym), j < k → es[k]? = some e' → n ∉ realNames e'.2) ∨
      ((∀ e ∈ es, n ∉ realNames e.2) ∧ mget n st.aliases = some c) := by
  induction es with
  | nil =>
    intro st st' h n c hc
    simp only [symPass, Except.ok.injEq] at h
    exact .inr ⟨by simp, h ▸ hc⟩
  | cons e es ih =>
    intro st st' h n c hc
    simp only [symPass] at h
    split at h
    · cases h
    · rename_i st1 h1
      rcases ih h n c hc with ⟨j, e', k1, k2, k3, k4⟩ | ⟨k1, k2⟩
      · refine .inl ⟨j + 1, e', by simpa using k1, k2, k3, fun k e'' hk he => ?_⟩
        obtain ⟨k, rfl⟩ : ∃ k', k = k' + 1 := ⟨k - 1, by omega⟩
        exact k4 k e'' (by omega) (by simpa using he)
      · unfold symStep at h1
        simp only at h1
        split at h1
        · cases h1
        · rename_i canonical hcan
          simp only [Except.ok.injEq] at h1
          subst h1
          rw [(registerType_frame _ _ _ _ _).2.2.1] at k2
          simp only [aliases_fold] at k2
          split at k2
          · rename_i hm
            cases k2
            refine .inl ⟨0, e, rfl, hm, hcan, fun k e' hk he => ?_⟩
            obtain ⟨k, rfl⟩ : ∃ k', k = k' + 1 := ⟨k - 1, by omega⟩
            exact k1 e' (List.mem_of_getElem? (by simpa using he))
          · rename_i hm
            refine .inr ⟨fun e' he => ?_, k2⟩
            rcases List.mem_cons.mp he with rfl | he
            · exact hm
            · exact k1 e' he

/-! ### One statement -/

/-- The statement adds an edge to the node of the name `n`, if the names `K` have nodes. -/
inductive AddsEdge (p : Program) (al : List (Str × Str)) (K : Str → Prop) : Stmt → Str → Prop
  | bitcast (n : Str) : AddsEdge p al K (.bitcastCall (some n)) n
  | routine {f n : Str} {rs : List Str} : classify p.target.isThumb f = .memory rs → n ∈ rs → K n →
      AddsEdge p al K (.directCall f) n
  | live {f n : Str} : classify p.target.isThumb f = .plain → mget f al = some n →
      (f ∈ symbollessIntrinsics → K f) → AddsEdge p al K (.directCall f) n
  | external {f : Str} : classify p.target.isThumb f = .plain → mget f al = none → f ∈ p.undefined →
      (f ∈ symbollessIntrinsics → K f) → AddsEdge p al K (.directCall f) f

theorem AddsEdge.congr {p : Program} {al : List (Str × Str)} {K L : Str → Prop} (h : ∀ n, K n ↔ L n) {s : Stmt} {n : Str} :
    AddsEdge p al K s n ↔ AddsEdge p al L s n := by
  rw [show K = L from funext fun n => propext (h n)]

/-- There is an edge from `a` to the node of the name `n`. -/
def HasEdge (st : Build) (a : Nat) (n : Str) : Prop := ∃ k, mget n st.indices = some k ∧ (a, k) ∈ st.g.edges

/-- All edges end at nodes of names. -/
def Aimed (st : Build) : Prop := ∀ x ∈ st.g.edges, ∃ n, mget n st.indices = some x.2

theorem hasEdge_step {st st' : Build} {i : Nat} {G : Str → Prop}
    (idx : ∀ (n : Str) (k : Nat), mget n st.indices = some k → mget n st'.indices = some k)
    (uniq : ∀ (n m : Str) (k : Nat), mget n st'.indices = some k → mget m st'.indices = some k → n = m)
    (aim : Aimed st)
    (edges : ∀ x, x ∈ st'.g.edges ↔ x ∈ st.g.edges ∨ (x.1 = i ∧ ∃ n, G n ∧ mget n st'.indices = some x.2))
    (key : ∀ n, G n → ∃ k, mget n st'.indices = some k) :
    Aimed st' ∧ ∀ a n, HasEdge st' a n ↔ HasEdge st a n ∨ (a = i ∧ G n) := by
  constructor
  · intro x hx
    rcases (edges x).mp hx with hx | ⟨_, n, _, hn⟩
    · obtain ⟨n, hn⟩ := aim x hx
      exact ⟨n, idx _ _ hn⟩
    · exact ⟨n, hn⟩
  · intro a n
    constructor
    · rintro ⟨k, h1, h2⟩
      rcases (edges _).mp h2 with h2 | ⟨h2, m, h3, h4⟩
      · obtain ⟨m, hm⟩ := aim _ h2
        have := uniq n m k h1 (idx _ _ hm)
        subst this
        exact .inl ⟨k, hm, h2⟩
      · have := uniq n m k h1 h4
        subst this
        exact .inr ⟨h2, h3⟩
    · rintro (⟨k, h1, h2⟩ | ⟨rfl, h⟩)
      · exact ⟨k, idx _ _ h1, (edges _).mpr (.inl h2)⟩
      · obtain ⟨k, hk⟩ := key n h
        exact ⟨k, hk, (edges _).mpr (.inr ⟨rfl, n, h, hk⟩)⟩

theorem callRoutines_edges {i : Nat} (rs : List Str) : ∀ {st : Build},
    (∀ a b, b ∈ st.seen a → (a, b) ∈ st.g.edges) → ∀ x : Nat × Nat, x ∈ (st.callRoutines i rs).g.edges ↔
      x ∈ st.g.edges ∨ (x.1 = i ∧ ∃ n ∈ rs, mget n st.indices = some x.2) := by
  unfold Build.callRoutines
  induction rs with
  | nil => intro st _ x; simp
  | cons r rs ih =>
    intro st hs x
    simp only [List.foldl_cons]
    cases hr : mget r st.indices with
    | none =>
      simp only
      rw [ih hs x]
      simp [hr]
    | some j =>
      simp only
      rw [ih ?_ x, mem_call_edges (hs i j), (call_frame st i j).2.1]
      · constructor
        · rintro ((h | rfl) | ⟨h1, n, h2, h3⟩)
          · exact .inl h
          · exact .inr ⟨rfl, r, List.mem_cons_self, hr⟩
          · exact .inr ⟨h1, n, List.mem_cons_of_mem _ h2, h3⟩
        · rintro (h | ⟨h1, n, h2, h3⟩)
          · exact .inl (.inl h)
          · rcases List.mem_cons.mp h2 with rfl | h2
            · rw [hr] at h3
              cases h3
              exact .inl (.inr (Prod.ext h1 rfl))
            · exact .inr ⟨h1, n, h2, h3⟩
      · intro a b hb
        rw [mem_call_edges (hs i j)]
        rcases (mem_call_seen st i j a b).mp hb with hb | ⟨ha, hb⟩
        · exact .inl (hs a b hb)
        · exact .inr (by rw [ha, hb])

theorem WeakIr.uniq {p : Program} {st0 st : Build} (w : WeakIr p st0 st) (n m : Str) (k : Nat)
    (h1 : mget n st.indices = some k) (h2 : mget m st.indices = some k) : n = m := by
  obtain ⟨nd, h3, rfl⟩ := w.named n k h1
  obtain ⟨nd', h4, rfl⟩ := w.named m k h2
  rw [h3] at h4
  cases h4
  rfl

theorem addsEdge_stmt {p : Program} {st0 st st' : Build} (w : WeakIr p st0 st) (w' : WeakIr p st0 st') (aim : Aimed st)
    {c : Str} {i : Nat} {s : Stmt} (h : stmtStep p c i st s = .ok st') :
    Aimed st' ∧ ∀ a n, HasEdge st' a n ↔ HasEdge st a n ∨ (a = i ∧ AddsEdge p st.aliases (HasKey st) s n) := by
  have same : st'.indices = st.indices → st'.g.edges = st.g.edges → (∀ n, ¬ AddsEdge p st.aliases (HasKey st) s n) →
      Aimed st' ∧ ∀ a n, HasEdge st' a n ↔ HasEdge st a n ∨ (a = i ∧ AddsEdge p st.aliases (HasKey st) s n) := by
    intro h1 h2 h3
    unfold Aimed HasEdge
    rw [h1, h2]
    refine ⟨aim, fun a n => ⟨.inl, ?_⟩⟩
    rintro (h | ⟨_, h⟩)
    · exact h
    · exact absurd h (h3 n)
  unfold stmtStep at h
  split at h
  · cases h
    exact same rfl rfl fun n hn => by cases hn
  · cases h
  · rename_i sym
    have he := Except.ok.inj h
    subst he
    obtain ⟨h1, h2, h3, h4⟩ := getOrAdd_index st sym
    refine hasEdge_step h4 w'.uniq aim (fun x => ?_) fun n hn => ?_
    · change x ∈ (st.getOrAddNode sym).1.g.edges ++ [(i, (st.getOrAddNode sym).2)] ↔ _
      rw [h2, List.mem_append, List.mem_singleton]
      constructor
      · rintro (h | rfl)
        · exact .inl h
        · exact .inr ⟨rfl, sym, .bitcast sym, h1⟩
      · rintro (h | ⟨h5, n, h6, h7⟩)
        · exact .inl h
        · cases h6
          change mget sym (st.getOrAddNode sym).1.indices = some x.2 at h7
          rw [h1] at h7
          exact .inr (Prod.ext h5 (Option.some.inj h7).symm)
    · cases hn
      exact ⟨_, h1⟩
  · rename_i func
    split at h
    · rename_i hk
      cases h
      refine same rfl rfl fun n hn => ?_
      cases hn <;> simp_all
    · rename_i rs hk
      cases h
      obtain ⟨_, h2, h3, _, h1, _⟩ := callRoutines_frame i rs st
      refine hasEdge_step (fun n k h => by rw [h2]; exact h) w'.uniq aim (fun x => ?_) fun n hn => ?_
      · rw [callRoutines_edges rs w.seen, h2]
        refine or_congr Iff.rfl (and_congr Iff.rfl (exists_congr fun n => ?_))
        constructor
        · rintro ⟨k1, k2⟩
          exact ⟨.routine hk k1 (by unfold HasKey; rw [k2]; simp), k2⟩
        · rintro ⟨k1, k2⟩
          refine ⟨?_, k2⟩
          cases k1 with
          | routine k3 k4 => rw [hk] at k3; cases k3; exact k4
          | live k3 | external k3 => rw [hk] at k3; cases k3
      · rw [h2]
        cases hn with
        | routine _ _ k5 => exact Option.ne_none_iff_exists'.mp k5
        | live k3 | external k3 => rw [hk] at k3; cases k3
    · cases h
    · rename_i hk
      unfold plainCall at h
      split at h
      · rename_i hsym
        cases h
        simp only [Bool.and_eq_true, List.contains_iff_mem, Option.isNone_iff_eq_none] at hsym
        refine same rfl rfl fun n hn => ?_
        cases hn with
        | routine k3 => rw [hk] at k3; cases k3
        | live _ _ k3 => exact k3 hsym.1 hsym.2
        | external _ _ _ k3 => exact k3 hsym.1 hsym.2
      · rename_i hsym
        simp only [Bool.and_eq_true, List.contains_iff_mem, Option.isNone_iff_eq_none, not_and] at hsym
        split at h
        · rename_i canon hcan
          split at h
          · rename_i callee hcallee
            cases h
            obtain ⟨_, f2, f3, _, f5, _⟩ := call_frame st i callee
            have hg : ∀ n, AddsEdge p st.aliases (HasKey st) (.directCall func) n ↔ n = canon := by
              intro n
              constructor
              · intro hn
                cases hn with
                | routine k3 => rw [hk] at k3; cases k3
                | live _ k3 => rw [hcan] at k3; exact (Option.some.inj k3).symm
                | external _ k3 => rw [hcan] at k3; cases k3
              · rintro rfl
                exact .live hk hcan hsym
            refine hasEdge_step (fun n k h => by rw [f2]; exact h) w'.uniq aim (fun x => ?_) fun n hn => ?_
            · rw [mem_call_edges (w.seen i callee), f2]
              refine or_congr Iff.rfl ?_
              simp only [hg, exists_eq_left, hcallee, Option.some.injEq]
              constructor
              · rintro rfl; exact ⟨rfl, rfl⟩
              · rintro ⟨k1, k2⟩; exact Prod.ext k1 k2.symm
            · rw [(hg n).mp hn, f2]
              exact ⟨_, hcallee⟩
          · cases h
        · rename_i hnone
          split at h
          · rename_i hund
            have he := Except.ok.inj h
            change (st.getOrAddNode func).1.call i (st.getOrAddNode func).2 = st' at he
            subst he
            obtain ⟨_, f2, f3, _, f5, _⟩ := call_frame (st.getOrAddNode func).1 i (st.getOrAddNode func).2
            obtain ⟨h1, h2, h3, h4⟩ := getOrAdd_index st func
            have hg : ∀ n, AddsEdge p st.aliases (HasKey st) (.directCall func) n ↔ n = func := by
              intro n
              constructor
              · intro hn
                cases hn with
                | routine k3 => rw [hk] at k3; cases k3
                | live _ k3 => rw [hnone] at k3; cases k3
                | external => rfl
              · rintro rfl
                exact .external hk hnone (by simpa using hund) hsym
            have hseen := (w.getOrAdd func).1.seen i (st.getOrAddNode func).2
            refine hasEdge_step (fun n k h => by rw [f2]; exact h4 n k h) w'.uniq aim (fun x => ?_) fun n hn => ?_
            · rw [mem_call_edges hseen, f2, h2]
              refine or_congr Iff.rfl ?_
              simp only [hg, exists_eq_left, h1, Option.some.injEq]
              constructor
              · rintro rfl; exact ⟨rfl, rfl⟩
              · rintro ⟨k1, k2⟩; exact Prod.ext k1 k2.symm
            · rw [(hg n).mp hn, f2]
              exact ⟨_, h1⟩
          · cases h
  all_goals
    cases h
    exact same rfl rfl fun n hn => by cases hn

/-! ### All statements -/

theorem addsEdge_stmts {p : Program} {st0 st' : Build} {d : Define} (hd : d ∈ p.defines) {c : Str}
    (hal : mget d.name st0.aliases = some c) {i : Nat} (hix : NodeOfName st0 i) (ss : List Stmt) : ∀ {st : Build},
    WeakIr p st0 st → Aimed st → i < st.g.nodes.length → (∀ s ∈ ss, s ∈ d.stmts) → stmtsPass p c i st ss = .ok st' →
    Aimed st' ∧ ∀ a n, HasEdge st' a n ↔ HasEdge st a n ∨ (a = i ∧ ∃ pre s post, ss = pre ++ s :: post ∧
      AddsEdge p st0.aliases (fun m => HasKey st m ∨ ∃ t ∈ pre, AddsKey p.target.isThumb st0.aliases t m) s n) := by
  induction ss with
  | nil =>
    intro st w aim hi _ h
    cases h
    exact ⟨aim, by simp⟩
  | cons s ss ih =>
    intro st w aim hi hss h
    simp only [stmtsPass] at h
    split at h
    · cases h
    · rename_i st1 h1
      obtain ⟨a1, -, a3, -⟩ := w.stmt hd hal hix hi (hss s List.mem_cons_self) h1
      obtain ⟨b1, b2⟩ := addsEdge_stmt w a1 aim h1
      obtain ⟨c1, c2⟩ := ih a1 b1 (Nat.lt_of_lt_of_le hi a3) (fun s hs => hss s (List.mem_cons_of_mem _ hs)) h
      have hkey := (HasKey.stmt h1).2
      rw [w.aliases] at hkey b2
      refine ⟨c1, fun a n => ?_⟩
      rw [c2, b2, or_assoc, ← and_or_left]
      refine or_congr Iff.rfl (and_congr Iff.rfl ?_)
      constructor
      · rintro (h2 | ⟨pre, s', post, rfl, h2⟩)
        · exact ⟨[], s, ss, rfl, (AddsEdge.congr (by simp)).mp h2⟩
        · refine ⟨s :: pre, s', post, rfl, (AddsEdge.congr fun m => ?_).mp h2⟩
          rw [hkey, or_assoc]
          simp
      · rintro ⟨pre, s', post, h2, h3⟩
        cases pre with
        | nil =>
          simp only [List.nil_append, List.cons.injEq] at h2
          obtain ⟨rfl, rfl⟩ := h2
          exact .inl ((AddsEdge.congr (by simp)).mp h3)
        | cons t pre =>
          simp only [List.cons_append, List.cons.injEq] at h2
          obtain ⟨rfl, rfl⟩ := h2
          refine .inr ⟨pre, s', post, rfl, (AddsEdge.congr fun m => ?_).mp h3⟩
          rw [hkey, or_assoc]
          simp

theorem addsEdge_defines {p : Program} {st0 : Build} (ds : List Define) : ∀ {st st' : Build}, WeakIr p st0 st → Aimed st →
    (∀ d ∈ ds, d ∈ p.defines) → (∀ d c, mget d st0.aliases = some c → ∃ i, mget c st0.indices = some i) →
    definePass p st ds = .ok st' →
    Aimed st' ∧ ∀ a n, HasEdge st' a n ↔ HasEdge st a n ∨ ∃ ds₁ d ds₂ pre s post c, ds = ds₁ ++ d :: ds₂ ∧
      mget d.name st0.aliases = some c ∧ mget c st0.indices = some a ∧ d.stmts = pre ++ s :: post ∧
      AddsEdge p st0.aliases (fun m => HasKey st m ∨ (∃ t ∈ pre, AddsKey p.target.isThumb st0.aliases t m) ∨
        ∃ d' ∈ ds₁, mget d'.name st0.aliases ≠ none ∧ ∃ t ∈ d'.stmts, AddsKey p.target.isThumb st0.aliases t m) s n := by
  induction ds with
  | nil =>
    intro st st' w aim _ _ h
    cases h
    exact ⟨aim, by simp⟩
  | cons d ds ih =>
    intro st st' w aim hds hcan h
    simp only [definePass] at h
    split at h
    · cases h
    · rename_i st1 h1
      have hone : definePass p st [d] = .ok st1 := by simp only [definePass, h1]
      have w1 := (w.defines [d] (by simpa using hds d List.mem_cons_self) hcan hone).1
      have hkey := (HasKey.defines [d] hone).2
      rw [w.aliases] at hkey
      have key : Aimed st1 ∧ ∀ a n, HasEdge st1 a n ↔ HasEdge st a n ∨ ∃ pre s post c,
          mget d.name st0.aliases = some c ∧ mget c st0.indices = some a ∧ d.stmts = pre ++ s :: post ∧
          AddsEdge p st0.aliases (fun m => HasKey st m ∨ ∃ t ∈ pre, AddsKey p.target.isThumb st0.aliases t m) s n := by
        unfold defineStep at h1
        split at h1
        · rename_i hn
          rw [w.aliases] at hn
          cases h1
          exact ⟨aim, by simp [hn]⟩
        · rename_i canonical hcn
          rw [w.aliases] at hcn
          split at h1
          · cases h1
          · rename_i caller hcal
            have hidx : mget canonical st0.indices = some caller := by
              obtain ⟨i, hi⟩ := hcan _ _ hcn
              have := w.indices _ _ hi
              rw [hcal] at this
              cases this
              exact hi
            have w' : WeakIr p st0 { st with
                defined := sinsert canonical st.defined
                edges := mset caller (st.seen caller) st.edges } := { w with
              seen := by
                intro a b hb
                rw [seen_set st caller a (st.seen caller) _ rfl] at hb
                split at hb
                · rename_i ha
                  exact ha ▸ w.seen _ b hb
                · exact w.seen a b hb
              defined := by
                intro c' hc'
                rcases (mem_sinsert _ _ _).mp hc' with rfl | hc'
                · exact ⟨d, hds d List.mem_cons_self, hcn⟩
                · exact w.defined c' hc' }
            obtain ⟨a1, a2⟩ := addsEdge_stmts (hds d List.mem_cons_self) hcn ⟨_, hidx⟩ d.stmts w' aim
              (w.lt _ _ hcal) (fun _ h => h) h1
            refine ⟨a1, fun a n => (a2 a n).trans (or_congr Iff.rfl ?_)⟩
            constructor
            · rintro ⟨rfl, pre, s, post, h2, h3⟩
              exact ⟨pre, s, post, canonical, hcn, hidx, h2, h3⟩
            · rintro ⟨pre, s, post, c, h2, h3, h4, h5⟩
              rw [hcn] at h2
              cases h2
              rw [hidx] at h3
              exact ⟨(Option.some.inj h3).symm, pre, s, post, h4, h5⟩
      obtain ⟨b1, b2⟩ := ih w1 key.1 (fun d hd => hds d (List.mem_cons_of_mem _ hd)) hcan h
      refine ⟨b1, fun a n => ?_⟩
      rw [b2, key.2, or_assoc]
      refine or_congr Iff.rfl ?_
      constructor
      · rintro (⟨pre, s, post, c, h2, h3, h4, h5⟩ | ⟨ds₁, d', ds₂, pre, s, post, c, rfl, h2, h3, h4, h5⟩)
        · exact ⟨[], d, ds, pre, s, post, c, rfl, h2, h3, h4, (AddsEdge.congr (by simp)).mp h5⟩
        · refine ⟨d :: ds₁, d', ds₂, pre, s, post, c, rfl, h2, h3, h4, (AddsEdge.congr fun m => ?_).mp h5⟩
          rw [hkey]
          simp only [List.mem_cons, List.not_mem_nil, or_false, exists_eq_left, exists_eq_or_imp]
          rw [or_assoc]
          exact or_congr Iff.rfl or_left_comm
      · rintro ⟨ds₁, d', ds₂, pre, s, post, c, h0, h2, h3, h4, h5⟩
        cases ds₁ with
        | nil =>
          simp only [List.nil_append, List.cons.injEq] at h0
          obtain ⟨rfl, rfl⟩ := h0
          exact .inl ⟨pre, s, post, c, h2, h3, h4, (AddsEdge.congr (by simp)).mp h5⟩
        | cons t ds₁ =>
          simp only [List.cons_append, List.cons.injEq] at h0
          obtain ⟨rfl, rfl⟩ := h0
          refine .inr ⟨ds₁, d', ds₂, pre, s, post, c, rfl, h2, h3, h4, (AddsEdge.congr fun m => ?_).mp h5⟩
          rw [hkey]
          simp only [List.mem_cons, List.not_mem_nil, or_false, exists_eq_left, exists_eq_or_imp]
          rw [or_assoc]
          exact or_congr Iff.rfl or_left_comm

/-! ### In terms of the program -/

section

variable {demangle : Str → Str} {ord : HashOrder} {search : TagSearch} {p : Program} {elf : Elf}
  {cs : List Str} {st0 stIr st : Build} {g : Graph}

theorem SharedFacts.irOk (f : SharedFacts demangle ord search p elf cs st0 stIr st g) :
    irGraph demangle p = .ok stIr := by
  unfold irGraph
  simp only [f.symOk]
  exact f.definesOk

theorem SharedFacts.taken_iff (f : SharedFacts demangle ord search p elf cs st0 stIr st g) (n c : Str) :
    mget n st0.aliases = some c ↔ p.TakenFor n c := by
  have fwd : ∀ c, mget n st0.aliases = some c → p.TakenFor n c := by
    intro c hc
    rcases symPass_alias p.defined f.symOk n c hc with ⟨j, e, h1, h2, h3, h4⟩ | ⟨_, h⟩
    · refine ⟨j, (liveAt_iff p n j).mpr ⟨e, h1, h2⟩, fun k hk hl => ?_, (principal_iff h1 h3 c).mpr rfl⟩
      obtain ⟨e', h5, h6⟩ := (liveAt_iff p n k).mp hl
      exact h4 k e' hk h5 h6
    · simp [Build.empty, mget] at h
  refine ⟨fwd c, fun ⟨j, h1, h2, h3⟩ => ?_⟩
  cases hm : mget n st0.aliases with
  | none => exact absurd h1 ((f.dead n).mp hm j)
  | some c' =>
    obtain ⟨j', k1, k2, k3⟩ := fwd c' hm
    have : j = j' := by
      rcases Nat.lt_trichotomy j j' with h | h | h
      · exact absurd k1 (h2 j' h)
      · exact h
      · exact absurd h1 (k2 j h)
    subst this
    rw [f.principal] at h3 k3
    rw [h3] at k3
    cases k3
    rfl

theorem SharedFacts.lastShown_iff (f : SharedFacts demangle ord search p elf cs st0 stIr st g) (c : Str) (i : Nat) :
    mget c st0.indices = some i ↔ p.LastShown c i := by
  have fwd : ∀ i, mget c st0.indices = some i → p.LastShown c i := by
    intro i hi
    refine ⟨f.principal.mpr (f.sym.indices_some c i hi), fun k hk hp => ?_⟩
    refine (f.last c i hi).2 k (mkNode c (mget c p.stackSizes) false) hk ?_ rfl
    rw [f.sym.nodes, List.getElem?_map, f.principal.mp hp]
    rfl
  refine ⟨fwd i, fun ⟨h1, h2⟩ => ?_⟩
  cases hm : mget c st0.indices with
  | none => exact absurd hm (f.sym.indices_ne c (List.mem_of_getElem? (f.principal.mp h1)))
  | some j =>
    obtain ⟨k1, k2⟩ := fwd j hm
    rcases Nat.lt_trichotomy i j with h | h | h
    · exact absurd k1 (h2 j h)
    · rw [h]
    · exact absurd h1 (k2 i h)

theorem SharedFacts.live_iff (f : SharedFacts demangle ord search p elf cs st0 stIr st g) (n : Str) :
    mget n st0.aliases ≠ none ↔ ∃ j, p.LiveAt n j := by
  rw [ne_eq, f.dead]
  unfold Program.NotLive
  simp

theorem SharedFacts.key0_iff (f : SharedFacts demangle ord search p elf cs st0 stIr st g) (n : Str) :
    HasKey st0 n ↔ ∃ j, p.Principal j n := by
  unfold HasKey
  constructor
  · intro hm
    obtain ⟨k, hk⟩ := Option.ne_none_iff_exists'.mp hm
    exact ⟨k, f.principal.mpr (f.sym.indices_some n k hk)⟩
  · rintro ⟨j, hj⟩
    exact f.sym.indices_ne n (List.mem_of_getElem? (f.principal.mp hj))

/-- The names that have nodes after some of the statements. -/
theorem SharedFacts.nodeAfter_iff (f : SharedFacts demangle ord search p elf cs st0 stIr st g) {before : Stmt → Prop}
    (sub : ∀ t, before t → ∃ i, p.Contains i t) (n : Str) :
    (HasKey st0 n ∨ ∃ t, before t ∧ AddsKey p.target.isThumb st0.aliases t n) ↔ p.NodeAfter before n := by
  have acc := (irGraph_fit.mp ⟨_, f.irOk⟩).2.1
  unfold Program.NodeAfter
  rw [f.key0_iff]
  refine or_congr Iff.rfl ?_
  unfold AddsKey
  constructor
  · rintro ⟨t, h1, rfl | ⟨rfl, h2, h3, h4⟩⟩
    · exact .inl h1
    · have hni := classify_plain.mp h2
      have hnl := (f.dead n).mp h3
      have hmc : n ≠ c!"memcmp" := fun h => h4 ((symbolless_iff n).mpr h)
      refine .inr ⟨h1, hni, hmc, hnl, ?_⟩
      obtain ⟨i, hi⟩ := sub _ h1
      rcases (acc i _ hi).2 hni with ⟨j, hj⟩ | h | h
      · exact absurd hj (hnl j)
      · exact h
      · exact absurd h hmc
  · rintro (h | ⟨h1, h2, h3, h4, _⟩)
    · exact ⟨_, h, .inl rfl⟩
    · exact ⟨_, h1, .inr ⟨rfl, classify_plain.mpr h2, (f.dead n).mpr h4, fun h => h3 ((symbolless_iff n).mp h)⟩⟩

theorem SharedFacts.aims_iff (f : SharedFacts demangle ord search p elf cs st0 stIr st g) {before : Stmt → Prop}
    {s : Stmt} {n : Str} : AddsEdge p st0.aliases (p.NodeAfter before) s n ↔ p.AimsAt before s n := by
  constructor
  · intro h
    cases h with
    | bitcast => exact .bitcast n
    | routine h1 h2 h3 =>
      have ht : p.target = .other := by
        cases ht : p.target with
        | other => rfl
        | thumbv6m | thumbv7m =>
          rw [ht] at h1
          exact absurd h1 classify_thumb_memory
      rcases classify_memory h1 with ⟨h4, rfl⟩ | ⟨h4, rfl⟩
      · exact .copy ht h4 h2 h3
      · exact .fill ht h4 h2 h3
    | live h1 h2 h3 =>
      exact .live (classify_plain.mp h1) ((f.taken_iff _ _).mp h2) fun h => h3 ((symbolless_iff _).mpr h)
    | external h1 h2 h3 h4 =>
      exact .external (classify_plain.mp h1) ((f.dead _).mp h2) h3 fun h => h4 ((symbolless_iff _).mpr h)
  · intro h
    cases h with
    | bitcast => exact .bitcast n
    | live h1 h2 h3 =>
      exact .live (classify_plain.mpr h1) ((f.taken_iff _ _).mpr h2) fun h => h3 ((symbolless_iff _).mp h)
    | external h1 h2 h3 h4 =>
      exact .external (classify_plain.mpr h1) ((f.dead _).mpr h2) h3 fun h => h4 ((symbolless_iff _).mp h)
    | copy h1 h2 h3 h4 =>
      exact .routine (rs := memcpyRoutines) (by rw [h1]; exact classify_memcpy h2) h3 h4
    | fill h1 h2 h3 h4 =>
      exact .routine (rs := memsetRoutines) (by rw [h1]; exact classify_memset h2) h3 h4

theorem SharedFacts.any_edges (f : SharedFacts demangle ord search p elf cs st0 stIr st g) :
    Aimed stIr ∧ ∀ i name, HasEdge stIr i name ↔ ∃ before s, p.TakenAt before i s ∧ p.AimsAt before s name := by
  have hcan : ∀ d c, mget d st0.aliases = some c → ∃ i, mget c st0.indices = some i := by
    intro d c hc
    obtain ⟨i, e, _, h2, _⟩ := f.sym.aliases_some d c hc
    exact Option.ne_none_iff_exists'.mp (f.sym.indices_ne c (List.mem_of_getElem? h2))
  have aim0 : Aimed st0 := by
    intro x hx
    rw [f.sym.gedges] at hx
    cases hx
  obtain ⟨h1, h2⟩ := addsEdge_defines p.defines (WeakIr.init f.sym) aim0 (fun _ h => h) hcan f.definesOk
  refine ⟨h1, fun i name => (h2 i name).trans ?_⟩
  have hno : ¬ HasEdge st0 i name := by
    rintro ⟨k, _, hk⟩
    rw [f.sym.gedges] at hk
    cases hk
  have conv : ∀ {ds₁ : List Define} {d : Define} {ds₂ : List Define} {pre : List Stmt} {s : Stmt} {post : List Stmt}
      {before : Stmt → Prop}, p.defines = ds₁ ++ d :: ds₂ → d.stmts = pre ++ s :: post → (∃ j, p.LiveAt d.name j) →
      (∀ t, before t ↔ t ∈ pre ∨ ∃ d' ∈ ds₁, (∃ j, p.LiveAt d'.name j) ∧ t ∈ d'.stmts) →
      (AddsEdge p st0.aliases (fun m => HasKey st0 m ∨ (∃ t ∈ pre, AddsKey p.target.isThumb st0.aliases t m) ∨
        ∃ d' ∈ ds₁, mget d'.name st0.aliases ≠ none ∧ ∃ t ∈ d'.stmts, AddsKey p.target.isThumb st0.aliases t m) s name ↔
        p.AimsAt before s name) := by
    intro ds₁ d ds₂ pre s post before e1 e2 hl hb
    rw [← f.aims_iff]
    refine AddsEdge.congr fun m => ?_
    rw [← f.nodeAfter_iff (fun t ht => ?_)]
    · refine or_congr Iff.rfl ?_
      simp only [hb, f.live_iff]
      constructor
      · rintro (⟨t, k1, k2⟩ | ⟨d', k1, k2, t, k3, k4⟩)
        · exact ⟨t, .inl k1, k2⟩
        · exact ⟨t, .inr ⟨d', k1, k2, k3⟩, k4⟩
      · rintro ⟨t, k1 | ⟨d', k1, k2, k3⟩, k4⟩
        · exact .inl ⟨t, k1, k4⟩
        · exact .inr ⟨d', k1, k2, t, k3, k4⟩
    · rcases (hb t).mp ht with h | ⟨d', k1, ⟨j, hj⟩, k3⟩
      · obtain ⟨j, hj⟩ := hl
        exact ⟨j, d, by rw [e1]; simp, hj, by rw [e2]; simp [h]⟩
      · exact ⟨j, d', by rw [e1]; simp [k1], hj, k3⟩
  constructor
  · rintro (h | ⟨ds₁, d, ds₂, pre, s, post, c, k1, k2, k3, k4, k5⟩)
    · exact absurd h hno
    · have hl := (f.live_iff d.name).mp (by rw [k2]; simp)
      refine ⟨fun t => t ∈ pre ∨ ∃ d' ∈ ds₁, (∃ j, p.LiveAt d'.name j) ∧ t ∈ d'.stmts, s,
        ⟨ds₁, d, ds₂, pre, post, c, k1, (f.taken_iff _ _).mp k2, (f.lastShown_iff _ _).mp k3, k4, fun _ => Iff.rfl⟩,
        (conv k1 k4 hl fun _ => Iff.rfl).mp k5⟩
  · rintro ⟨before, s, ⟨ds₁, d, ds₂, pre, post, c, k1, k2, k3, k4, hb⟩, k5⟩
    have k2' := (f.taken_iff _ _).mpr k2
    have hl := (f.live_iff d.name).mp (by rw [k2']; simp)
    exact .inr ⟨ds₁, d, ds₂, pre, s, post, c, k1, k2', (f.lastShown_iff _ _).mpr k3, k4, (conv k1 k4 hl hb).mpr k5⟩

end

end CallStack
