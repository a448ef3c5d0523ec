import Verif.Proof.SharedIr
import Verif.Proof.SharedNames

/-! Where the edges come from, for programs in which several functions may have the same names. -/

namespace CallStack

theorem call_edges_sub (st : Build) (i j : Nat) {x : Nat × Nat} (h : x ∈ (st.call i j).g.edges) :
    x ∈ st.g.edges ∨ x = (i, j) := by
  unfold Build.call at h
  split at h
  · exact .inl h
  · simpa [Graph.addEdge] using h

theorem callRoutines_edges_sub (i : Nat) (rs : List Str) : ∀ (st : Build) {x : Nat × Nat},
    x ∈ (st.callRoutines i rs).g.edges →
    x ∈ st.g.edges ∨ (x.1 = i ∧ ∃ n ∈ rs, mget n st.indices = some x.2) := by
  unfold Build.callRoutines
  induction rs with
  | nil => exact fun st x h => .inl h
  | cons r rs ih =>
    intro st x h
    simp only [List.foldl_cons] at h
    split at h
    · rename_i callee hc
      rcases ih _ h with h | ⟨h1, n, h2, h3⟩
      · rcases call_edges_sub st i callee h with h | rfl
        · exact .inl h
        · exact .inr ⟨rfl, r, List.mem_cons_self, hc⟩
      · rw [(call_frame st i callee).2.1] at h3
        exact .inr ⟨h1, n, List.mem_cons_of_mem _ h2, h3⟩
    · rcases ih _ h with h | ⟨h1, n, h2, h3⟩
      · exact .inl h
      · exact .inr ⟨h1, n, List.mem_cons_of_mem _ h2, h3⟩

theorem getOrAdd_index (st : Build) (name : Str) :
    mget name (st.getOrAddNode name).1.indices = some (st.getOrAddNode name).2 ∧
    (st.getOrAddNode name).1.g.edges = st.g.edges ∧ (st.getOrAddNode name).1.aliases = st.aliases ∧
    ∀ (n : Str) (k : Nat), mget n st.indices = some k → mget n (st.getOrAddNode name).1.indices = some k := by
  unfold Build.getOrAddNode
  cases hm : mget name st.indices with
  | some k => exact ⟨hm, rfl, rfl, fun _ _ h => h⟩
  | none =>
    simp only [Graph.addNode, mget_mset, if_true, true_and]
    intro n k h
    split
    · rename_i hn
      subst hn
      rw [hm] at h
      cases h
    · exact h

theorem classify_memcmp (thumb : Bool) : classify thumb c!"memcmp" = .plain := by
  cases thumb <;> decide +kernel

/-- The name of the node that the statement adds an edge to. -/
inductive AsksFor (p : Program) (aliases : List (Str × Str)) : Stmt → Str → Prop
  | bitcast (n : Str) : AsksFor p aliases (.bitcastCall (some n)) n
  | routine {f n : Str} {rs : List Str} : classify p.target.isThumb f = .memory rs → n ∈ rs →
      AsksFor p aliases (.directCall f) n
  | live {f n : Str} : classify p.target.isThumb f = .plain → mget f aliases = some n →
      AsksFor p aliases (.directCall f) n
  | external {f : Str} : classify p.target.isThumb f = .plain → mget f aliases = none → f ∈ p.undefined →
      AsksFor p aliases (.directCall f) f

/-- The new edges start at `i` and end at the node of a name that one of the statements asks for. -/
structure EdgeStep (p : Program) (Q : Nat → Stmt → Prop) (st st' : Build) : Prop where
  aliases : st'.aliases = st.aliases
  indices : ∀ (n : Str) (k : Nat), mget n st.indices = some k → mget n st'.indices = some k
  sound : ∀ x ∈ st'.g.edges, x ∈ st.g.edges ∨
    ∃ s n, Q x.1 s ∧ AsksFor p st.aliases s n ∧ mget n st'.indices = some x.2 ∧
      (s = .directCall c!"memcmp" → mget c!"memcmp" st'.indices ≠ none)
  callers : ∀ e' ∈ st'.indirects, ∀ i ∈ e'.2.callers, (∃ e ∈ st.indirects, e.1 = e'.1 ∧ i ∈ e.2.callers) ∨
    ∃ sig, Q i (.indirectCall sig) ∧ e'.1.looselyEqual sig = true
  called : (∀ e ∈ st.indirects, e.2.called = true → e.2.callers ≠ []) →
    ∀ e ∈ st'.indirects, e.2.called = true → e.2.callers ≠ []

theorem EdgeStep.same {p : Program} {Q : Nat → Stmt → Prop} {st st' : Build} (h1 : st'.aliases = st.aliases)
    (h2 : st'.indirects = st.indirects)
    (h3 : ∀ (n : Str) (k : Nat), mget n st.indices = some k → mget n st'.indices = some k)
    (h4 : ∀ x ∈ st'.g.edges, x ∈ st.g.edges ∨
      ∃ s n, Q x.1 s ∧ AsksFor p st.aliases s n ∧ mget n st'.indices = some x.2 ∧
        (s = .directCall c!"memcmp" → mget c!"memcmp" st'.indices ≠ none)) : EdgeStep p Q st st' :=
  ⟨h1, h3, h4, fun e he i hi => .inl ⟨e, h2 ▸ he, rfl, hi⟩, fun h => by rw [h2]; exact h⟩

theorem EdgeStep.refl {p : Program} {Q : Nat → Stmt → Prop} {st st' : Build} (h1 : st'.aliases = st.aliases)
    (h2 : st'.indices = st.indices) (h3 : st'.g.edges = st.g.edges) (h4 : st'.indirects = st.indirects) :
    EdgeStep p Q st st' :=
  .same h1 h4 (fun n k h => by rw [h2]; exact h) (fun x hx => .inl (h3 ▸ hx))

theorem EdgeStep.trans {p : Program} {Q Q' Q'' : Nat → Stmt → Prop} {a b c : Build} (h1 : EdgeStep p Q a b)
    (h2 : EdgeStep p Q' b c) (hq : ∀ i s, Q i s → Q'' i s) (hq' : ∀ i s, Q' i s → Q'' i s) : EdgeStep p Q'' a c := by
  refine ⟨h2.aliases.trans h1.aliases, fun n k h => h2.indices n k (h1.indices n k h), fun x hx => ?_,
    fun e he i hi => ?_, fun h => h2.called (h1.called h)⟩
  swap
  · rcases h2.callers e he i hi with ⟨e1, k1, k2, k3⟩ | ⟨sig, k1, k2⟩
    · rcases h1.callers e1 k1 i k3 with ⟨e0, k4, k5, k6⟩ | ⟨sig, k4, k5⟩
      · exact .inl ⟨e0, k4, k5.trans k2, k6⟩
      · exact .inr ⟨sig, hq _ _ k4, k2 ▸ k5⟩
    · exact .inr ⟨sig, hq' _ _ k1, k2⟩
  rcases h2.sound x hx with hx | ⟨s, n, k1, k2, k3, k4⟩
  · rcases h1.sound x hx with hx | ⟨s, n, k1, k2, k3, k4⟩
    · exact .inl hx
    · refine .inr ⟨s, n, hq _ _ k1, k2, h2.indices _ _ k3, fun hs => ?_⟩
      obtain ⟨k, hk⟩ := Option.ne_none_iff_exists'.mp (k4 hs)
      rw [h2.indices _ _ hk]
      exact Option.some_ne_none k
  · exact .inr ⟨s, n, hq' _ _ k1, h1.aliases ▸ k2, k3, k4⟩

theorem EdgeStep.stmt {p : Program} {c : Str} {i : Nat} {st st' : Build} {s : Stmt}
    (h : stmtStep p c i st s = .ok st') : EdgeStep p (fun a s' => a = i ∧ s' = s) st st' := by
  unfold stmtStep at h
  split at h
  · cases h
    exact .refl rfl rfl rfl rfl
  · cases h
  · rename_i sym
    have he := Except.ok.inj h
    subst he
    obtain ⟨h1, h2, h3, h4⟩ := getOrAdd_index st sym
    refine .same h3 (getOrAddNode_frame st sym).1 h4 fun x hx => ?_
    simp only [Graph.addEdge, List.mem_append, List.mem_singleton] at hx
    rcases hx with hx | rfl
    · exact .inl (h2 ▸ hx)
    · exact .inr ⟨_, sym, ⟨rfl, rfl⟩, .bitcast sym, h1, fun h => by cases h⟩
  · rename_i func
    split at h
    · cases h
      exact .refl rfl rfl rfl rfl
    · rename_i rs hk
      cases h
      obtain ⟨_, h2, h3, _, h1, _⟩ := callRoutines_frame i rs st
      refine .same h1 h3 (fun n k h => by rw [h2]; exact h) fun x hx => ?_
      rcases callRoutines_edges_sub i rs st hx with hx | ⟨k1, n, k2, k3⟩
      · exact .inl hx
      · refine .inr ⟨_, n, ⟨k1, rfl⟩, .routine hk k2, by rw [h2]; exact k3, fun hs => ?_⟩
        cases hs
        rw [classify_memcmp] at hk
        cases hk
    · cases h
    · rename_i hk
      unfold plainCall at h
      split at h
      · cases h
        exact .refl rfl rfl rfl rfl
      · rename_i hsym
        split at h
        · rename_i canon hcan
          split at h
          · rename_i callee hcallee
            cases h
            obtain ⟨_, f2, f3, _, f5, _⟩ := call_frame st i callee
            refine .same f5 f3 (fun n k h => by rw [f2]; exact h) fun x hx => ?_
            rcases call_edges_sub st i callee hx with hx | rfl
            · exact .inl hx
            · refine .inr ⟨_, canon, ⟨rfl, rfl⟩, .live hk hcan, by rw [f2]; exact hcallee, fun hs => ?_⟩
              cases hs
              rw [f2]
              intro hno
              exact hsym (by simp [symbollessIntrinsics, hno])
          · cases h
        · rename_i hnone
          split at h
          · rename_i hund
            have he := Except.ok.inj h
            change (st.getOrAddNode func).1.call i (st.getOrAddNode func).2 = st' at he
            subst he
            obtain ⟨_, f2, f3, _, f5, _⟩ := call_frame (st.getOrAddNode func).1 i (st.getOrAddNode func).2
            obtain ⟨h1, h2, h3, h4⟩ := getOrAdd_index st func
            refine .same (f5.trans h3) (f3.trans (getOrAddNode_frame st func).1)
              (fun n k h => by rw [f2]; exact h4 n k h) fun x hx => ?_
            rcases call_edges_sub _ _ _ hx with hx | rfl
            · exact .inl (h2 ▸ hx)
            · refine .inr ⟨_, func, ⟨rfl, rfl⟩, .external hk hnone (by simpa using hund), by rw [f2]; exact h1,
                fun hs => ?_⟩
              cases hs
              rw [f2, h1]
              exact Option.some_ne_none _
          · cases h
  · rename_i sig
    cases h
    refine ⟨rfl, fun _ _ h => h, fun _ h => .inl h, fun e he a ha => ?_, fun hall e he hc => ?_⟩
    · obtain ⟨e0, h0, h1, h2⟩ := mem_markCalled he
      split at h2
      · rename_i hl
        rw [h2.2] at ha
        rcases (mem_sinsert _ _ _).mp ha with rfl | ha
        · exact .inr ⟨sig, ⟨rfl, rfl⟩, h1 ▸ hl⟩
        · exact .inl ⟨e0, h0, h1.symm, ha⟩
      · exact .inl ⟨e0, h0, h1.symm, h2 ▸ ha⟩
    · obtain ⟨e0, h0, h1, h2⟩ := mem_markCalled he
      split at h2
      · rw [h2.2]
        exact List.ne_nil_of_mem ((mem_sinsert _ _ _).mpr (.inl rfl))
      · rw [h2] at hc ⊢
        exact hall e0 h0 hc
  all_goals
    cases h
    exact .refl rfl rfl rfl rfl

theorem EdgeStep.stmts {p : Program} {c : Str} {i : Nat} (ss : List Stmt) : ∀ {st st' : Build},
    stmtsPass p c i st ss = .ok st' → EdgeStep p (fun a s => a = i ∧ s ∈ ss) st st' := by
  induction ss with
  | nil =>
    intro st st' h
    cases h
    exact .refl rfl rfl rfl rfl
  | cons s ss ih =>
    intro st st' h
    simp only [stmtsPass] at h
    split at h
    · cases h
    · rename_i st1 h1
      exact (EdgeStep.stmt h1).trans (ih h) (fun _ _ h => ⟨h.1, h.2 ▸ List.mem_cons_self⟩)
        (fun _ _ h => ⟨h.1, List.mem_cons_of_mem _ h.2⟩)

/-- The statement is in a definition of the function whose node is `i`. -/
def StmtOf (ds : List Define) (st : Build) (i : Nat) (s : Stmt) : Prop :=
  ∃ d ∈ ds, s ∈ d.stmts ∧ ∃ c, mget d.name st.aliases = some c ∧ mget c st.indices = some i

theorem EdgeStep.defines {p : Program} (ds : List Define) : ∀ {st st' : Build}, definePass p st ds = .ok st' →
    EdgeStep p (StmtOf ds st') st st' := by
  induction ds with
  | nil =>
    intro st st' h
    cases h
    exact .refl rfl rfl rfl rfl
  | cons d ds ih =>
    intro st st' h
    simp only [definePass] at h
    split at h
    · cases h
    · rename_i st1 h1
      have hrest := ih h
      have key : EdgeStep p (StmtOf (d :: ds) st1) st st1 := by
        unfold defineStep at h1
        split at h1
        · cases h1
          exact .refl rfl rfl rfl rfl
        · rename_i canonical hcn
          split at h1
          · cases h1
          · rename_i caller hcal
            have hs := EdgeStep.stmts d.stmts h1
            have hq : ∀ a s, a = caller ∧ s ∈ d.stmts → StmtOf (d :: ds) st1 a s := fun a s k1 =>
              ⟨d, List.mem_cons_self, k1.2, canonical, by rw [hs.aliases]; exact hcn,
                hs.indices _ _ (by rw [k1.1]; exact hcal)⟩
            refine ⟨hs.aliases, hs.indices, fun x hx => ?_, fun e he a ha => ?_, hs.called⟩
            swap
            · exact (hs.callers e he a ha).imp id fun ⟨sig, k1, k2⟩ => ⟨sig, hq _ _ k1, k2⟩
            rcases hs.sound x hx with hx | ⟨s, n, k1, k2, k3, k4⟩
            · exact .inl hx
            · exact .inr ⟨s, n, hq _ _ k1, k2, k3, k4⟩
      refine key.trans hrest ?_ ?_
      · rintro i s ⟨d', h1, h2, c, h3, h4⟩
        exact ⟨d', h1, h2, c, by rw [hrest.aliases]; exact h3, hrest.indices _ _ h4⟩
      · rintro i s ⟨d', h1, h2, h3⟩
        exact ⟨d', List.mem_cons_of_mem _ h1, h2, h3⟩

theorem definePass_defined_all {p : Program} (ds : List Define) : ∀ {st st' : Build}, definePass p st ds = .ok st' →
    (∀ c ∈ st.defined, c ∈ st'.defined) ∧
      ∀ d ∈ ds, ∀ c, mget d.name st.aliases = some c → c ∈ st'.defined := by
  induction ds with
  | nil =>
    intro st st' h
    cases h
    simp
  | cons d ds ih =>
    intro st st' h
    simp only [definePass] at h
    split at h
    · cases h
    · rename_i st1 h1
      obtain ⟨i1, i2⟩ := ih h
      have key : st1.aliases = st.aliases ∧ (∀ c ∈ st.defined, c ∈ st1.defined) ∧
          ∀ c, mget d.name st.aliases = some c → c ∈ st1.defined := by
        unfold defineStep at h1
        split at h1
        · rename_i hn
          cases h1
          exact ⟨rfl, fun _ h => h, fun c hc => by rw [hn] at hc; cases hc⟩
        · rename_i canonical hcn
          split at h1
          · cases h1
          · have hd := stmtsPass_defined d.stmts h1
            have ha := (EdgeStep.stmts d.stmts h1).aliases
            refine ⟨ha, fun c hc => ?_, fun c hc => ?_⟩
            · rw [hd]
              exact (mem_sinsert _ _ _).mpr (.inr hc)
            · rw [hcn] at hc
              cases hc
              rw [hd]
              exact (mem_sinsert _ _ _).mpr (.inl rfl)
      refine ⟨fun c hc => i1 c (key.2.1 c hc), fun d' hd' c hc => ?_⟩
      rcases List.mem_cons.mp hd' with rfl | hd'
      · exact i1 c (key.2.2 c hc)
      · exact i2 d' hd' c (by rw [key.1]; exact hc)

section

variable {demangle : Str → Str} {ord : HashOrder} {search : TagSearch} {p : Program} {elf : Elf}
  {cs : List Str} {st0 stIr st : Build} {g : Graph}

theorem SharedFacts.edge_cases (f : SharedFacts demangle ord search p elf cs st0 stIr st g)
    {a b : Nat} (hab : (a, b) ∈ g.edges) :
    (a, b) ∈ st.g.edges ∨ ∃ k e, e ∈ st.indirects ∧ e.2.called = true ∧ (k = a ∨ k = b) ∧
      DashedFor st.hasUntypedSymbols st.fmts
        (oneTrueVoid ((ord.perm _ 0 st.indirects).filterMap (fun e => maybeVoid e.1))) e g k := by
  obtain ⟨es, h1, h2⟩ := f.out.edges
  have hmem : ∀ e, e ∈ ord.perm _ 1 st.indirects ↔ e ∈ st.indirects :=
    fun e => (ord.isPerm _ _ _).mem_iff
  have hab' := hab
  rw [h1, List.mem_append] at hab
  rcases hab with hab | hab
  · exact .inl hab
  · right
    obtain ⟨h3, h4, h5⟩ := h2 _ hab
    simp only at h3 h4 h5
    rcases h3 with h3 | h3
    · rcases f.out.new a h3 h4 with ⟨e, he, hc, hd⟩ | ⟨_, _, hno, _⟩
      · exact ⟨a, e, (hmem e).mp he, hc, .inl rfl, hd⟩
      · exact absurd hab' (hno b)
    · rcases f.out.new b h3 h5 with ⟨e, he, hc, hd⟩ | ⟨_, _, _, k', _, _, ⟨e, he, hc, hd⟩, hp⟩
      · exact ⟨b, e, (hmem e).mp he, hc, .inr rfl, hd⟩
      · exact ⟨k', e, (hmem e).mp he, hc, .inl (hp a hab').symm, hd⟩

/-- The node of a name is that of the last function that has it as its principal name, or that of no function. -/
theorem SharedFacts.index_last (f : SharedFacts demangle ord search p elf cs st0 stIr st g) (alike : p.NamesAlike)
    {n : Str} {k : Nat} (h : mget n stIr.indices = some k) :
    (cs[k]? = some n ∧ p.LastOf k k ∧ mget n st0.indices = some k) ∨ p.defined.length ≤ k := by
  rcases f.ir.fresh n k h with h | h
  · left
    have hc := f.sym.indices_some n k h
    have hk : k < p.defined.length := by rw [← f.sym.len]; exact (List.getElem?_eq_some_iff.mp hc).1
    obtain ⟨m, hm, hl⟩ := f.lookup alike (List.getElem?_eq_getElem hk) hc
    rw [h] at hm
    cases hm
    exact ⟨hc, hl, h⟩
  · right
    rwa [f.sym.nodes, List.length_map, f.sym.len] at h

/-- An alias leads to the last function that has the names of any function of this name. -/
theorem SharedFacts.alias_last (f : SharedFacts demangle ord search p elf cs st0 stIr st g) (alike : p.NamesAlike)
    {n c : Str} {k : Nat} (h : mget n st0.aliases = some c) (hk : mget c stIr.indices = some k) :
    ∃ j, p.LiveAt n j ∧ p.LastOf j k := by
  obtain ⟨j, e, h1, h2, h3⟩ := f.sym.aliases_some n c h
  obtain ⟨m, hm, hl⟩ := f.lookup alike h1 h2
  rw [f.ir.indices _ _ hm] at hk
  cases hk
  exact ⟨j, ⟨e.1, e.2, h1, (mem_realNames _ _).mp h3⟩, hl⟩

theorem SharedFacts.resolves_last (f : SharedFacts demangle ord search p elf cs st0 stIr st g) (alike : p.NamesAlike)
    {t k : Nat} (h : Resolves stIr t k) : ∃ j, p.StartsAt j t ∧ p.LastOf j k := by
  obtain ⟨name, h1, h2⟩ := h
  rw [f.ir.addr] at h1
  obtain ⟨j, s, h3, h4⟩ := f.sym.addr_some t name h1
  obtain ⟨m, hm, hl⟩ := f.lookup alike h3 h4
  rw [f.ir.indices _ _ hm] at h2
  cases h2
  exact ⟨j, ⟨s, h3⟩, hl⟩

theorem SharedFacts.ir_sound (f : SharedFacts demangle ord search p elf cs st0 stIr st g) (alike : p.NamesAlike)
    {a b : Nat} (h : (a, b) ∈ stIr.g.edges) :
    ∃ i s j nd, p.LastOf i a ∧ p.Contains i s ∧ g.nodes[b]? = some nd ∧ p.Justifies s j nd.name ∧
      (p.LastOf j b ∨ (j = b ∧ p.defined.length ≤ b)) := by
  have hstep := EdgeStep.defines p.defines f.definesOk
  rcases hstep.sound _ h with h | ⟨s, n, ⟨d, hd, hs, c, hc, hi⟩, hask, hn, _⟩
  · rw [f.sym.gedges] at h
    cases h
  · simp only at hi hn
    rw [f.ir.aliases] at hc
    obtain ⟨i, hli, hla⟩ := f.alias_last alike hc hi
    obtain ⟨nd0, hnd0, hname0⟩ := f.ir.named n b hn
    obtain ⟨nd, hnd, hname, _⟩ := f.node hnd0
    have hnn : nd.name = n := hname.trans hname0
    have hb : p.LastOf b b ∨ p.defined.length ≤ b := (f.index_last alike hn).imp (fun h => h.2.1) id
    have hcon : p.Contains i s := ⟨d, hd, hli, hs⟩
    have other : p.Justifies s b nd.name → ∃ i s j nd, p.LastOf i a ∧ p.Contains i s ∧ g.nodes[b]? = some nd ∧
        p.Justifies s j nd.name ∧ (p.LastOf j b ∨ (j = b ∧ p.defined.length ≤ b)) :=
      fun hj => ⟨i, s, b, nd, hla, hcon, hnd, hj, hb.imp id fun h => ⟨rfl, h⟩⟩
    cases hask with
    | bitcast => exact other (by rw [hnn]; exact .bitcast _ _)
    | routine hk hr =>
      refine other ?_
      rw [hnn]
      rcases classify_memory hk with ⟨h6, rfl⟩ | ⟨h6, rfl⟩
      · exact .copy _ h6 hr
      · exact .fill _ h6 hr
    | live hk ha =>
      obtain ⟨j, hj, hlj⟩ := f.alias_last alike ha hn
      exact ⟨i, _, j, nd, hla, hcon, hnd, .live _ (classify_plain.mp hk) hj, .inl hlj⟩
    | external hk ha hu =>
      refine other ?_
      rw [hnn]
      exact .external _ (classify_plain.mp hk) ((f.dead _).mp ha) hu

theorem SharedFacts.of_dashed (f : SharedFacts demangle ord search p elf cs st0 stIr st g) {k : Nat}
    {nd : Node} (hk : g.nodes[k]? = some nd) (hd : nd.dashed = true) :
    ∃ e ∈ stIr.indirects, e.2.called = true ∧ DashedFor st.hasUntypedSymbols st.fmts
      (oneTrueVoid ((ord.perm _ 0 st.indirects).filterMap (fun e => maybeVoid e.1))) e g k := by
  obtain ⟨ns, hn⟩ := f.out.nodes
  have hlt := (List.getElem?_eq_some_iff.mp hk).1
  by_cases h1 : k < stIr.g.nodes.length
  · obtain ⟨nd', h2, _, h3, _⟩ := f.node (List.getElem?_eq_getElem h1)
    rw [hk] at h2
    obtain rfl := Option.some.inj h2
    obtain ⟨ext, he⟩ := f.ir.nodes
    have hm := List.getElem_mem h1
    generalize stIr.g.nodes[k] = x at h3 hm
    rw [he, f.sym.nodes, List.mem_append] at hm
    rw [h3] at hd
    rcases hm with hm | hm <;>
    · obtain ⟨c, _, rfl⟩ := List.mem_map.mp hm
      cases hd
  · by_cases h2 : k < st.g.nodes.length
    · have h3 := f.machine.new k (by omega) h2
      rw [hn, List.getElem?_append_left h2, h3] at hk
      obtain rfl := Option.some.inj hk
      cases hd
    · rcases f.out.new k (by omega) hlt with ⟨e, h3, h4, h5⟩ | ⟨_, h3, _⟩
      · rw [(ord.isPerm _ _ _).mem_iff, f.machine.indirects] at h3
        exact ⟨e, h3, h4, h5⟩
      · rw [hk] at h3
        obtain rfl := Option.some.inj h3
        cases hd

theorem SharedFacts.fmt (f : SharedFacts demangle ord search p elf cs st0 stIr st g) (j : Nat) :
    j ∈ st.fmts ↔ ∃ e d, p.defined[j]? = some e ∧
      firstDefine p.defines (realNames e.2) = some d ∧ d.sig.FmtShape := by
  rw [f.machine.fmts, f.ir.fmts, f.sym.fmts]
  simp only [isFmtSig_iff]

theorem SharedFacts.callees_iff (f : SharedFacts demangle ord search p elf cs st0 stIr st g)
    {e : FnSig × Indirect} (he : e ∈ stIr.indirects) (j : Nat) :
    j ∈ e.2.callees ↔ ∃ s, p.defined[j]? = some s ∧ symSig p (realNames s.2) = some e.1 := by
  have h4 := List.mem_map_of_mem (f := fun e => (e.1, e.2.callees)) he
  rw [f.ir.sigs] at h4
  obtain ⟨e0, h5, h6⟩ := List.mem_map.mp h4
  simp only [Prod.mk.injEq] at h6
  rw [← h6.2, ← f.sym.callee, ← h6.1]
  unfold Callee
  constructor
  · intro hj
    exact ⟨e0.2, h5, hj⟩
  · rintro ⟨i1, h2, h3⟩
    have e1 := mget_of_mem (k := e0.1) (v := e0.2) f.sym.keys h5
    have e2 := mget_of_mem (k := e0.1) (v := i1) f.sym.keys h2
    rw [e1] at e2
    rw [Option.some.inj e2]
    exact h3

end

end CallStack
