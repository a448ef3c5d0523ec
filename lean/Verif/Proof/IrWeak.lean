import Verif.Proof.Build

/-! What the pass over the LLVM-IR does for every program, whatever the names of its functions are. -/

namespace CallStack

/-- Why a node is added: the statement names it. -/
def AddsNode (thumb : Bool) (s : Stmt) (n : Str) : Prop :=
  s = .bitcastCall (some n) ∨ (s = .directCall n ∧ classify thumb n = .plain)

/-- A statement that does not make the tool abort. -/
def Passes (p : Program) (aliases : List (Str × Str)) (s : Stmt) : Prop :=
  s ≠ .bitcastCall none ∧ ∀ f, s = .directCall f → classify p.target.isThumb f ≠ .unhandled ∧
    (classify p.target.isThumb f = .plain → mget f aliases = none → f ∉ symbollessIntrinsics → f ∈ p.undefined)

structure NodeStep (p : Program) (Q : Stmt → Prop) (st st' : Build) : Prop where
  aliases : st'.aliases = st.aliases
  nodes : ∀ (k : Nat) (nd : Node), st'.g.nodes[k]? = some nd →
    st.g.nodes[k]? = some nd ∨ ∃ s, Q s ∧ AddsNode p.target.isThumb s nd.name
  passes : ∀ s, Q s → Passes p st.aliases s

theorem NodeStep.trans {p : Program} {Q Q' Q'' : Stmt → Prop} {a b c : Build} (h1 : NodeStep p Q a b)
    (h2 : NodeStep p Q' b c) (hq : ∀ s, Q'' s ↔ Q s ∨ Q' s) : NodeStep p Q'' a c := by
  refine ⟨h2.aliases.trans h1.aliases, fun k nd hk => ?_, fun s hs => ?_⟩
  · rcases h2.nodes k nd hk with hk | ⟨s, k1, k2⟩
    · rcases h1.nodes k nd hk with hk | ⟨s, k1, k2⟩
      · exact .inl hk
      · exact .inr ⟨s, (hq s).mpr (.inl k1), k2⟩
    · exact .inr ⟨s, (hq s).mpr (.inr k1), k2⟩
  · rcases (hq s).mp hs with hs | hs
    · exact h1.passes s hs
    · exact h1.aliases ▸ h2.passes s hs

theorem getOrAdd_node (st : Build) (n : Str) {k : Nat} {nd : Node}
    (h : (st.getOrAddNode n).1.g.nodes[k]? = some nd) : st.g.nodes[k]? = some nd ∨ nd.name = n := by
  unfold Build.getOrAddNode at h
  split at h
  · exact .inl h
  · simp only [Graph.addNode] at h
    rw [List.getElem?_append] at h
    split at h
    · exact .inl h
    · obtain ⟨rfl⟩ := List.mem_singleton.mp (List.mem_of_getElem? h)
      exact .inr rfl

theorem NodeStep.stmt {p : Program} {c : Str} {i : Nat} {st st' : Build} {s : Stmt}
    (h : stmtStep p c i st s = .ok st') : NodeStep p (· = s) st st' := by
  have ha := stmtStep_aliases h
  unfold stmtStep at h
  split at h
  · cases h
    exact ⟨rfl, fun k nd h => .inl h, by rintro _ rfl; exact ⟨nofun, nofun⟩⟩
  · cases h
  · rename_i sym
    have he := Except.ok.inj h
    subst he
    refine ⟨ha, fun k nd hk => ?_, by rintro _ rfl; exact ⟨nofun, nofun⟩⟩
    rcases getOrAdd_node st sym hk with hk | rfl
    · exact .inl hk
    · exact .inr ⟨_, rfl, .inl rfl⟩
  · rename_i func
    split at h
    · rename_i hc
      cases h
      refine ⟨rfl, fun k nd h => .inl h, ?_⟩
      rintro _ rfl
      refine ⟨nofun, fun f hf => ?_⟩
      cases hf
      rw [hc]
      exact ⟨nofun, nofun⟩
    · rename_i rs hc
      cases h
      refine ⟨ha, fun k nd h => .inl ((callRoutines_frame i rs st).1 ▸ h), ?_⟩
      rintro _ rfl
      refine ⟨nofun, fun f hf => ?_⟩
      cases hf
      rw [hc]
      exact ⟨nofun, nofun⟩
    · cases h
    · rename_i hc
      unfold plainCall at h
      split at h
      · rename_i hm
        cases h
        refine ⟨rfl, fun k nd h => .inl h, ?_⟩
        rintro _ rfl
        refine ⟨nofun, fun f hf => ?_⟩
        cases hf
        rw [hc]
        refine ⟨nofun, fun _ _ hs => ?_⟩
        simp only [Bool.and_eq_true, List.contains_iff_mem] at hm
        exact absurd hm.1 hs
      · split at h
        · rename_i canon hcan
          split at h
          · rename_i callee _
            cases h
            refine ⟨ha, fun k nd h => .inl ((call_frame st i callee).1 ▸ h), ?_⟩
            rintro _ rfl
            refine ⟨nofun, fun f hf => ?_⟩
            cases hf
            rw [hc]
            exact ⟨nofun, fun _ hn => by rw [hcan] at hn; cases hn⟩
          · cases h
        · split at h
          · rename_i hu
            have he := Except.ok.inj h
            subst he
            refine ⟨ha, fun k nd hk => ?_, ?_⟩
            · rw [(call_frame _ i _).1] at hk
              rcases getOrAdd_node st func hk with hk | rfl
              · exact .inl hk
              · exact .inr ⟨_, rfl, .inr ⟨rfl, hc⟩⟩
            · rintro _ rfl
              refine ⟨nofun, fun f hf => ?_⟩
              cases hf
              rw [hc]
              exact ⟨nofun, fun _ _ _ => by simpa using hu⟩
          · cases h
  all_goals
    cases h
    exact ⟨rfl, fun k nd h => .inl h, by rintro _ rfl; exact ⟨nofun, nofun⟩⟩

theorem NodeStep.stmts {p : Program} {c : Str} {i : Nat} (ss : List Stmt) : ∀ {st st' : Build},
    stmtsPass p c i st ss = .ok st' → NodeStep p (· ∈ ss) st st' := by
  induction ss with
  | nil =>
    intro st st' h
    cases h
    exact ⟨rfl, fun k nd h => .inl h, nofun⟩
  | cons s ss ih =>
    intro st st' h
    simp only [stmtsPass] at h
    split at h
    · cases h
    · rename_i st1 h1
      exact (NodeStep.stmt h1).trans (ih h) fun s' => List.mem_cons

theorem NodeStep.defines {p : Program} (ds : List Define) : ∀ {st st' : Build}, definePass p st ds = .ok st' →
    NodeStep p (fun s => ∃ d ∈ ds, mget d.name st.aliases ≠ none ∧ s ∈ d.stmts) st st' := by
  induction ds with
  | nil =>
    intro st st' h
    cases h
    exact ⟨rfl, fun k nd h => .inl h, by rintro s ⟨d, hd, _⟩; cases hd⟩
  | cons d ds ih =>
    intro st st' h
    simp only [definePass] at h
    split at h
    · cases h
    · rename_i st1 h1
      have key : NodeStep p (fun s => mget d.name st.aliases ≠ none ∧ s ∈ d.stmts) st st1 := by
        unfold defineStep at h1
        split at h1
        · rename_i hn
          cases h1
          exact ⟨rfl, fun k nd h => .inl h, fun s hs => absurd hn hs.1⟩
        · rename_i canonical hcn
          split at h1
          · cases h1
          · have hs := NodeStep.stmts d.stmts h1
            refine ⟨hs.aliases, fun k nd hk => ?_, fun s hs' => hs.passes s hs'.2⟩
            rcases hs.nodes k nd hk with hk | ⟨s, k1, k2⟩
            · exact .inl hk
            · exact .inr ⟨s, ⟨by rw [hcn]; exact nofun, k1⟩, k2⟩
      refine key.trans (ih h) fun s => ?_
      rw [key.aliases]
      simp only [List.mem_cons, exists_eq_or_imp]

/-- What holds of the graph of the LLVM-IR, for every program. -/
theorem irGraph_weak {demangle : Str → Str} {p : Program} {st : Build} (h : irGraph demangle p = .ok st) :
    ∃ (cs : List Str) (st0 : Build), SymInv demangle p p.defined cs st0 ∧
      (∀ i s, p.Contains i s → Passes p st0.aliases s) ∧
      ∀ (k : Nat) (nd : Node), st.g.nodes[k]? = some nd → (∃ c, cs[k]? = some c ∧ nd.name = c) ∨
        ∃ i s, p.Contains i s ∧ AddsNode p.target.isThumb s nd.name := by
  unfold irGraph at h
  split at h
  · cases h
  · rename_i st0 h0
    obtain ⟨cs, hs⟩ := symPass_inv p.defined (SymInv.empty demangle p) h0
    simp only [List.nil_append] at hs
    have hd := NodeStep.defines p.defines h
    refine ⟨cs, st0, hs, fun i s => ?_, fun k nd hk => ?_⟩
    · rintro ⟨d, hd1, ⟨a, y, h1, h2⟩, h3⟩
      exact hd.passes s ⟨d, hd1, hs.aliases_ne d.name i _ h1 ((mem_realNames _ _).mpr h2), h3⟩
    · rcases hd.nodes k nd hk with hk | ⟨s, ⟨d, k1, k2, k3⟩, k4⟩
      · left
        rw [hs.nodes, List.getElem?_map] at hk
        obtain ⟨c, h1, rfl⟩ := Option.map_eq_some_iff.mp hk
        exact ⟨c, h1, rfl⟩
      · right
        obtain ⟨c, hc⟩ := Option.ne_none_iff_exists'.mp k2
        obtain ⟨i, e, h1, _, h3⟩ := hs.aliases_some d.name c hc
        exact ⟨i, s, ⟨d, k1, ⟨e.1, e.2, h1, (mem_realNames _ _).mp h3⟩, k3⟩, k4⟩

end CallStack
