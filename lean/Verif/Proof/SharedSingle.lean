import Verif.Proof.SharedEdges

/-! Edges that are not repeated, for programs in which several functions may have the same names. -/

namespace CallStack

/-- Every edge from `a` was recorded, none was added twice, and all that was recorded are edges. -/
def OneEach (a : Nat) (st : Build) : Prop :=
  (∀ i j, j ∈ st.seen i → (i, j) ∈ st.g.edges) ∧ Single st a

theorem OneEach.frame {a : Nat} {st st' : Build} (h : OneEach a st) (h1 : st'.g.edges = st.g.edges)
    (h2 : st'.edges = st.edges) : OneEach a st' := by
  refine ⟨fun i j hj => ?_, h.2.frame h1 h2⟩
  rw [h1]
  refine h.1 i j ?_
  unfold Build.seen at hj ⊢
  rwa [h2] at hj

theorem OneEach.call {a : Nat} {st : Build} (h : OneEach a st) (i j : Nat) : OneEach a (st.call i j) := by
  refine ⟨fun x y hy => ?_, h.2.call h.1 i j⟩
  rw [mem_call_edges (h.1 i j)]
  rcases (mem_call_seen st i j x y).mp hy with hy | ⟨hx, hy⟩
  · exact .inl (h.1 x y hy)
  · exact .inr (by rw [hx, hy])

theorem OneEach.routines {a : Nat} (i : Nat) (rs : List Str) : ∀ {st : Build}, OneEach a st →
    OneEach a (st.callRoutines i rs) := by
  unfold Build.callRoutines
  induction rs with
  | nil => exact fun h => h
  | cons r rs ih =>
    intro st h
    simp only [List.foldl_cons]
    split
    · exact ih (h.call i _)
    · exact ih h

theorem OneEach.getOrAdd {a : Nat} {st : Build} (h : OneEach a st) (n : Str) : OneEach a (st.getOrAddNode n).1 := by
  unfold Build.getOrAddNode
  split
  · exact h
  · exact h.frame rfl rfl

theorem OneEach.stmt {a : Nat} {p : Program} {c : Str} {i : Nat} {st st' : Build} {s : Stmt} (h : OneEach a st)
    (hs : a = i → ∀ x, s ≠ .bitcastCall x) (hstep : stmtStep p c i st s = .ok st') : OneEach a st' := by
  unfold stmtStep at hstep
  split at hstep
  · cases hstep
    exact h.frame rfl rfl
  · cases hstep
  · rename_i sym
    have hne : a ≠ i := fun he => hs he _ rfl
    have he := Except.ok.inj hstep
    subst he
    have h1 := h.getOrAdd sym
    refine ⟨fun x y hy => ?_, ⟨fun j => ?_, fun j hj => ?_⟩⟩
    · simp only [Graph.addEdge, List.mem_append]
      exact .inl (h1.1 x y hy)
    · simp only [Graph.addEdge, List.count_append, List.count_singleton]
      rw [if_neg]
      · exact h1.2.count j
      · simp only [beq_iff_eq, Prod.mk.injEq, not_and]
        exact fun he => absurd he.symm hne
    · simp only [Graph.addEdge, List.mem_append, List.mem_singleton, Prod.mk.injEq] at hj
      rcases hj with hj | ⟨he, _⟩
      · exact h1.2.seen j hj
      · exact absurd he hne
  · split at hstep
    · cases hstep
      exact h
    · cases hstep
      exact h.routines i _
    · cases hstep
    · unfold plainCall at hstep
      split at hstep
      · cases hstep
        exact h
      · split at hstep
        · split at hstep
          · cases hstep
            exact h.call i _
          · cases hstep
        · split at hstep
          · rename_i func _ _ _ _ _
            have he := Except.ok.inj hstep
            subst he
            exact (h.getOrAdd _).call i _
          · cases hstep
  · cases hstep
    exact h.frame rfl rfl
  all_goals
    cases hstep
    exact h

theorem OneEach.stmts {a : Nat} {p : Program} {c : Str} {i : Nat} (ss : List Stmt) : ∀ {st st' : Build},
    OneEach a st → (a = i → ∀ s ∈ ss, ∀ x, s ≠ .bitcastCall x) → stmtsPass p c i st ss = .ok st' →
    OneEach a st' := by
  induction ss with
  | nil =>
    intro st st' h _ hp
    cases hp
    exact h
  | cons s ss ih =>
    intro st st' h hs hp
    simp only [stmtsPass] at hp
    split at hp
    · cases hp
    · rename_i st1 h1
      exact ih (h.stmt (fun he => hs he s List.mem_cons_self) h1)
        (fun he s' hs' => hs he s' (List.mem_cons_of_mem _ hs')) hp

theorem OneEach.defines {a : Nat} {p : Program} (ds : List Define) : ∀ {st st' : Build}, OneEach a st →
    definePass p st ds = .ok st' → (∀ s, StmtOf ds st' a s → ∀ x, s ≠ .bitcastCall x) → OneEach a st' := by
  induction ds with
  | nil =>
    intro st st' h hp _
    cases hp
    exact h
  | cons d ds ih =>
    intro st st' h hp hs
    simp only [definePass] at hp
    split at hp
    · cases hp
    · rename_i st1 h1
      have hrest := EdgeStep.defines ds hp
      refine ih ?_ hp fun s ⟨d', k1, k2⟩ => hs s ⟨d', List.mem_cons_of_mem _ k1, k2⟩
      unfold defineStep at h1
      split at h1
      · cases h1
        exact h
      · rename_i canonical hcn
        split at h1
        · cases h1
        · rename_i caller hcal
          have hst := EdgeStep.stmts d.stmts h1
          refine OneEach.stmts d.stmts (st := { st with
            defined := sinsert canonical st.defined
            edges := mset caller (st.seen caller) st.edges }) ?_ ?_ h1
          · have hsame : ∀ i, Build.seen { st with
                defined := sinsert canonical st.defined
                edges := mset caller (st.seen caller) st.edges } i = st.seen i := by
              intro i
              rw [seen_set st caller i (st.seen caller) _ rfl]
              split
              · rename_i he
                rw [he]
              · rfl
            refine ⟨fun i j hj => h.1 i j (hsame i ▸ hj), h.2.count, fun j hj => ?_⟩
            rw [hsame]
            exact h.2.seen j hj
          · rintro rfl s hs'
            exact hs s ⟨d, List.mem_cons_self, hs', canonical, by rw [hrest.aliases, hst.aliases]; exact hcn,
              hrest.indices _ _ (hst.indices _ _ hcal)⟩

section

variable {demangle : Str → Str} {ord : HashOrder} {search : TagSearch} {p : Program} {elf : Elf}
  {cs : List Str} {st0 stIr st : Build} {g : Graph}

theorem SharedFacts.single (f : SharedFacts demangle ord search p elf cs st0 stIr st g) (alike : p.NamesAlike)
    {a : Nat} (h : ∀ i, p.LastOf i a → ∀ x, ¬ p.Contains i (.bitcastCall x)) : Single stIr a := by
  refine (OneEach.defines p.defines ?_ f.definesOk ?_).2
  · refine ⟨fun i j hj => ?_, fun j => ?_, fun j hj => ?_⟩
    · unfold Build.seen at hj
      rw [f.sym.edges] at hj
      cases hj
    · rw [f.sym.gedges]
      exact Nat.zero_le _
    · rw [f.sym.gedges] at hj
      cases hj
  · rintro s ⟨d, hd, hs, c, hc, hi⟩ x rfl
    rw [f.ir.aliases] at hc
    obtain ⟨i, hli, hla⟩ := f.alias_last alike hc hi
    exact h i hla x ⟨d, hd, hli, hs⟩

end

end CallStack
