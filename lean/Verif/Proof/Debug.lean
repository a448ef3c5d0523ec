import Verif.Model.Debug
import Verif.Proof.SharedLocal

/-! Lemmas for C118: the debug assertions. -/

namespace CallStack

theorem SymInv.addr_iff {demangle : Str → Str} {p : Program} {done : List (Nat × Sym)} {cs : List Str} {st : Build}
    (inv : SymInv demangle p done cs st) (a : Nat) : (mget a st.addr2name).isSome = true ↔ a ∈ done.map (·.1) := by
  rw [Option.isSome_iff_exists, List.mem_map]
  constructor
  · rintro ⟨c, hc⟩
    obtain ⟨i, s, h1, _⟩ := inv.addr_some a c hc
    exact ⟨_, List.mem_of_getElem? h1, rfl⟩
  · rintro ⟨e, he, rfl⟩
    obtain ⟨i, hi⟩ := List.getElem?_of_mem he
    exact Option.ne_none_iff_exists'.mp (inv.addr_ne i e hi)

/-- The pass over the symbols, if no address occurs twice. -/
theorem symPassD_same {demangle : Str → Str} {p : Program} (es : List (Nat × Sym)) :
    ∀ {done : List (Nat × Sym)} {cs : List Str} {st : Build}, SymInv demangle p done cs st →
      ((done ++ es).map (·.1)).Nodup → symPassD demangle p st es = plainly (symPass demangle p st es) := by
  induction es with
  | nil => intro _ _ _ _ _; rfl
  | cons e es ih =>
    intro done cs st inv hnd
    have hfresh : (mget e.1 st.addr2name).isSome = false := by
      rw [Bool.eq_false_iff]
      intro h
      have := (inv.addr_iff e.1).mp h
      rw [List.map_append, List.map_cons, List.nodup_append] at hnd
      exact hnd.2.2 _ this _ List.mem_cons_self rfl
    cases h : symStep demangle p st e with
    | error err => simp [symPassD, symPass, symStepD, h, plainly]
    | ok st' =>
      obtain ⟨c, inv'⟩ := symStep_inv inv h
      have := ih inv' (by rw [List.append_assoc]; exact hnd)
      simp [symPassD, symPass, symStepD, h, hfresh, this]

/-- If an address occurs twice, the assertion fails, unless the run fails before. -/
theorem symPassD_twice {demangle : Str → Str} {p : Program} (es : List (Nat × Sym)) :
    ∀ {done : List (Nat × Sym)} {cs : List Str} {st st' : Build}, SymInv demangle p done cs st →
      (done.map (·.1)).Nodup → ¬ ((done ++ es).map (·.1)).Nodup → symPass demangle p st es = .ok st' →
      symPassD demangle p st es = .error .sameAddress := by
  induction es with
  | nil =>
    intro done cs st st' _ h1 h2 _
    rw [List.append_nil] at h2
    exact absurd h1 h2
  | cons e es ih =>
    intro done cs st st' inv h1 h2 h
    simp only [symPass] at h
    split at h
    · cases h
    · rename_i st1 hs
      obtain ⟨c, inv'⟩ := symStep_inv inv hs
      by_cases hm : e.1 ∈ done.map (·.1)
      · simp [symPassD, symStepD, hs, (inv.addr_iff e.1).mpr hm]
      · have hf : (mget e.1 st.addr2name).isSome = false := by
          rw [Bool.eq_false_iff]
          exact fun h => hm ((inv.addr_iff e.1).mp h)
        have := ih inv' (by
          rw [List.map_append, List.nodup_append]
          refine ⟨h1, by simp, ?_⟩
          intro a ha b hb hab
          simp only [List.map_cons, List.map_nil, List.mem_singleton] at hb
          exact hm (hb ▸ hab ▸ ha)) (by rw [List.append_assoc]; exact h2) h
        simp [symPassD, symStepD, hs, hf, this]

/-! ### Visits -/

theorem topoNext_new {adj radj : Nat → List Nat} {ordered tv' ordered' : List Nat} {nx : Nat} :
    ∀ {tv : List Nat}, topoNext adj radj tv ordered = some (nx, tv', ordered') →
      nx ∉ ordered ∧ ordered' = nx :: ordered := by
  intro tv
  induction tv with
  | nil => intro h; simp [topoNext] at h
  | cons a tv ih =>
    intro h
    unfold topoNext at h
    split at h
    · exact ih h
    · rename_i hc
      simp only [Option.some.injEq, Prod.mk.injEq] at h
      obtain ⟨rfl, _, rfl⟩ := h
      exact ⟨by simpa using hc, rfl⟩

/-- `Topo` yields no node twice, whatever the graph. -/
theorem topoCollect_nodup {adj radj : Nat → List Nat} (fuel : Nat) : ∀ {tv ordered out : List Nat},
    topoCollect adj radj fuel tv ordered = some out → out.Nodup ∧ ∀ x ∈ out, x ∉ ordered := by
  induction fuel with
  | zero => intro tv ordered out h; simp [topoCollect] at h
  | succ fuel ih =>
    intro tv ordered out h
    unfold topoCollect at h
    split at h
    · cases h
      simp
    · rename_i nx tv' ordered' hn
      obtain ⟨h1, rfl⟩ := topoNext_new hn
      split at h
      · cases h
      · rename_i rest hr
        cases h
        obtain ⟨h2, h3⟩ := ih hr
        refine ⟨List.nodup_cons.mpr ⟨fun h4 => h3 nx h4 List.mem_cons_self, h2⟩, ?_⟩
        intro x hx
        rcases List.mem_cons.mp hx with rfl | hx
        · exact h1
        · exact fun h4 => h3 x hx (List.mem_cons_of_mem _ h4)

/-- No node of these has a max. -/
def NoMax (g : Graph) (l : List Nat) : Prop :=
  ∀ i ∈ l, ∀ nd, g.nodes[i]? = some nd → nd.max = none

theorem nodeStep_others {g g' : Graph} {i j : Nat} (h : nodeStep g i = .ok g') (hij : i ≠ j) :
    g'.nodes[j]? = g.nodes[j]? := by
  have hset : ∀ m, (g.setMax i m).nodes[j]? = g.nodes[j]? := by
    intro m
    unfold Graph.setMax
    simp [List.getElem?_modify, hij]
  unfold nodeStep at h
  split at h
  · cases h
  · split at h
    · cases h
    · split at h
      · split at h
        · cases h
        · cases h
          exact hset _
      · cases h
        exact hset _

theorem topoLoopD_same (order : List Nat) : ∀ {g : Graph}, order.Nodup → NoMax g order →
    topoLoopD g order = plainly (topoLoop g order) := by
  induction order with
  | nil => intro _ _ _; rfl
  | cons i rest ih =>
    intro g hnd hno
    obtain ⟨h1, h2⟩ := List.nodup_cons.mp hnd
    have hm : g.hasMax i = false := by
      unfold Graph.hasMax
      cases hn : g.nodes[i]? with
      | none => rfl
      | some nd => simp [hno i List.mem_cons_self nd hn]
    cases hs : nodeStep g i with
    | error e => simp [topoLoopD, topoLoop, hm, hs, plainly]
    | ok g' =>
      have := ih (g := g') h2 (by
        intro j hj nd hnd
        rw [nodeStep_others hs (fun h => h1 (h ▸ hj))] at hnd
        exact hno j (List.mem_cons_of_mem _ hj) nd hnd)
      simp [topoLoopD, topoLoop, hm, hs, this]

theorem analyzeMaxD_same {g : Graph} (info : Bool) (hno : ∀ nd ∈ g.nodes, nd.max = none) :
    analyzeMaxD info g = plainly (analyzeMax info g) := by
  unfold analyzeMaxD analyzeMax
  cases info with
  | false => rfl
  | true =>
    simp only [Bool.not_true, Bool.false_eq_true, if_false]
    split
    · rename_i h; simp [h, plainly]
    · rename_i h; simp [h]
    · rename_i h
      simp only [h, analyzeAcyclic]
      cases ht : topoOrder g.nodes.length g.inc g.out with
      | none => rfl
      | some order =>
        have hnd : order.Nodup := (topoCollect_nodup _ ht).1
        simp only [topoLoopD_same order hnd fun i _ nd h => hno nd (List.mem_of_getElem? h)]
        cases topoLoop g order <;> rfl

/-! ### Start point -/

theorem getOrAdd_nodes {g : Graph} {st st' : FilterState} {i j : Nat} (h : getOrAdd g st i = .ok (st', j))
    (hs : ∀ nd ∈ st.g2.nodes, nd ∈ g.nodes) : ∀ nd ∈ st'.g2.nodes, nd ∈ g.nodes := by
  unfold getOrAdd at h
  split at h
  · cases h; exact hs
  · split at h
    · cases h
    · rename_i w hw
      simp only [Graph.addNode, Except.ok.injEq, Prod.mk.injEq] at h
      obtain ⟨rfl, _⟩ := h
      intro nd hnd
      simp only [List.mem_append, List.mem_singleton] at hnd
      rcases hnd with hnd | rfl
      · exact hs nd hnd
      · exact List.mem_of_getElem? hw

theorem filterCallees_nodes {g : Graph} {c : Nat} (l : List Nat) : ∀ {st st' : FilterState},
    filterCallees g c st l = .ok st' → (∀ nd ∈ st.g2.nodes, nd ∈ g.nodes) → ∀ nd ∈ st'.g2.nodes, nd ∈ g.nodes := by
  induction l with
  | nil => intro st st' h hs; cases h; exact hs
  | cons a l ih =>
    intro st st' h hs
    unfold filterCallees at h
    split at h
    · cases h
    · rename_i st1 c2 h1
      exact ih h (fun nd hnd => getOrAdd_nodes h1 hs nd hnd)

theorem filterLoop_nodes {g : Graph} (l : List Nat) : ∀ {st st' : FilterState},
    filterLoop g st l = .ok st' → (∀ nd ∈ st.g2.nodes, nd ∈ g.nodes) → ∀ nd ∈ st'.g2.nodes, nd ∈ g.nodes := by
  induction l with
  | nil => intro st st' h hs; cases h; exact hs
  | cons a l ih =>
    intro st st' h hs
    unfold filterLoop at h
    split at h
    · cases h
    · rename_i st1 c2 h1
      split at h
      · cases h
      · rename_i st2 h2
        exact ih h (filterCallees_nodes _ h2 (getOrAdd_nodes h1 hs))

theorem applyStart_nodes {demangle : Str → Str} {indices : List (Str × Nat)} {start : Option Str} {g g1 : Graph}
    (h : applyStart demangle indices start g = .ok g1) : ∀ nd ∈ g1.nodes, nd ∈ g.nodes := by
  unfold applyStart at h
  split at h
  · cases h; exact fun _ h => h
  · split at h
    · cases h; exact fun _ h => h
    · split at h
      · cases h
      · rename_i st hf
        cases h
        unfold filterGraph at hf
        split at hf
        · cases hf
        · exact filterLoop_nodes _ hf (by simp [Graph.empty])

/-! ### The whole run -/

theorem callGraphD_same {demangle : Str → Str} {ord : HashOrder} {search : TagSearch} {p : Program} {elf : Elf}
    (hnd : (p.defined.map (·.1)).Nodup) :
    callGraphD demangle ord search p elf = plainly (callGraph demangle ord search p elf) := by
  unfold callGraphD callGraph irGraph
  rw [symPassD_same p.defined (SymInv.empty demangle p) (by simpa using hnd)]
  cases symPass demangle p Build.empty p.defined with
  | error e => rfl
  | ok st =>
    simp only [plainly]
    cases definePass p st p.defines with
    | error e => rfl
    | ok st =>
      simp only
      cases machinePass search p elf st <;> rfl

theorem finalGraphD_same {demangle : Str → Str} {ord : HashOrder} {search : TagSearch} {p : Program} {elf : Elf}
    {start : Option Str} (hnd : (p.defined.map (·.1)).Nodup) :
    finalGraphD demangle ord search p elf start = plainly (finalGraph demangle ord search p elf start) := by
  unfold finalGraphD finalGraph
  rw [callGraphD_same hnd]
  cases hc : callGraph demangle ord search p elf with
  | error e => rfl
  | ok x =>
    obtain ⟨st, g⟩ := x
    simp only [plainly]
    cases ha : applyStart demangle st.indices start g with
    | error e => rfl
    | ok g1 =>
      simp only
      have hno : ∀ nd ∈ g1.nodes, nd.max = none := by
        intro nd hm
        obtain ⟨cs, st0, stIr, f⟩ := callGraph_shared hc
        obtain ⟨k, hk⟩ := List.getElem?_of_mem (applyStart_nodes ha nd hm)
        exact f.max_none hk
      rw [analyzeMaxD_same st.hasStackUsageInfo hno]
      cases analyzeMax st.hasStackUsageInfo g1 with
      | error e => rfl
      | ok y =>
        simp only [plainly]
        cases shortenNodes demangle st.ambiguous y.1.nodes <;> rfl

end CallStack
