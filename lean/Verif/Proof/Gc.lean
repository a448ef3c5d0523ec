import Verif.Proof.CallGraph

/-! Definitions and declarations of functions that are not in the executable have no effect. -/

namespace CallStack

theorem defineStep_aliases {p : Program} {st st' : Build} {d : Define}
    (h : defineStep p st d = .ok st') : st'.aliases = st.aliases := by
  unfold defineStep at h
  split at h
  · simp only [Except.ok.injEq] at h; rw [h]
  · split at h
    · simp at h
    · have := stmtsPass_aliases _ h
      exact this

/-- The program without some of its definitions and declarations. -/
def Program.without (p : Program) (keep : Define → Bool) (keepD : Declare → Bool) : Program :=
  { p with defines := p.defines.filter keep, declares := p.declares.filter keepD }

theorem find_filter {α : Type} {q keep : α → Bool} {l : List α}
    (h : ∀ a ∈ l, q a = true → keep a = true) : (l.filter keep).find? q = l.find? q := by
  induction l with
  | nil => rfl
  | cons a l ih =>
    have ih' := ih (fun b hb => h b (List.mem_cons_of_mem _ hb))
    rw [List.filter_cons]
    split
    · rw [List.find?_cons, List.find?_cons, ih']
    · rename_i hk
      rw [List.find?_cons, ih']
      cases hq : q a with
      | true => exact absurd (h a List.mem_cons_self hq) hk
      | false => rfl

theorem filterMap_congr' {α β : Type} {f f' : α → Option β} {l : List α} (h : ∀ a ∈ l, f a = f' a) :
    l.filterMap f = l.filterMap f' := by
  induction l with
  | nil => rfl
  | cons a l ih =>
    simp only [List.filterMap_cons]
    rw [h a List.mem_cons_self, ih (fun b hb => h b (List.mem_cons_of_mem _ hb))]

variable {demangle : Str → Str} {p : Program} {keep : Define → Bool} {keepD : Declare → Bool}

theorem symStep_without (hk : ∀ d ∈ p.defines, keep d = false → p.NotLive d.name)
    (hd : ∀ d ∈ p.declares, keepD d = false → p.NotLive d.name) {e : Nat × Sym}
    (he : e ∈ p.defined) (st : Build) :
    symStep demangle (p.without keep keepD) st e = symStep demangle p st e := by
  obtain ⟨i, hi⟩ := List.getElem?_of_mem he
  have hlive : ∀ n ∈ realNames e.2, p.LiveAt n i := fun n hn => (liveAt_iff p n i).mpr ⟨e, hi, hn⟩
  have h1 : firstDefine (p.without keep keepD).defines (realNames e.2) =
      firstDefine p.defines (realNames e.2) := by
    unfold firstDefine
    rw [filterMap_congr' (f' := getDefine p.defines)]
    intro n hn
    apply find_filter
    intro d hdm hq
    simp only [decide_eq_true_eq] at hq
    cases hkd : keep d with
    | true => rfl
    | false => exact absurd (hq ▸ hlive n hn) (hk d hdm hkd i)
  have h2 : firstDeclared (p.without keep keepD).declares (realNames e.2) =
      firstDeclared p.declares (realNames e.2) := by
    unfold firstDeclared
    rw [filterMap_congr' (f' := fun name => (getDeclare p.declares name).bind (·.sig))]
    intro n hn
    have : getDeclare (p.without keep keepD).declares n = getDeclare p.declares n := by
      apply find_filter
      intro d hdm hq
      simp only [decide_eq_true_eq] at hq
      cases hkd : keepD d with
      | true => rfl
      | false => exact absurd (hq ▸ hlive n hn) (hd d hdm hkd i)
    rw [this]
  have h3 : ∀ c idx st, registerType (p.without keep keepD) (realNames e.2) c idx st =
      registerType p (realNames e.2) c idx st := by
    intro c idx st
    unfold registerType
    rw [h1, h2]
  unfold symStep
  simp only [h3]
  rfl

theorem symPass_without (hk : ∀ d ∈ p.defines, keep d = false → p.NotLive d.name)
    (hd : ∀ d ∈ p.declares, keepD d = false → p.NotLive d.name) (es : List (Nat × Sym))
    (hes : ∀ e ∈ es, e ∈ p.defined) (st : Build) :
    symPass demangle (p.without keep keepD) st es = symPass demangle p st es := by
  induction es generalizing st with
  | nil => rfl
  | cons e es ih =>
    simp only [symPass]
    rw [symStep_without hk hd (hes e List.mem_cons_self)]
    split
    · rfl
    · exact ih (fun e' h' => hes e' (List.mem_cons_of_mem _ h')) _

theorem stmtsPass_without (c : Str) (i : Nat) (ss : List Stmt) (st : Build) :
    stmtsPass (p.without keep keepD) c i st ss = stmtsPass p c i st ss := by
  induction ss generalizing st with
  | nil => rfl
  | cons s ss ih =>
    simp only [stmtsPass]
    have : stmtStep (p.without keep keepD) c i st s = stmtStep p c i st s := rfl
    rw [this]
    split
    · rfl
    · exact ih _

theorem definePass_without (ds : List Define) (st : Build)
    (hk : ∀ d ∈ ds, keep d = false → mget d.name st.aliases = none) :
    definePass (p.without keep keepD) st (ds.filter keep) = definePass p st ds := by
  induction ds generalizing st with
  | nil => rfl
  | cons d ds ih =>
    have hstep : defineStep (p.without keep keepD) st d = defineStep p st d := by
      unfold defineStep
      simp only [stmtsPass_without]
    rw [List.filter_cons]
    split
    · simp only [definePass]
      rw [hstep]
      split
      · rfl
      · rename_i st' h'
        apply ih
        intro d' hd' hkd'
        rw [defineStep_aliases h']
        exact hk d' (List.mem_cons_of_mem _ hd') hkd'
    · rename_i hkd
      have hnone := hk d List.mem_cons_self (by simpa using hkd)
      have : defineStep p st d = .ok st := by
        unfold defineStep
        rw [hnone]
      simp only [definePass, this]
      exact ih st (fun d' hd' => hk d' (List.mem_cons_of_mem _ hd'))

theorem irGraph_without (hk : ∀ d ∈ p.defines, keep d = false → p.NotLive d.name)
    (hd : ∀ d ∈ p.declares, keepD d = false → p.NotLive d.name) :
    irGraph demangle (p.without keep keepD) = irGraph demangle p := by
  unfold irGraph
  have : (p.without keep keepD).defined = p.defined := rfl
  rw [this, symPass_without hk hd _ (fun e h => h)]
  cases hs : symPass demangle p Build.empty p.defined with
  | error e => rfl
  | ok st =>
    simp only
    obtain ⟨cs, inv⟩ := symPass_inv p.defined (SymInv.empty demangle p) hs
    simp only [List.nil_append] at inv
    apply definePass_without
    intro d hdm hkd
    exact (inv.dead d.name).mpr (hk d hdm hkd)

/-! ### Statements without effect -/

/-- The program without some statements of its functions. -/
def Program.keepStmts (p : Program) (keep : Stmt → Bool) : Program :=
  { p with defines := p.defines.map (fun d => { d with stmts := d.stmts.filter keep }) }

theorem getDefine_keep (keep : Stmt → Bool) (ds : List Define) (n : Str) :
    getDefine (ds.map (fun d => { d with stmts := d.stmts.filter keep })) n =
      (getDefine ds n).map (fun d => { d with stmts := d.stmts.filter keep }) := by
  unfold getDefine
  rw [List.find?_map]
  rfl

theorem firstDefine_keep (keep : Stmt → Bool) (ds : List Define) (ns : List Str) :
    firstDefine (ds.map (fun d => { d with stmts := d.stmts.filter keep })) ns =
      (firstDefine ds ns).map (fun d => { d with stmts := d.stmts.filter keep }) := by
  unfold firstDefine
  rw [filterMap_congr' (f' := fun n =>
    (getDefine ds n).map (fun d => { d with stmts := d.stmts.filter keep }))
    (fun n _ => getDefine_keep keep ds n), ← List.map_filterMap, List.head?_map]

theorem symStep_keep (keep : Stmt → Bool) (st : Build) (e : Nat × Sym) :
    symStep demangle (p.keepStmts keep) st e = symStep demangle p st e := by
  have h3 : ∀ ns c idx st, registerType (p.keepStmts keep) ns c idx st =
      registerType p ns c idx st := by
    intro ns c idx st
    have h1 : firstDefine (p.keepStmts keep).defines ns =
        (firstDefine p.defines ns).map (fun d => { d with stmts := d.stmts.filter keep }) :=
      firstDefine_keep keep p.defines ns
    have h2 : (p.keepStmts keep).declares = p.declares := rfl
    unfold registerType
    rw [h1, h2]
    cases firstDefine p.defines ns with
    | none => rfl
    | some d => rfl
  unfold symStep
  simp only [h3]
  rfl

theorem symPass_keep (keep : Stmt → Bool) (es : List (Nat × Sym)) (st : Build) :
    symPass demangle (p.keepStmts keep) st es = symPass demangle p st es := by
  induction es generalizing st with
  | nil => rfl
  | cons e es ih =>
    simp only [symPass]
    rw [symStep_keep]
    split
    · rfl
    · exact ih _

theorem stmtsPass_keep {keep : Stmt → Bool} {c : Str} {i : Nat}
    (hk : ∀ s st, keep s = false → stmtStep p c i st s = .ok st) (ss : List Stmt) (st : Build) :
    stmtsPass (p.keepStmts keep) c i st (ss.filter keep) = stmtsPass p c i st ss := by
  induction ss generalizing st with
  | nil => rfl
  | cons s ss ih =>
    rw [List.filter_cons]
    split
    · simp only [stmtsPass]
      have : stmtStep (p.keepStmts keep) c i st s = stmtStep p c i st s := rfl
      rw [this]
      split
      · rfl
      · exact ih _
    · rename_i hs
      simp only [stmtsPass]
      rw [hk s st (by simpa using hs)]
      exact ih st

theorem definePass_keep {keep : Stmt → Bool}
    (hk : ∀ s c i st, keep s = false → stmtStep p c i st s = .ok st) (ds : List Define) (st : Build) :
    definePass (p.keepStmts keep) st (ds.map (fun d => { d with stmts := d.stmts.filter keep })) =
      definePass p st ds := by
  induction ds generalizing st with
  | nil => rfl
  | cons d ds ih =>
    have hstep : defineStep (p.keepStmts keep) st { d with stmts := d.stmts.filter keep } =
        defineStep p st d := by
      unfold defineStep
      simp only [stmtsPass_keep (fun s st h => hk s _ _ st h)]
    simp only [List.map_cons, definePass]
    rw [hstep]
    split
    · rfl
    · exact ih _

theorem irGraph_keep {keep : Stmt → Bool}
    (hk : ∀ s c i st, keep s = false → stmtStep p c i st s = .ok st) :
    irGraph demangle (p.keepStmts keep) = irGraph demangle p := by
  unfold irGraph
  have : (p.keepStmts keep).defined = p.defined := rfl
  rw [this, symPass_keep]
  cases symPass demangle p Build.empty p.defined with
  | error e => rfl
  | ok st => exact definePass_keep hk _ _

end CallStack
