import Verif.Spec.Log
import Verif.Proof.Figures

/-!
Which messages the pass over the definitions logs.
-/

namespace CallStack

/-- The message belongs to the pass over the definitions. -/
def LogMsg.ofStmt : LogMsg → Bool
  | .asm _ _ | .noInfo _ | .inlined _ => true
  | _ => false

/-- Messages for the statements `occ`, from the state `st`, `seen` to `st'`, `seen'`. -/
structure StmtMsgs (thumb : Bool) (occ : Str → Stmt → Prop) (st : Build) (seen : List Str) (log : List LogMsg)
    (st' : Build) (seen' : List Str) : Prop where
  asmIn : ∀ c, c ∈ st'.asmFns ↔ c ∈ st.asmFns ∨ ∃ x, occ c (.asm x)
  asmOne : ∀ c, (log.filter (LogMsg.isAsm c)).length =
    if c ∈ st.asmFns then 0 else if c ∈ st'.asmFns then 1 else 0
  asmWhy : ∀ x c, .asm x c ∈ log → occ c (.asm x)
  seenIn : ∀ f, f ∈ seen' ↔ f ∈ seen ∨ ∃ c, occ c (.directCall f) ∧ assumedInline thumb f = true
  inlOne : ∀ f, log.count (.inlined f) = if f ∈ seen then 0 else if f ∈ seen' then 1 else 0
  keys : ∀ n, mget n st'.indices = none → mget n st.indices = none
  infoWhy : ∀ n, .noInfo n ∈ log → (∃ c, occ c (.bitcastCall (some n))) ∧ mget n st'.indices ≠ none
  infoOne : ∀ n, log.count (.noInfo n) ≤ if mget n st.indices = none then 1 else 0
  info : ∀ n, mget n st.indices = none → mget n st'.indices ≠ none →
    .noInfo n ∈ log ∨ ∃ c, occ c (.directCall n)
  bitcast : ∀ n c, occ c (.bitcastCall (some n)) → mget n st'.indices ≠ none
  only : ∀ m ∈ log, m.ofStmt = true

theorem StmtMsgs.comp {thumb : Bool} {occ1 occ2 : Str → Stmt → Prop} {st1 st2 st3 : Build}
    {seen1 seen2 seen3 : List Str} {log1 log2 : List LogMsg}
    (h1 : StmtMsgs thumb occ1 st1 seen1 log1 st2 seen2) (h2 : StmtMsgs thumb occ2 st2 seen2 log2 st3 seen3) :
    StmtMsgs thumb (fun c s => occ1 c s ∨ occ2 c s) st1 seen1 (log1 ++ log2) st3 seen3 where
  asmIn := by
    intro c
    rw [h2.asmIn, h1.asmIn, exists_or, or_assoc]
  asmOne := by
    intro c
    rw [List.filter_append, List.length_append, h1.asmOne, h2.asmOne]
    have e1 := h1.asmIn c
    have e2 := h2.asmIn c
    by_cases k1 : c ∈ st1.asmFns <;> by_cases k2 : c ∈ st2.asmFns <;> by_cases k3 : c ∈ st3.asmFns <;>
      simp_all
  asmWhy := by
    intro x c h
    rcases List.mem_append.mp h with h | h
    · exact .inl (h1.asmWhy x c h)
    · exact .inr (h2.asmWhy x c h)
  seenIn := by
    intro f
    rw [h2.seenIn, h1.seenIn, or_assoc]
    refine or_congr Iff.rfl ?_
    rw [← exists_or]
    exact exists_congr fun c => or_and_right.symm
  inlOne := by
    intro f
    rw [List.count_append, h1.inlOne, h2.inlOne]
    have e1 := h1.seenIn f
    have e2 := h2.seenIn f
    by_cases k1 : f ∈ seen1 <;> by_cases k2 : f ∈ seen2 <;> by_cases k3 : f ∈ seen3 <;> simp_all
  keys := fun n h => h1.keys n (h2.keys n h)
  infoWhy := by
    intro n h
    rcases List.mem_append.mp h with h | h
    · obtain ⟨⟨c, a⟩, b⟩ := h1.infoWhy n h
      exact ⟨⟨c, .inl a⟩, fun h => b (h2.keys n h)⟩
    · obtain ⟨⟨c, a⟩, b⟩ := h2.infoWhy n h
      exact ⟨⟨c, .inr a⟩, b⟩
  infoOne := by
    intro n
    rw [List.count_append]
    have e1 := h1.infoOne n
    have e2 := h2.infoOne n
    by_cases hm : .noInfo n ∈ log1
    · have := (h1.infoWhy n hm).2
      rw [if_neg this] at e2
      omega
    · rw [List.count_eq_zero_of_not_mem hm]
      by_cases k : mget n st2.indices = none
      · rw [if_pos k] at e2
        rw [if_pos (h1.keys n k)]
        omega
      · rw [if_neg k] at e2
        omega
  info := by
    intro n a b
    by_cases k : mget n st2.indices = none
    · rcases h2.info n k b with h | ⟨c, h⟩
      · exact .inl (List.mem_append_right _ h)
      · exact .inr ⟨c, .inr h⟩
    · rcases h1.info n a k with h | ⟨c, h⟩
      · exact .inl (List.mem_append_left _ h)
      · exact .inr ⟨c, .inl h⟩
  bitcast := by
    rintro n c (h | h)
    · exact fun k => h1.bitcast n c h (h2.keys n k)
    · exact h2.bitcast n c h
  only := by
    intro m h
    rcases List.mem_append.mp h with h | h
    · exact h1.only m h
    · exact h2.only m h

theorem StmtMsgs.congr {thumb : Bool} {occ occ' : Str → Stmt → Prop} {st st' : Build}
    {seen seen' : List Str} {log : List LogMsg} (h : StmtMsgs thumb occ st seen log st' seen')
    (hc : ∀ c s, occ c s ↔ occ' c s) : StmtMsgs thumb occ' st seen log st' seen' := by
  have : occ = occ' := by
    funext c s
    exact propext (hc c s)
  subst this
  exact h

/-- Nothing happens. -/
theorem StmtMsgs.skip {thumb : Bool} {occ : Str → Stmt → Prop} {st st' : Build} {seen : List Str}
    (h1 : st'.asmFns = st.asmFns) (h2 : ∀ n, mget n st'.indices = none ↔ mget n st.indices = none)
    (h3 : ∀ c x, ¬ occ c (.asm x)) (h4 : ∀ c f, occ c (.directCall f) → assumedInline thumb f = false)
    (h5 : ∀ c n, ¬ occ c (.bitcastCall (some n))) : StmtMsgs thumb occ st seen [] st' seen where
  asmIn := by simp [h1, h3]
  asmOne := by
    intro c
    rw [h1]
    split <;> simp
  asmWhy := by simp
  seenIn := by
    intro f
    constructor
    · exact .inl
    · rintro (h | ⟨c, h, k⟩)
      · exact h
      · rw [h4 c f h] at k
        simp at k
  inlOne := by
    intro f
    split <;> simp
  keys := fun n => (h2 n).mp
  infoWhy := by simp
  infoOne := by simp
  info := fun n a b => absurd ((h2 n).mpr a) b
  bitcast := fun n c h => absurd h (h5 c n)
  only := by simp

theorem getOrAddNode_keys (st : Build) (name n : Str) :
    mget n (st.getOrAddNode name).1.indices = none ↔ mget n st.indices = none ∧ n ≠ name := by
  unfold Build.getOrAddNode
  split
  · rename_i idx h
    constructor
    · intro hn
      refine ⟨hn, ?_⟩
      rintro rfl
      rw [h] at hn
      simp at hn
    · exact And.left
  · rename_i h
    simp only [mget_mset]
    by_cases hn : n = name
    · simp [hn]
    · simp [hn, Ne.symm hn]

theorem directStep_frame {p : Program} {c f : Str} {i : Nat} {st st' : Build}
    (h : stmtStep p c i st (.directCall f) = .ok st') :
    st'.asmFns = st.asmFns ∧ (∀ n, mget n st'.indices = none → mget n st.indices = none) ∧
    ∀ n, mget n st.indices = none → mget n st'.indices ≠ none → n = f := by
  have same : ∀ st1 : Build, st1.asmFns = st.asmFns → st1.indices = st.indices →
      st1.asmFns = st.asmFns ∧ (∀ n, mget n st1.indices = none → mget n st.indices = none) ∧
      ∀ n, mget n st.indices = none → mget n st1.indices ≠ none → n = f := by
    intro st1 h1 h2
    rw [h2]
    exact ⟨h1, fun _ h => h, fun _ a b => absurd a b⟩
  simp only [stmtStep] at h
  split at h
  · simp only [Except.ok.injEq] at h
    subst h
    exact same _ rfl rfl
  · rename_i routines _
    simp only [Except.ok.injEq] at h
    subst h
    have hf := callRoutines_frame i routines st
    exact same _ hf.2.2.2.2.2.2.2.2.2.1 hf.2.1
  · simp at h
  · unfold plainCall at h
    split at h
    · simp only [Except.ok.injEq] at h
      subst h
      exact same _ rfl rfl
    · split at h
      · split at h
        · rename_i callee _
          simp only [Except.ok.injEq] at h
          subst h
          have hf := call_frame st i callee
          exact same _ hf.2.2.2.2.2.2.2.2.2.1 hf.2.1
        · simp at h
      · split at h
        · simp only [Except.ok.injEq] at h
          subst h
          have hf := call_frame (st.getOrAddNode f).1 i (st.getOrAddNode f).2
          have hk := getOrAddNode_keys st f
          refine ⟨hf.2.2.2.2.2.2.2.2.2.1.trans (getOrAddNode_frame st f).2.2.2.2.2.2.2.1, ?_, ?_⟩
          · intro n hn
            rw [hf.2.1] at hn
            exact ((hk n).mp hn).1
          · intro n a b
            rw [hf.2.1] at b
            by_contra hne
            exact b ((hk n).mpr ⟨a, hne⟩)
        · simp at h

theorem stmtStep_msgs {p : Program} {c : Str} {i : Nat} {s : Stmt} {st st' : Build} (seen : List Str)
    (h : stmtStep p c i st s = .ok st') :
    StmtMsgs p.target.isThumb (fun c' s' => c' = c ∧ s' = s) st seen (stmtLog p c st seen s).1 st'
      (stmtLog p c st seen s).2 := by
  have h0 := h
  unfold stmtStep at h
  unfold stmtLog
  cases s with
  | asm x =>
    simp only [Except.ok.injEq] at h
    subst h
    simp only
    constructor
    · intro c'
      simp only [mem_sinsert, Stmt.asm.injEq, exists_and_left, exists_eq, and_true]
      tauto
    · intro c'
      simp only [mem_sinsert]
      by_cases hc : c ∈ st.asmFns
      · simp only [List.contains_iff_mem.mpr hc, if_true, List.filter_nil, List.length_nil]
        by_cases hc' : c' ∈ st.asmFns
        · simp [hc']
        · have : c' ≠ c := by rintro rfl; exact hc' hc
          simp [hc', this]
      · have hn : st.asmFns.contains c = false := by simpa using hc
        simp only [hn, Bool.false_eq_true, if_false]
        by_cases hcc : c' = c
        · subst hcc
          simp [LogMsg.isAsm, hc]
        · have : (c == c') = false := by simpa using Ne.symm hcc
          simp only [List.filter_cons, LogMsg.isAsm, this, Bool.false_eq_true, if_false, List.filter_nil,
            List.length_nil, hcc, false_or]
          split <;> simp
    · intro x' c' hm
      split at hm
      · simp at hm
      · simp only [List.mem_singleton, LogMsg.asm.injEq] at hm
        exact ⟨hm.2, by rw [hm.1]⟩
    · simp
    · intro f
      have : List.count (LogMsg.inlined f) (if st.asmFns.contains c = true then [] else [LogMsg.asm x c]) = 0 := by
        split <;> simp
      rw [this]
      split <;> simp
    · exact fun n h => h
    · intro n hm
      split at hm <;> simp at hm
    · intro n
      have : List.count (LogMsg.noInfo n) (if st.asmFns.contains c = true then [] else [LogMsg.asm x c]) = 0 := by
        split <;> simp
      rw [this]
      exact Nat.zero_le _
    · exact fun n a b => absurd a b
    · simp
    · intro m hm
      split at hm
      · simp at hm
      · simp only [List.mem_singleton] at hm
        subst hm
        rfl
  | bitcastCall sym =>
    cases sym with
    | none => simp at h
    | some sym =>
      simp only [Except.ok.injEq] at h
      subst h
      have hk := getOrAddNode_keys st sym
      have hfr := (getOrAddNode_frame st sym).2.2.2.2.2.2.2.1
      constructor
      · intro c'
        simp [hfr]
      · intro c'
        have : (List.filter (LogMsg.isAsm c') (if (mget sym st.indices).isSome = true then [] else [LogMsg.noInfo sym])).length = 0 := by
          split <;> simp [LogMsg.isAsm]
        simp only [this, hfr]
        split <;> simp
      · intro x c' hm
        simp only at hm
        split at hm <;> simp at hm
      · simp
      · intro f
        have : List.count (LogMsg.inlined f) (if (mget sym st.indices).isSome = true then [] else [LogMsg.noInfo sym]) = 0 := by
          split <;> simp
        simp only [this]
        split <;> simp
      · exact fun n hn => ((hk n).mp hn).1
      · intro n hm
        simp only at hm
        split at hm
        · simp at hm
        · simp only [List.mem_singleton, LogMsg.noInfo.injEq] at hm
          subst hm
          exact ⟨⟨c, rfl, rfl⟩, fun hn => ((hk n).mp hn).2 rfl⟩
      · intro n
        simp only
        cases hm : mget sym st.indices with
        | some k => simp
        | none =>
          by_cases hn : n = sym
          · subst hn
            simp [hm]
          · have : List.count (LogMsg.noInfo n) [LogMsg.noInfo sym] = 0 := by
              simp [Ne.symm hn]
            simp [this]
      · intro n a b
        left
        simp only
        have hn : n = sym := by
          by_contra hn
          exact b ((hk n).mpr ⟨a, hn⟩)
        subst hn
        simp [a]
      · rintro n c' ⟨_, h2⟩
        simp only [Stmt.bitcastCall.injEq, Option.some.injEq] at h2
        subst h2
        exact fun hn => ((hk n).mp hn).2 rfl
      · intro m hm
        simp only at hm
        split at hm
        · simp at hm
        · simp only [List.mem_singleton] at hm
          subst hm
          rfl
  | directCall f =>
    obtain ⟨f1, f2, f3⟩ := directStep_frame h0
    have key : ∀ (log : List LogMsg) (seen' : List Str),
        (log = [] ∧ seen' = seen ∧ (assumedInline p.target.isThumb f = true → f ∈ seen)) ∨
        (log = [.inlined f] ∧ seen' = sinsert f seen ∧ assumedInline p.target.isThumb f = true ∧ f ∉ seen) →
        StmtMsgs p.target.isThumb (fun c' s' => c' = c ∧ s' = .directCall f) st seen log st' seen' := by
      rintro log seen' hl
      constructor
      · intro c'
        simp [f1]
      · intro c'
        have : (log.filter (LogMsg.isAsm c')).length = 0 := by
          rcases hl with ⟨rfl, _⟩ | ⟨rfl, _⟩ <;> simp [LogMsg.isAsm]
        rw [this, f1]
        split <;> simp
      · intro x c' hm
        rcases hl with ⟨rfl, _⟩ | ⟨rfl, _⟩ <;> simp at hm
      · intro f'
        rcases hl with ⟨rfl, rfl, h3⟩ | ⟨rfl, rfl, h3, h4⟩
        · constructor
          · exact .inl
          · rintro (h | ⟨c', ⟨_, h1⟩, h2⟩)
            · exact h
            · simp only [Stmt.directCall.injEq] at h1
              subst h1
              exact h3 h2
        · rw [mem_sinsert]
          constructor
          · rintro (rfl | h)
            · exact .inr ⟨c, ⟨rfl, rfl⟩, h3⟩
            · exact .inl h
          · rintro (h | ⟨c', ⟨_, h1⟩, _⟩)
            · exact .inr h
            · simp only [Stmt.directCall.injEq] at h1
              exact .inl h1
      · intro f'
        rcases hl with ⟨rfl, rfl, h3⟩ | ⟨rfl, rfl, h3, h4⟩
        · split <;> simp
        · simp only [mem_sinsert]
          by_cases hf : f' = f
          · subst hf
            simp [h4]
          · have : List.count (LogMsg.inlined f') [LogMsg.inlined f] = 0 := by
              simp [Ne.symm hf]
            rw [this]
            by_cases k : f' ∈ seen <;> simp [k, hf]
      · exact f2
      · intro n hm
        rcases hl with ⟨rfl, _⟩ | ⟨rfl, _⟩ <;> simp at hm
      · intro n
        have : log.count (.noInfo n) = 0 := by
          rcases hl with ⟨rfl, _⟩ | ⟨rfl, _⟩ <;> simp
        omega
      · intro n a b
        exact .inr ⟨c, rfl, by rw [f3 n a b]⟩
      · simp
      · intro m hm
        rcases hl with ⟨rfl, _⟩ | ⟨rfl, _⟩
        · simp at hm
        · simp only [List.mem_singleton] at hm
          subst hm
          rfl
    apply key
    simp only
    split
    · rename_i ha
      split
      · rename_i hs
        exact .inl ⟨rfl, rfl, fun _ => List.contains_iff_mem.mp hs⟩
      · rename_i hs
        exact .inr ⟨rfl, rfl, ha, fun hm => hs (List.contains_iff_mem.mpr hm)⟩
    · rename_i ha
      exact .inl ⟨rfl, rfl, fun hm => absurd hm ha⟩
  | indirectCall sig =>
    simp only [Except.ok.injEq] at h
    subst h
    exact .skip rfl (fun _ => Iff.rfl) (by simp) (by simp) (by simp)
  | _ =>
    simp only [Except.ok.injEq] at h
    subst h
    exact .skip rfl (fun _ => Iff.rfl) (by simp) (by simp) (by simp)

theorem stmtsPass_msgs {p : Program} {c : Str} {i : Nat} (ss : List Stmt) : ∀ {st st' : Build} (seen : List Str),
    stmtsPass p c i st ss = .ok st' →
    StmtMsgs p.target.isThumb (fun c' s => c' = c ∧ s ∈ ss) st seen (stmtsLog p c i st seen ss).1 st'
      (stmtsLog p c i st seen ss).2 := by
  induction ss with
  | nil =>
    intro st st' seen h
    simp only [stmtsPass, Except.ok.injEq] at h
    subst h
    exact .skip rfl (fun _ => Iff.rfl) (by simp) (by simp) (by simp)
  | cons s ss ih =>
    intro st st' seen h
    unfold stmtsPass at h
    split at h
    · simp at h
    · rename_i st1 h1
      have hl : stmtsLog p c i st seen (s :: ss) =
          ((stmtLog p c st seen s).1 ++ (stmtsLog p c i st1 (stmtLog p c st seen s).2 ss).1,
            (stmtsLog p c i st1 (stmtLog p c st seen s).2 ss).2) := by
        rw [stmtsLog, h1]
      rw [hl]
      refine ((stmtStep_msgs seen h1).comp (ih _ h)).congr ?_
      intro c' s'
      rw [List.mem_cons]
      tauto

theorem StmtMsgs.touch {thumb : Bool} {occ : Str → Stmt → Prop} {st st0 st' : Build}
    {seen seen' : List Str} {log : List LogMsg} (h : StmtMsgs thumb occ st seen log st' seen')
    (h1 : st.asmFns = st0.asmFns) (h2 : st.indices = st0.indices) :
    StmtMsgs thumb occ st0 seen log st' seen' := by
  obtain ⟨a1, a2, a3, a4, a5, a6, a7, a8, a9, a10, a11⟩ := h
  rw [h1] at a1 a2
  rw [h2] at a6 a8 a9
  exact ⟨a1, a2, a3, a4, a5, a6, a7, a8, a9, a10, a11⟩

/-- Statements of the definitions that belong to the live function shown as `c`. -/
def OccursIn (al : List (Str × Str)) (ds : List Define) (c : Str) (s : Stmt) : Prop :=
  ∃ d ∈ ds, mget d.name al = some c ∧ s ∈ d.stmts

theorem defineStep_msgs {p : Program} {d : Define} {st st' : Build} (seen : List Str)
    (h : defineStep p st d = .ok st') :
    StmtMsgs p.target.isThumb (OccursIn st.aliases [d]) st seen (defineLog p st seen d).1 st'
      (defineLog p st seen d).2 ∧ st'.aliases = st.aliases := by
  unfold defineStep at h
  unfold defineLog
  split at h
  · rename_i hn
    simp only [Except.ok.injEq] at h
    subst h
    rw [hn]
    refine ⟨.skip rfl (fun _ => Iff.rfl) ?_ ?_ ?_, rfl⟩ <;>
      simp [OccursIn, hn]
  · rename_i c hc
    split at h
    · simp at h
    · rename_i i hi
      rw [hc]
      simp only
      rw [hi]
      refine ⟨((stmtsPass_msgs d.stmts seen h).congr ?_).touch rfl rfl, ?_⟩
      · intro c' s
        unfold OccursIn
        constructor
        · rintro ⟨rfl, h1⟩
          exact ⟨d, by simp, hc, h1⟩
        · rintro ⟨d', h1, h2, h3⟩
          simp only [List.mem_singleton] at h1
          subst h1
          rw [hc] at h2
          exact ⟨(Option.some.inj h2).symm, h3⟩
      · have := stmtsPass_aliases d.stmts h
        exact this

/-- The messages of the pass over the definitions. -/
theorem definePass_msgs {p : Program} (ds : List Define) : ∀ {st st' : Build} (seen : List Str),
    definePass p st ds = .ok st' →
    StmtMsgs p.target.isThumb (OccursIn st.aliases ds) st seen (definesLog p st seen ds).1 st'
      (definesLog p st seen ds).2 := by
  induction ds with
  | nil =>
    intro st st' seen h
    simp only [definePass, Except.ok.injEq] at h
    subst h
    exact .skip rfl (fun _ => Iff.rfl) (by simp [OccursIn]) (by simp [OccursIn]) (by simp [OccursIn])
  | cons d ds ih =>
    intro st st' seen h
    unfold definePass at h
    split at h
    · simp at h
    · rename_i st1 h1
      have hl : definesLog p st seen (d :: ds) =
          ((defineLog p st seen d).1 ++ (definesLog p st1 (defineLog p st seen d).2 ds).1,
            (definesLog p st1 (defineLog p st seen d).2 ds).2) := by
        rw [definesLog, h1]
      rw [hl]
      obtain ⟨h2, h3⟩ := defineStep_msgs seen h1
      have h4 := ih (defineLog p st seen d).2 h
      rw [h3] at h4
      refine (h2.comp h4).congr ?_
      intro c s
      unfold OccursIn
      simp only [List.mem_cons, List.not_mem_nil, or_false, exists_eq_or_imp, exists_eq_left]

end CallStack
