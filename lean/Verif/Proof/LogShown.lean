import Verif.Proof.LogRun
import Verif.Spec.Log

/-!
The messages in terms of the program.
-/

namespace CallStack

theorem assumedInline_iff (t : Bool) (f : Str) : assumedInline t f = true ↔
    t = false ∧ (InlineIntrinsic f ∨ f = c!"llvm.x86.sse2.pause") := by
  rw [← any_inline]
  have hpre : inlinePrefixes.any (startsWith f) = true ∨ (f == c!"llvm.x86.sse2.pause") = true →
      startsWith f c!"llvm." = true ∧ noopIntrinsics.contains f = false ∧
      lifetimePrefixes.any (startsWith f) = false ∧ startsWith f c!"llvm.memcpy." = false ∧
      startsWith f c!"llvm.memset." = false ∧ startsWith f c!"llvm.memmove." = false := by
    rintro (h | h)
    · obtain ⟨q, hq, hs⟩ := List.any_eq_true.mp h
      have h1 : startsWith q c!"llvm." = true := by
        have hall : inlinePrefixes.all (fun q => startsWith q c!"llvm.") = true := by decide
        exact List.all_eq_true.mp hall q hq
      have h2 : ∀ q', inlinePrefixes.all (fun q => !startsWith q q' && !startsWith q' q) = true →
          startsWith f q' = false := by
        intro q' hall
        have := List.all_eq_true.mp hall q hq
        simp only [Bool.and_eq_true, Bool.not_eq_true'] at this
        exact not_startsWith hs this
      refine ⟨?_, ?_, ?_, h2 _ (by decide), h2 _ (by decide), h2 _ (by decide)⟩
      · rw [startsWith_iff] at *
        exact h1.trans hs
      · rw [← Bool.not_eq_true, List.contains_iff_mem]
        intro hm
        have hall : noopIntrinsics.all (fun f => inlinePrefixes.all (fun q => !startsWith f q)) = true := by
          decide
        have := List.all_eq_true.mp (List.all_eq_true.mp hall f hm) q hq
        rw [hs] at this
        simp at this
      · rw [← Bool.not_eq_true, List.any_eq_true]
        rintro ⟨q', hq', hs'⟩
        have hall : lifetimePrefixes.all (fun q' => inlinePrefixes.all
          (fun q => !startsWith q q' && !startsWith q' q)) = true := by decide
        rw [h2 q' (List.all_eq_true.mp hall q' hq')] at hs'
        simp at hs'
    · rw [beq_iff_eq.mp h]
      decide
  unfold assumedInline
  rw [show (f = c!"llvm.x86.sse2.pause" ↔ (f == c!"llvm.x86.sse2.pause") = true) by rw [beq_iff_eq]]
  revert hpre
  generalize inlinePrefixes.any (startsWith f) = b1
  generalize (f == c!"llvm.x86.sse2.pause") = b2
  generalize noopIntrinsics.contains f = b4
  generalize lifetimePrefixes.any (startsWith f) = b5
  generalize startsWith f c!"llvm." = b6
  generalize startsWith f c!"llvm.memcpy." = b7
  generalize startsWith f c!"llvm.memset." = b8
  generalize startsWith f c!"llvm.memmove." = b9
  cases t <;> cases b1 <;> cases b2 <;> cases b4 <;> cases b5 <;> cases b6 <;> cases b7 <;>
    cases b8 <;> cases b9 <;> simp

/-! ### The keys of `indices` -/

theorem getOrAddNode_nodup (st : Build) (name : Str) (h : (st.indices.map (·.1)).Nodup) :
    ((st.getOrAddNode name).1.indices.map (·.1)).Nodup := by
  unfold Build.getOrAddNode
  split
  · exact h
  · exact mset_nodup _ _ _ h

theorem stmtStep_nodup {p : Program} {c : Str} {i : Nat} {s : Stmt} {st st' : Build}
    (h : stmtStep p c i st s = .ok st') (hn : (st.indices.map (·.1)).Nodup) :
    (st'.indices.map (·.1)).Nodup := by
  unfold stmtStep at h
  split at h
  · simp only [Except.ok.injEq] at h
    subst h; exact hn
  · simp at h
  · simp only [Except.ok.injEq] at h
    subst h
    exact getOrAddNode_nodup st _ hn
  · split at h
    · simp only [Except.ok.injEq] at h
      subst h; exact hn
    · rename_i routines _
      simp only [Except.ok.injEq] at h
      subst h
      rw [(callRoutines_frame i routines st).2.1]
      exact hn
    · simp at h
    · unfold plainCall at h
      split at h
      · simp only [Except.ok.injEq] at h
        subst h; exact hn
      · split at h
        · split at h
          · simp only [Except.ok.injEq] at h
            subst h
            rw [(call_frame st i _).2.1]
            exact hn
          · simp at h
        · split at h
          · simp only [Except.ok.injEq] at h
            subst h
            rw [(call_frame _ i _).2.1]
            exact getOrAddNode_nodup st _ hn
          · simp at h
  all_goals
    simp only [Except.ok.injEq] at h
    subst h; exact hn

theorem stmtsPass_nodup {p : Program} {c : Str} {i : Nat} (ss : List Stmt) : ∀ {st st' : Build},
    stmtsPass p c i st ss = .ok st' → (st.indices.map (·.1)).Nodup → (st'.indices.map (·.1)).Nodup := by
  induction ss with
  | nil =>
    intro st st' h hn
    simp only [stmtsPass, Except.ok.injEq] at h
    subst h; exact hn
  | cons s ss ih =>
    intro st st' h hn
    unfold stmtsPass at h
    split at h
    · simp at h
    · rename_i st1 h1
      exact ih h (stmtStep_nodup h1 hn)

theorem definePass_nodup {p : Program} (ds : List Define) : ∀ {st st' : Build},
    definePass p st ds = .ok st' → (st.indices.map (·.1)).Nodup → (st'.indices.map (·.1)).Nodup := by
  induction ds with
  | nil =>
    intro st st' h hn
    simp only [definePass, Except.ok.injEq] at h
    subst h; exact hn
  | cons d ds ih =>
    intro st st' h hn
    unfold definePass at h
    split at h
    · simp at h
    · rename_i st1 h1
      refine ih h ?_
      unfold defineStep at h1
      split at h1
      · simp only [Except.ok.injEq] at h1
        subst h1; exact hn
      · split at h1
        · simp at h1
        · exact stmtsPass_nodup _ h1 hn

theorem registerType_indices (p : Program) (names : List Str) (c : Str) (idx : Nat) (st : Build) :
    (registerType p names c idx st).indices = st.indices := by
  unfold registerType
  repeat' split
  all_goals rfl

theorem symPass_nodup {demangle : Str → Str} {p : Program} (es : List (Nat × Sym)) : ∀ {st st' : Build},
    symPass demangle p st es = .ok st' → (st.indices.map (·.1)).Nodup → (st'.indices.map (·.1)).Nodup := by
  induction es with
  | nil =>
    intro st st' h hn
    simp only [symPass, Except.ok.injEq] at h
    subst h; exact hn
  | cons e es ih =>
    intro st st' h hn
    unfold symPass at h
    split at h
    · simp at h
    · rename_i st1 h1
      refine ih h ?_
      unfold symStep at h1
      simp only at h1
      split at h1
      · simp at h1
      · simp only [Except.ok.injEq] at h1
        subst h1
        rw [registerType_indices]
        exact mset_nodup _ _ _ hn

theorem LocalPolicy.unique {sp asm out : Prop} {llvm ours : Option Nat} {l l' : Local}
    (h : LocalPolicy sp asm out llvm ours l) (h' : LocalPolicy sp asm out llvm ours l') : l = l' := by
  cases h <;> cases h' <;> first | rfl | (exfalso; tauto)

section run

variable {demangle : Str → Str} {ord : HashOrder} {search : TagSearch} {p : Program} {elf : Elf}
  {cs ext : List Str} {st0 stIr st : Build} {g : Graph}

theorem RunFacts.indices_nodup (h : RunFacts demangle ord search p elf cs ext st0 stIr st g) :
    (st.indices.map (·.1)).Nodup := by
  rw [h.machine.indices]
  exact definePass_nodup _ h.definesOk (symPass_nodup _ h.ir.symOk (by simp [Build.empty]))

theorem RunFacts.external_iff (h : RunFacts demangle ord search p elf cs ext st0 stIr st g) (n : Str) :
    n ∈ ext ↔ p.External n := by
  have hcs : n ∉ cs ↔ ∀ j, ¬ p.Principal j n := by
    rw [h.ir.mem_cs]
    exact not_exists
  have hin : ∀ {i s}, p.Contains i s → MustTarget p.target.isThumb st0.aliases cs s n → n ∉ cs → n ∈ ext := by
    intro i s h1 h2 h3
    obtain ⟨j, h4, _⟩ := h.ir.ir.complete i s n h1 h2
    rcases List.mem_append.mp (List.mem_of_getElem? h4) with h5 | h5
    · exact absurd h5 h3
    · exact h5
  constructor
  · intro hn
    have hno : n ∉ cs := by
      intro hc
      obtain ⟨a, ha⟩ := List.getElem?_of_mem hc
      obtain ⟨b, hb⟩ := List.getElem?_of_mem hn
      have h1 : (cs ++ ext)[a]? = some n := by
        rw [List.getElem?_append_left (List.getElem?_eq_some_iff.mp ha).1]; exact ha
      have h2 : (cs ++ ext)[cs.length + b]? = some n := by
        rw [List.getElem?_append_right (by omega), Nat.add_sub_cancel_left]; exact hb
      have := h.ir.inj h1 h2
      have := (List.getElem?_eq_some_iff.mp ha).1
      omega
    obtain ⟨i, s, h1, rfl | ⟨rfl, h2, h3, _, h4⟩⟩ := h.ir.ir.extWhy n hn
    · exact .inl ⟨⟨i, h1⟩, hcs.mp hno⟩
    · refine .inr ⟨⟨i, h1⟩, classify_plain.mp h2, (h.ir.dead n).mp h3, ?_⟩
      rintro rfl
      exact h4 (by simp [symbollessIntrinsics])
  · rintro (⟨⟨i, h1⟩, h2⟩ | ⟨⟨i, h1⟩, h2, h3, h4⟩)
    · exact hin h1 rfl (hcs.mpr h2)
    · refine hin h1 (.inr ⟨classify_plain.mpr h2, ?_, .inr ⟨(h.ir.dead n).mpr h3, rfl⟩⟩) ?_
      · rintro ⟨h5, _⟩
        exact h4 (by simpa [symbollessIntrinsics] using h5)
      · intro hm
        obtain ⟨k, hk⟩ := List.getElem?_of_mem hm
        exact h3 k (h.ir.self n k hk)

theorem RunFacts.shown_iff (h : RunFacts demangle ord search p elf cs ext st0 stIr st g) (n : Str) :
    n ∈ st.indices.map (·.1) ↔ p.Shown n := by
  unfold Program.Shown
  rw [← h.external_iff, ← h.ir.mem_cs, ← List.mem_append, h.machine.indices]
  constructor
  · intro hm
    obtain ⟨e, he, rfl⟩ := List.mem_map.mp hm
    by_contra hno
    have := mget_none.mp (h.ir.ir.shape.idx.none.mpr hno) e he
    exact this rfl
  · intro hm
    obtain ⟨k, hk⟩ := List.getElem?_of_mem hm
    exact List.mem_map.mpr ⟨_, mget_mem ((h.ir.ir.shape.idx n k).mpr hk), rfl⟩

/-- There is only one local usage. -/
theorem RunFacts.localIs_iff (h : RunFacts demangle ord search p elf cs ext st0 stIr st g)
    (once : p.NamesOnce) {i : Nat} (hi : i < cs.length) (l : Local) :
    p.LocalIs search elf i l ↔ l = g.locOf i := by
  constructor
  · intro hl
    have hframe : ∀ a b, p.Frame i a → p.Frame i b → a = b := by
      intro a b h1 h2
      have hlt : i < p.defined.length := by rw [← h.live_length]; exact hi
      have he := List.getElem?_eq_getElem hlt
      have hcan := h.ir.sym.canon i _ _ he (List.getElem?_eq_getElem hi)
      have h3 := (frame_iff he hcan a).mp h1
      rw [(frame_iff he hcan b).mp h2] at h3
      exact (Option.some.inj h3).symm
    have hg := h.localIs once hi
    generalize g.locOf i = l2 at hg ⊢
    cases hl with
    | @code address size r llvm name _ h1 h2 h3 h4 h5 =>
      cases hg with
      | @code address' size' r' llvm' name' _ k1 k2 k3 k4 k5 =>
        obtain rfl := (codeOf_iff.mpr ⟨h1, h2⟩).unique (codeOf_iff.mpr ⟨k1, k2⟩)
        have e1 : name = name' := by
          have a := h.ir.principal.mp h4
          rw [h.ir.principal.mp k4] at a
          exact (Option.some.inj a).symm
        subst e1
        have e2 : llvm = llvm' := by
          cases llvm <;> cases llvm'
          · rfl
          · exact absurd k3 (h3 _)
          · exact absurd h3 (k3 _)
          · rw [hframe _ _ h3 k3]
        subst e2
        exact h5.unique k5
      | frame k1 k2 =>
        obtain ⟨_, _, _, _, _, _, hx, _⟩ := h2
        rcases k1 with k1 | k1
        · rw [h1] at k1; simp at k1
        · rw [hx] at k1; simp at k1
      | none k1 k2 =>
        obtain ⟨_, _, _, _, _, _, hx, _⟩ := h2
        rcases k1 with k1 | k1
        · rw [h1] at k1; simp at k1
        · rw [hx] at k1; simp at k1
    | frame h1 h2 =>
      cases hg with
      | code k1 k2 =>
        obtain ⟨_, _, _, _, _, _, hx, _⟩ := k2
        rcases h1 with h1 | h1
        · rw [h1] at k1; simp at k1
        · rw [hx] at h1; simp at h1
      | frame k1 k2 => rw [hframe _ _ h2 k2]
      | none k1 k2 => exact absurd h2 (k2 _)
    | none h1 h2 =>
      cases hg with
      | code k1 k2 =>
        obtain ⟨_, _, _, _, _, _, hx, _⟩ := k2
        rcases h1 with h1 | h1
        · rw [h1] at k1; simp at k1
        · rw [hx] at h1; simp at h1
      | frame k1 k2 => exact absurd k2 (h2 _)
      | none k1 k2 => rfl
  · rintro rfl
    exact h.localIs once hi

end run

end CallStack
