import Verif.Proof.Report

/-! Lemmas for C114: numbers in messages, and panics in the passes over the symbols and the LLVM-IR. -/

namespace CallStack

/-! ### Hexadecimal numbers -/

theorem hexChar_spec {d : Nat} (h : d < 16) :
    hexChar d ∈ c!"0123456789abcdef" ∧ hexDigitValue (hexChar d) = d := by
  revert d
  decide

theorem showHexAux_spec (fuel n : Nat) (h : n ≤ fuel) : IsHex (showHexAux fuel n) n := by
  induction fuel generalizing n with
  | zero =>
    obtain rfl : n = 0 := by omega
    unfold IsHex
    decide
  | succ fuel ih =>
    simp only [showHexAux]
    by_cases h16 : n < 16
    · rw [if_pos h16]
      have := hexChar_spec h16
      refine ⟨by simp, ?_, ?_⟩
      · intro c hc
        simp only [List.mem_singleton] at hc
        exact hc ▸ this.1
      · simp [this.2]
    · rw [if_neg h16]
      obtain ⟨_, h2, h3⟩ := ih (n / 16) (by omega)
      have := hexChar_spec (d := n % 16) (by omega)
      refine ⟨by simp, ?_, ?_⟩
      · intro c hc
        rcases List.mem_append.mp hc with hc | hc
        · exact h2 c hc
        · simp only [List.mem_singleton] at hc
          exact hc ▸ this.1
      · rw [List.foldl_append, h3]
        simp only [List.foldl_cons, List.foldl_nil, this.2]
        omega

theorem showHex_isHex (n : Nat) : IsHex (showHex n) n := showHexAux_spec n n (Nat.le_refl n)

theorem showHexAux_head (fuel n : Nat) (h : n ≤ fuel) (h0 : (showHexAux fuel n).head? = some '0') :
    n = 0 ∧ showHexAux fuel n = c!"0" := by
  induction fuel generalizing n with
  | zero =>
    obtain rfl : n = 0 := by omega
    decide
  | succ fuel ih =>
    simp only [showHexAux] at h0 ⊢
    by_cases h16 : n < 16
    · rw [if_pos h16] at h0 ⊢
      have : ∀ d < 16, [hexChar d].head? = some '0' → d = 0 ∧ [hexChar d] = c!"0" := by decide
      exact this n h16 h0
    · rw [if_neg h16] at h0
      obtain ⟨hne, _, _⟩ := showHexAux_spec fuel (n / 16) (by omega)
      rw [List.head?_append_of_ne_nil _ hne] at h0
      have := (ih (n / 16) (by omega) h0).1
      omega

theorem foldl_zeros (k : Nat) :
    (List.replicate k '0').foldl (fun n c => 16 * n + hexDigitValue c) 0 = 0 := by
  induction k with
  | zero => rfl
  | succ k ih =>
    rw [List.replicate_succ, List.foldl_cons]
    exact ih

theorem hex02_isHex (n : Nat) : IsHex (hex02 n) n ∧ TwoDigits (hex02 n) n := by
  have hb : ∀ k < 256, (hex02 k).length = 2 := by decide +kernel
  refine (fun h : IsHex (hex02 n) n ∧ 2 ≤ (hex02 n).length => ⟨h.1, h.2, hb n⟩) ?_
  obtain ⟨h1, h2, h3⟩ := showHex_isHex n
  unfold hex02
  refine ⟨⟨?_, ?_, ?_⟩, ?_⟩
  · simp [h1]
  · intro c hc
    rcases List.mem_append.mp hc with hc | hc
    · rw [List.eq_of_mem_replicate hc]
      decide
    · exact h2 c hc
  · rw [List.foldl_append, foldl_zeros, h3]
  · simp only [List.length_append, List.length_replicate]
    omega

/-! ### The pass over the symbols -/

theorem canonicalOf_error {ss : List (Str × Nat)} {names : List Str} {e : Panic}
    (h : canonicalOf ss names = .error e) : e = .noNames ∧ names = [] := by
  cases names with
  | nil =>
    simp only [canonicalOf, Except.error.injEq] at h
    exact ⟨h.symm, rfl⟩
  | cons n rest =>
    obtain ⟨c, hc⟩ := canonicalOf_ok (ss := ss) (List.cons_ne_nil n rest)
    rw [h] at hc
    cases hc

theorem symPass_error {demangle : Str → Str} {p : Program} {e : Panic} (es : List (Nat × Sym)) :
    ∀ {st : Build}, symPass demangle p st es = .error e →
      e = .noNames ∧ ∃ x ∈ es, realNames x.2 = [] := by
  induction es with
  | nil => intro st h; cases h
  | cons x es ih =>
    intro st h
    simp only [symPass, symStep] at h
    cases hc : canonicalOf p.stackSizes (realNames x.2) with
    | error e' =>
      rw [hc] at h
      simp only [Except.error.injEq] at h
      subst h
      obtain ⟨h1, h2⟩ := canonicalOf_error hc
      exact ⟨h1, x, List.mem_cons_self, h2⟩
    | ok c =>
      rw [hc] at h
      obtain ⟨h1, y, h2, h3⟩ := ih h
      exact ⟨h1, y, List.mem_cons_of_mem _ h2, h3⟩

/-! ### The pass over the LLVM-IR -/

section ir

variable {p : Program} {base : List Node} {cs : List Str} {st0 : Build}

/-- Why a statement cannot be processed. -/
inductive StmtFails (p : Program) (al : List (Str × Str)) : Stmt → Panic → Prop
  | unnamed : StmtFails p al (.bitcastCall none) .unnamedBitcast
  | intrinsic (f : Str) : classify p.target.isThumb f = .unhandled →
      StmtFails p al (.directCall f) (.unhandledIntrinsic f)
  | callee (f : Str) : classify p.target.isThumb f = .plain → mget f al = none → f ∉ p.undefined →
      StmtFails p al (.directCall f) (.unknownCallee f)

theorem stmtStep_error {P : Nat → Stmt → Prop} {ext : List Str} {st : Build}
    (inv : IrInv p base cs st0 P ext st)
    (hcanon : ∀ (n c : Str), mget n st0.aliases = some c → c ∈ cs) {c : Str} {i : Nat} {s : Stmt} {e : Panic}
    (h : stmtStep p c i st s = .error e) : StmtFails p st0.aliases s e := by
  unfold stmtStep at h
  split at h
  · cases h
  · cases h
    exact .unnamed
  · cases h
  · rename_i f
    cases hcl : classify p.target.isThumb f with
    | ignored => rw [hcl] at h; cases h
    | memory rs => rw [hcl] at h; cases h
    | unhandled =>
      rw [hcl] at h
      cases h
      exact .intrinsic f hcl
    | plain =>
      rw [hcl] at h
      simp only at h
      unfold plainCall at h
      split at h
      · cases h
      · cases hm : mget f st.aliases with
        | some canon =>
          rw [hm] at h
          simp only at h
          cases hi : mget canon st.indices with
          | some k => rw [hi] at h; cases h
          | none =>
            rw [inv.aliases] at hm
            exact absurd (List.mem_append.mpr (Or.inl (hcanon _ _ hm))) (inv.shape.idx.none.mp hi)
        | none =>
          rw [hm] at h
          simp only at h
          split at h
          · cases h
          · rename_i hu
            cases h
            rw [inv.aliases] at hm
            exact .callee f hcl hm (by simpa using hu)
  · cases h
  all_goals cases h

theorem stmtsPass_error (hcanon : ∀ (n c : Str), mget n st0.aliases = some c → c ∈ cs)
    {c : Str} {i : Nat} (hc : cs[i]? = some c) {e : Panic} (ss : List Stmt) :
    ∀ {P : Nat → Stmt → Prop} {ext : List Str} {st : Build}, IrInv p base cs st0 P ext st →
      stmtsPass p c i st ss = .error e → ∃ s ∈ ss, StmtFails p st0.aliases s e := by
  induction ss with
  | nil => intro P ext st _ h; cases h
  | cons s ss ih =>
    intro P ext st inv h
    simp only [stmtsPass] at h
    cases hs : stmtStep p c i st s with
    | error e' =>
      rw [hs] at h
      cases h
      exact ⟨s, List.mem_cons_self, stmtStep_error inv hcanon hs⟩
    | ok st1 =>
      rw [hs] at h
      obtain ⟨ext1, inv1⟩ := stmtStep_inv inv hc hs
      obtain ⟨s', h1, h2⟩ := ih inv1 h
      exact ⟨s', List.mem_cons_of_mem _ h1, h2⟩

theorem definePass_error (hcanon : ∀ (n c : Str), mget n st0.aliases = some c → c ∈ cs)
    (hidx : Indexed cs st0.indices) {e : Panic} (ds : List Define) :
    ∀ {P : Nat → Stmt → Prop} {ext : List Str} {st : Build}, IrInv p base cs st0 P ext st →
      definePass p st ds = .error e →
      ∃ d ∈ ds, ∃ c, mget d.name st0.aliases = some c ∧ ∃ s ∈ d.stmts, StmtFails p st0.aliases s e := by
  induction ds with
  | nil => intro P ext st _ h; cases h
  | cons d ds ih =>
    intro P ext st inv h
    simp only [definePass] at h
    cases hs : defineStep p st d with
    | ok st1 =>
      rw [hs] at h
      obtain ⟨ext1, inv1⟩ := defineStep_inv inv hcanon hidx hs
      obtain ⟨d', h1, h2⟩ := ih inv1 h
      exact ⟨d', List.mem_cons_of_mem _ h1, h2⟩
    | error e' =>
      rw [hs] at h
      cases h
      refine ⟨d, List.mem_cons_self, ?_⟩
      unfold defineStep at hs
      cases hm : mget d.name st.aliases with
      | none => rw [hm] at hs; cases hs
      | some c =>
        rw [hm] at hs
        simp only at hs
        have hm0 := hm
        rw [inv.aliases] at hm0
        obtain ⟨k, hk⟩ := List.getElem?_of_mem (hcanon _ _ hm0)
        have hk' : (cs ++ ext)[k]? = some c := by
          rw [List.getElem?_append_left (List.getElem?_eq_some_iff.mp hk).1]; exact hk
        rw [(inv.shape.idx c k).mpr hk'] at hs
        exact ⟨c, hm0, stmtsPass_error hcanon hk d.stmts (inv.touch k (sinsert c st.defined)) hs⟩

end ir

variable {demangle : Str → Str} {ord : HashOrder} {search : TagSearch} {p : Program} {elf : Elf}
  {start : Option Str}

/-- A panic up to the end of the pass over the LLVM-IR says what is the case. -/
theorem irGraph_says (once : p.NamesOnce) {e : Panic} (h : irGraph demangle p = .error e) :
    p.Says demangle ord search elf start (Report.ofPanic e).kind (Report.ofPanic e).text := by
  unfold irGraph at h
  cases h0 : symPass demangle p Build.empty p.defined with
  | error e' =>
    rw [h0] at h
    cases h
    obtain ⟨rfl, x, hx, hn⟩ := symPass_error p.defined h0
    obtain ⟨i, hi⟩ := List.getElem?_of_mem hx
    refine .noNames i x.1 x.2 hi (fun n hn' => ?_)
    have := (mem_realNames x.2 n).mpr hn'
    rw [hn] at this
    cases this
  | ok st0 =>
    rw [h0] at h
    simp only at h
    obtain ⟨cs, hsym⟩ := symPass_inv p.defined (SymInv.empty demangle p) h0
    simp only [List.nil_append] at hsym
    have hidx := hsym.indexed once
    have hcanon : ∀ (n c : Str), mget n st0.aliases = some c → c ∈ cs := by
      intro n c hn
      obtain ⟨i, e, _, h2, _⟩ := hsym.aliases_some n c hn
      exact List.mem_of_getElem? h2
    obtain ⟨d, hd, c, hc, s, hs, hf⟩ := definePass_error hcanon hidx p.defines (IrInv.init hsym hidx) h
    obtain ⟨i, hi⟩ := List.getElem?_of_mem (hcanon _ _ hc)
    have hcon : p.Contains i s := ⟨d, hd, (hsym.live once hi).mp hc, hs⟩
    cases hf with
    | unnamed => exact .unnamed i hcon
    | intrinsic f hcl =>
      obtain ⟨h1, h2, h3, h4, h5⟩ := classify_unhandled hcl
      refine .intrinsic i f hcon h1 ?_ h3 h4 h5
      cases ht : p.target <;> rw [ht] at h2 <;> first | rfl | cases h2
    | callee f hcl hm hu => exact .callee i f hcon (classify_plain.mp hcl) ((hsym.dead f).mp hm) hu

end CallStack
