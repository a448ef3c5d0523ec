import Verif.Proof.Calls
import Verif.Proof.Gc

/-!
When the pass over the LLVM-IR succeeds, and independence of the order of the definitions.
-/

namespace CallStack

theorem classify_unhandled {t : Bool} {f : Str} (h : classify t f = .unhandled) :
    IsIntrinsic f ∧ t = false ∧ ¬ NoCodeIntrinsic f ∧ ¬ InlineIntrinsic f ∧ ¬ MemoryIntrinsic f := by
  have h0 : IsIntrinsic f := by
    by_contra hc
    rw [classify_plain.mpr hc] at h
    simp at h
  have h1 : ¬ (NoCodeIntrinsic f ∨ (t = true ∧ IsIntrinsic f) ∨ InlineIntrinsic f) := by
    intro hc
    rw [classify_ignored.mpr hc] at h
    simp at h
  have ht : t = false := by
    cases t with
    | false => rfl
    | true => exact absurd (Or.inr (Or.inl ⟨rfl, h0⟩)) h1
  subst ht
  refine ⟨h0, rfl, fun hc => h1 (Or.inl hc), fun hc => h1 (Or.inr (Or.inr hc)), ?_⟩
  rintro (hc | hc)
  · rw [classify_memcpy hc] at h; simp at h
  · rw [classify_memset hc] at h; simp at h

variable {p : Program} {base : List Node} {cs ext : List Str} {st0 st : Build}
  {P : Nat → Stmt → Prop}

/-- What lets a statement pass, after the statements `P`. -/
def StepOk (p : Program) (al : List (Str × Str)) (cs : List Str) (P : Nat → Stmt → Prop) (s : Stmt) : Prop :=
  s ≠ .bitcastCall none ∧
  ∀ f, s = .directCall f → classify p.target.isThumb f ≠ .unhandled ∧
    (classify p.target.isThumb f = .plain → mget f al ≠ none ∨ f ∈ p.undefined ∨
      (f ∈ symbollessIntrinsics ∧ f ∉ cs ∧ ∀ i, ¬ P i (.bitcastCall (some f))))

theorem StepOk.congr {al : List (Str × Str)} {P Q : Nat → Stmt → Prop} (h : ∀ i s, P i s ↔ Q i s) {s : Stmt} :
    StepOk p al cs P s ↔ StepOk p al cs Q s := by
  unfold StepOk
  simp only [h]

theorem stmtStep_ok_iff (inv : IrInv p base cs st0 P ext st)
    (hcanon : ∀ (n c : Str), mget n st0.aliases = some c → c ∈ cs) {i : Nat} {c : Str} {s : Stmt} :
    (∃ st', stmtStep p c i st s = .ok st') ↔ StepOk p st0.aliases cs P s := by
  constructor
  · rintro ⟨st', h⟩
    refine ⟨?_, ?_⟩
    · rintro rfl
      simp [stmtStep] at h
    · rintro f rfl
      cases hcl : classify p.target.isThumb f with
      | ignored => simp
      | memory rs => simp
      | unhandled => simp [stmtStep, hcl] at h
      | plain =>
        refine ⟨by simp, fun _ => ?_⟩
        simp only [stmtStep, hcl] at h
        by_contra hno
        simp only [not_or, ne_eq, not_not] at hno
        obtain ⟨h1, h2, h3⟩ := hno
        unfold plainCall at h
        split at h
        · rename_i hsym
          simp only [Bool.and_eq_true, Option.isNone_iff_eq_none] at hsym
          have hnot := inv.shape.idx.none.mp hsym.2
          refine h3 ⟨by simpa using hsym.1, fun hf => hnot (List.mem_append.mpr (Or.inl hf)), ?_⟩
          intro j hj
          obtain ⟨k, hk, _⟩ := inv.complete j _ f hj rfl
          exact hnot (List.mem_of_getElem? hk)
        · rw [inv.aliases, h1] at h
          simp only at h
          rw [if_neg (by simpa using h2)] at h
          simp at h
  · rintro ⟨h1, h2⟩
    cases s with
    | asm x => exact ⟨_, rfl⟩
    | bitcastCall x =>
      cases x with
      | none => exact absurd rfl h1
      | some n => exact ⟨_, rfl⟩
    | indirectCall sig => exact ⟨_, rfl⟩
    | comment => exact ⟨_, rfl⟩
    | label => exact ⟨_, rfl⟩
    | other => exact ⟨_, rfl⟩
    | directCall f =>
      obtain ⟨h3, h4⟩ := h2 f rfl
      cases hcl : classify p.target.isThumb f with
      | ignored => exact ⟨st, by simp only [stmtStep, hcl]⟩
      | memory rs => exact ⟨_, by simp only [stmtStep, hcl]; rfl⟩
      | unhandled => exact absurd hcl h3
      | plain =>
        simp only [stmtStep, hcl]
        unfold plainCall
        split
        · exact ⟨_, rfl⟩
        · rename_i hsym
          have hal := inv.aliases
          cases hm : mget f st.aliases with
          | some canon =>
            simp only
            rw [hal] at hm
            cases hi : mget canon st.indices with
            | some k => exact ⟨_, rfl⟩
            | none =>
              exact absurd (List.mem_append.mpr (Or.inl (hcanon _ _ hm))) (inv.shape.idx.none.mp hi)
          | none =>
            simp only
            rw [hal] at hm
            rcases h4 hcl with h5 | h5 | ⟨h5, h6, h7⟩
            · exact absurd hm h5
            · rw [if_pos (by simpa using h5)]
              exact ⟨_, rfl⟩
            · exfalso
              apply hsym
              simp only [Bool.and_eq_true, Option.isNone_iff_eq_none]
              refine ⟨by simpa using h5, inv.shape.idx.none.mpr ?_⟩
              intro hm'
              rcases List.mem_append.mp hm' with hm' | hm'
              · exact h6 hm'
              · obtain ⟨i', s', k1, k2 | ⟨_, _, _, _, k2⟩⟩ := inv.extWhy f hm'
                · rw [k2] at k1
                  exact h7 i' k1
                · exact k2 h5

theorem stmtsPass_ok_iff (hcanon : ∀ (n c : Str), mget n st0.aliases = some c → c ∈ cs)
    {i : Nat} {c : Str} (hc : cs[i]? = some c) (ss : List Stmt) :
    ∀ {P : Nat → Stmt → Prop} {ext : List Str} {st : Build}, IrInv p base cs st0 P ext st →
      ((∃ st', stmtsPass p c i st ss = .ok st') ↔ ∀ pre s post, ss = pre ++ s :: post →
        StepOk p st0.aliases cs (fun i' s' => P i' s' ∨ (i' = i ∧ s' ∈ pre)) s) := by
  induction ss with
  | nil =>
    intro P ext st _
    refine ⟨fun _ pre s post h => ?_, fun _ => ⟨_, rfl⟩⟩
    simp at h
  | cons s ss ih =>
    intro P ext st inv
    have hstep := stmtStep_ok_iff inv hcanon (i := i) (c := c) (s := s)
    constructor
    · rintro ⟨st2, h⟩ pre s' post hsplit
      simp only [stmtsPass] at h
      split at h
      · simp at h
      rename_i st1 e1
      cases pre with
      | nil =>
        simp only [List.nil_append, List.cons.injEq] at hsplit
        rw [← hsplit.1]
        exact (StepOk.congr (by simp)).mp (hstep.mp ⟨_, e1⟩)
      | cons s0 pre =>
        simp only [List.cons_append, List.cons.injEq] at hsplit
        obtain ⟨ext1, inv1⟩ := stmtStep_inv inv hc e1
        have := (ih inv1).mp ⟨_, h⟩ pre s' post hsplit.2
        refine (StepOk.congr ?_).mp this
        intro i' s''
        rw [hsplit.1]
        simp only [addStmt, List.mem_cons]
        constructor
        · rintro ((h | ⟨h, h'⟩) | ⟨h, h'⟩)
          · exact Or.inl h
          · exact Or.inr ⟨h, Or.inl h'⟩
          · exact Or.inr ⟨h, Or.inr h'⟩
        · rintro (h | ⟨h, h' | h'⟩)
          · exact Or.inl (Or.inl h)
          · exact Or.inl (Or.inr ⟨h, h'⟩)
          · exact Or.inr ⟨h, h'⟩
    · intro h
      obtain ⟨st1, e1⟩ := hstep.mpr ((StepOk.congr (by simp)).mp (h [] s ss rfl))
      obtain ⟨ext1, inv1⟩ := stmtStep_inv inv hc e1
      obtain ⟨st2, e2⟩ := (ih inv1).mpr (by
        intro pre s' post hsplit
        have := h (s :: pre) s' post (by rw [hsplit]; rfl)
        refine (StepOk.congr ?_).mp this
        intro i' s''
        simp only [addStmt, List.mem_cons]
        constructor
        · rintro (h | ⟨h, h' | h'⟩)
          · exact Or.inl (Or.inl h)
          · exact Or.inl (Or.inr ⟨h, h'⟩)
          · exact Or.inr ⟨h, h'⟩
        · rintro ((h | ⟨h, h'⟩) | ⟨h, h'⟩)
          · exact Or.inl h
          · exact Or.inr ⟨h, Or.inl h'⟩
          · exact Or.inr ⟨h, Or.inr h'⟩)
      exact ⟨st2, by simp only [stmtsPass, e1, e2]⟩

/-- The statements before a place in a definition pass the way `StepOk` says. -/
def DefineOk (p : Program) (cs : List Str) (al : List (Str × Str)) (P : Nat → Stmt → Prop) (d : Define) : Prop :=
  ∀ c i, mget d.name al = some c → cs[i]? = some c → ∀ pre s post, d.stmts = pre ++ s :: post →
    StepOk p al cs (fun i' s' => P i' s' ∨ (i' = i ∧ s' ∈ pre)) s

theorem DefineOk.congr {al : List (Str × Str)} {P Q : Nat → Stmt → Prop} (h : ∀ i s, P i s ↔ Q i s) {d : Define} :
    DefineOk p cs al P d ↔ DefineOk p cs al Q d := by
  unfold DefineOk
  have : ∀ i s, P i s = Q i s := fun i s => propext (h i s)
  simp only [this]

theorem defineStep_ok_iff (hcanon : ∀ (n c : Str), mget n st0.aliases = some c → c ∈ cs)
    (nodup : ∀ (i j : Nat) (c : Str), cs[i]? = some c → cs[j]? = some c → i = j) {d : Define}
    (inv : IrInv p base cs st0 P ext st) :
    (∃ st', defineStep p st d = .ok st') ↔ DefineOk p cs st0.aliases P d := by
  have hal := inv.aliases
  cases hm : mget d.name st.aliases with
  | none =>
    refine ⟨fun _ c i h => ?_, fun _ => ⟨st, by simp only [defineStep, hm]⟩⟩
    rw [hal] at hm
    rw [hm] at h
    simp at h
  | some c =>
    have hm0 := hm
    rw [hal] at hm
    obtain ⟨k, hk⟩ := List.getElem?_of_mem (hcanon _ _ hm)
    have hk' : (cs ++ ext)[k]? = some c := by
      rw [List.getElem?_append_left (List.getElem?_eq_some_iff.mp hk).1]; exact hk
    have hi := (inv.shape.idx c k).mpr hk'
    have := stmtsPass_ok_iff (p := p) hcanon hk d.stmts (inv.touch k (sinsert c st.defined))
    simp only [defineStep, hm0, hi, this]
    constructor
    · intro h c' i hc' hi' pre s post hs
      rw [hm] at hc'
      obtain rfl := Option.some.inj hc'
      obtain rfl := nodup _ _ _ hk hi'
      exact h pre s post hs
    · intro h pre s post hs
      exact h c k hm hk pre s post hs

theorem definePass_ok_iff (hcanon : ∀ (n c : Str), mget n st0.aliases = some c → c ∈ cs)
    (nodup : ∀ (i j : Nat) (c : Str), cs[i]? = some c → cs[j]? = some c → i = j)
    (hidx : Indexed cs st0.indices) (ds : List Define) :
    ∀ {P : Nat → Stmt → Prop} {ext : List Str} {st : Build}, IrInv p base cs st0 P ext st →
      ((∃ st', definePass p st ds = .ok st') ↔ ∀ ds₁ d ds₂, ds = ds₁ ++ d :: ds₂ →
        DefineOk p cs st0.aliases (fun i s => P i s ∨ StmtsOf cs st0.aliases ds₁ i s) d) := by
  have hcons : ∀ (P : Nat → Stmt → Prop) (d : Define) (ds₁ : List Define) i s,
      ((P i s ∨ StmtsOf cs st0.aliases [d] i s) ∨ StmtsOf cs st0.aliases ds₁ i s) ↔
        (P i s ∨ StmtsOf cs st0.aliases (d :: ds₁) i s) := by
    intro P d ds₁ i s
    unfold StmtsOf
    simp only [List.mem_cons, List.not_mem_nil, or_false, exists_eq_left, or_and_right, exists_or, or_assoc]
  have hnil : ∀ (P : Nat → Stmt → Prop) i s, P i s ↔ (P i s ∨ StmtsOf cs st0.aliases [] i s) := by
    intro P i s
    unfold StmtsOf
    simp
  induction ds with
  | nil =>
    intro P ext st _
    refine ⟨fun _ pre s post h => ?_, fun _ => ⟨_, rfl⟩⟩
    simp at h
  | cons d ds ih =>
    intro P ext st inv
    have hstep := defineStep_ok_iff hcanon nodup (d := d) inv
    constructor
    · rintro ⟨st2, h⟩ pre d' post hsplit
      simp only [definePass] at h
      split at h
      · simp at h
      rename_i st1 e1
      cases pre with
      | nil =>
        simp only [List.nil_append, List.cons.injEq] at hsplit
        rw [← hsplit.1]
        exact (DefineOk.congr (hnil P)).mp (hstep.mp ⟨_, e1⟩)
      | cons d0 pre =>
        simp only [List.cons_append, List.cons.injEq] at hsplit
        obtain ⟨ext1, inv1⟩ := defineStep_inv inv hcanon hidx e1
        have := (ih inv1).mp ⟨_, h⟩ pre d' post hsplit.2
        rw [← hsplit.1]
        exact (DefineOk.congr (hcons P d pre)).mp this
    · intro h
      obtain ⟨st1, e1⟩ := hstep.mpr ((DefineOk.congr (hnil P)).mpr (h [] d ds rfl))
      obtain ⟨ext1, inv1⟩ := defineStep_inv inv hcanon hidx e1
      obtain ⟨st2, e2⟩ := (ih inv1).mpr (by
        intro pre d' post hsplit
        have := h (d :: pre) d' post (by rw [hsplit]; rfl)
        exact (DefineOk.congr (hcons P d pre)).mpr this)
      exact ⟨st2, by simp only [definePass, e1, e2]⟩

/-- Success of the whole pass. -/
theorem irGraph_ok_iff {demangle : Str → Str} {p : Program} (once : p.NamesOnce) :
    (∃ st, irGraph demangle p = .ok st) ↔
      (∀ e ∈ p.defined, ∃ n, e.2.Named n) ∧ (∀ i s, p.Contains i s → p.Acceptable s) ∧
      (p.CallsAfterBitcast c!"memcmp" → (∃ j, p.LiveAt c!"memcmp" j) ∨ c!"memcmp" ∈ p.undefined) := by
  by_cases named : ∀ e ∈ p.defined, ∃ n, e.2.Named n
  swap
  · refine ⟨fun ⟨st, h⟩ => absurd ?_ named, fun h => absurd h.1 named⟩
    obtain ⟨cs, ext, st0, r⟩ := irGraph_facts once h
    intro e he
    obtain ⟨j, hj⟩ := List.getElem?_of_mem he
    obtain ⟨c, hc⟩ := r.sym.idx_lt hj
    exact ⟨c, (mem_realNames e.2 c).mp (canonicalOf_spec (r.sym.canon j e c hj hc)).1⟩
  obtain ⟨st0, h0⟩ : ∃ st0, symPass demangle p Build.empty p.defined = .ok st0 := by
    apply symPass_ok
    intro e he h
    obtain ⟨n, hn⟩ := named e he
    have := (mem_realNames e.2 n).mpr hn
    rw [h] at this
    simp at this
  obtain ⟨cs, hsym⟩ := symPass_inv p.defined (SymInv.empty demangle p) h0
  simp only [List.nil_append] at hsym
  have hidx := hsym.indexed once
  have hcanon : ∀ (n c : Str), mget n st0.aliases = some c → c ∈ cs := by
    intro n c hn
    obtain ⟨i, e, _, h2, _⟩ := hsym.aliases_some n c hn
    exact List.mem_of_getElem? h2
  have nodup : ∀ (i j : Nat) (c : Str), cs[i]? = some c → cs[j]? = some c → i = j := by
    intro i j c hi hj
    have := (hidx c i).mpr hi
    rw [(hidx c j).mpr hj] at this
    exact (Option.some.inj this).symm
  have hlive : ∀ f, mget f st0.aliases ≠ none ↔ ∃ j, p.LiveAt f j := by
    intro f
    rw [ne_eq, hsym.dead f]
    exact not_forall_not
  have hpos : ∀ f i, (∃ c, mget f st0.aliases = some c ∧ cs[i]? = some c) ↔ p.LiveAt f i := by
    intro f i
    constructor
    · rintro ⟨c, h1, h2⟩
      exact (hsym.live once h2).mp h1
    · intro h
      cases hm : mget f st0.aliases with
      | none => exact absurd h ((hsym.dead f).mp hm i)
      | some c =>
        obtain ⟨j, hj⟩ := List.getElem?_of_mem (hcanon _ _ hm)
        have := (hsym.live once hj).mp hm
        have e : i = j := once f i j h this
        exact ⟨c, rfl, e ▸ hj⟩
  have hcs : ∀ f, f ∈ cs → ∃ j, p.LiveAt f j := by
    intro f hm
    obtain ⟨j, hj⟩ := List.getElem?_of_mem hm
    exact ⟨j, hsym.self hj⟩
  have hmemcmp : ∀ f, f ∈ symbollessIntrinsics ↔ f = c!"memcmp" := by simp [symbollessIntrinsics]
  have key := definePass_ok_iff (p := p) hcanon nodup hidx p.defines (IrInv.init hsym hidx)
  unfold irGraph
  rw [h0]
  simp only [key]
  clear key
  constructor
  · intro h
    have hstep : ∀ i s, p.Contains i s → ∃ P, StepOk p st0.aliases cs P s := by
      rintro i s ⟨d, hd, hl, hs⟩
      obtain ⟨ds₁, ds₂, e⟩ := List.append_of_mem hd
      obtain ⟨pre, post, e'⟩ := List.append_of_mem hs
      obtain ⟨c, h1, h2⟩ := (hpos _ _).mpr hl
      exact ⟨_, h ds₁ d ds₂ e c i h1 h2 pre s post e'⟩
    refine ⟨named, ?_, ?_⟩
    · intro i s hc
      obtain ⟨P, h1, h2⟩ := hstep i s hc
      unfold Program.Acceptable
      split
      · rintro rfl
        exact h1 rfl
      · rename_i f
        obtain ⟨h3, h4⟩ := h2 f rfl
        constructor
        · intro hf
          cases ht : p.target with
          | thumbv6m => simp
          | thumbv7m => simp
          | other =>
            right
            have ht' : p.target.isThumb = false := by rw [ht]; rfl
            rw [ht'] at h3
            cases hcl : classify false f with
            | ignored =>
              rcases classify_ignored.mp hcl with h | ⟨h, _⟩ | h
              · exact Or.inl h
              · simp at h
              · exact Or.inr (Or.inl h)
            | memory rs =>
              right; right
              rcases classify_memory hcl with ⟨h, _⟩ | ⟨h, _⟩
              · exact Or.inl h
              · exact Or.inr h
            | unhandled => exact absurd hcl h3
            | plain => exact absurd hf (classify_plain.mp hcl)
        · intro hf
          rcases h4 (classify_plain.mpr hf) with h5 | h5 | ⟨h5, _⟩
          · exact Or.inl ((hlive f).mp h5)
          · exact Or.inr (Or.inl h5)
          · exact Or.inr (Or.inr ((hmemcmp f).mp h5))
      · trivial
    · rintro ⟨ds₁, d, ds₂, pre, post, h1, ⟨i, h2⟩, h3, h4⟩
      obtain ⟨c, k1, k2⟩ := (hpos _ _).mpr h2
      have hpl : classify p.target.isThumb c!"memcmp" = .plain := classify_plain.mpr (by unfold IsIntrinsic; decide)
      rcases ((h ds₁ d ds₂ h1 c i k1 k2 pre _ post h3).2 _ rfl).2 hpl with h5 | h5 | ⟨_, _, h5⟩
      · exact Or.inl ((hlive _).mp h5)
      · exact Or.inr h5
      · exfalso
        rcases h4 with h4 | ⟨d', h6, ⟨j, h7⟩, h8⟩
        · exact h5 i (Or.inr ⟨rfl, h4⟩)
        · obtain ⟨c', l1, l2⟩ := (hpos _ _).mpr h7
          exact h5 j (Or.inl (Or.inr ⟨d', h6, c', l1, l2, h8⟩))
  · rintro ⟨_, hacc, hmem⟩ ds₁ d ds₂ h1 c i k1 k2 pre s post h3
    have hl := (hpos d.name i).mp ⟨c, k1, k2⟩
    have hc : p.Contains i s := ⟨d, by rw [h1]; simp, hl, by rw [h3]; simp⟩
    refine ⟨?_, ?_⟩
    · rintro rfl
      exact hacc i _ hc rfl
    · rintro f rfl
      obtain ⟨h4, h5⟩ := hacc i _ hc
      refine ⟨?_, ?_⟩
      · intro hu
        obtain ⟨k1, k2, k3, k4, k5⟩ := classify_unhandled hu
        rcases h4 k1 with h | h | h | h
        · revert k2
          cases ht : p.target <;> simp_all [Target.isThumb]
        · exact k3 h
        · exact k4 h
        · exact k5 h
      · intro hpl
        rcases h5 (classify_plain.mp hpl) with h | h | h
        · exact Or.inl ((hlive f).mpr h)
        · exact Or.inr (Or.inl h)
        · subst h
          by_cases hl' : ∃ j, p.LiveAt c!"memcmp" j
          · exact Or.inl ((hlive _).mpr hl')
          by_cases hu : c!"memcmp" ∈ p.undefined
          · exact Or.inr (Or.inl hu)
          refine Or.inr (Or.inr ⟨(hmemcmp _).mpr rfl, fun h => hl' (hcs _ h), ?_⟩)
          intro j hj
          have hno : ¬ p.CallsAfterBitcast c!"memcmp" := fun h => (hmem h).elim hl' hu
          apply hno
          refine ⟨ds₁, d, ds₂, pre, post, h1, ⟨i, hl⟩, h3, ?_⟩
          rcases hj with (hj | ⟨d', l1, c', l2, l3, l4⟩) | ⟨_, hj⟩
          · exact absurd hj id
          · exact Or.inr ⟨d', l1, ⟨j, (hpos _ _).mp ⟨c', l2, l3⟩⟩, l4⟩
          · exact Or.inl hj

theorem Program.CallsAfterBitcast.contains {p : Program} {f : Str} (h : p.CallsAfterBitcast f) :
    ∃ i, p.Contains i (.directCall f) := by
  obtain ⟨ds₁, d, ds₂, pre, post, h1, ⟨i, h2⟩, h3, _⟩ := h
  exact ⟨i, d, by rw [h1]; simp, h2, by rw [h3]; simp⟩

/-- Sufficient for success, without the order of the definitions. -/
theorem irGraph_ok {demangle : Str → Str} {p : Program} (once : p.NamesOnce)
    (named : ∀ e ∈ p.defined, ∃ n, e.2.Named n)
    (hacc : ∀ i s, p.Contains i s → p.Acceptable s)
    (hmem : (∃ i, p.Contains i (.directCall c!"memcmp")) → (∃ i, p.Contains i (.bitcastCall (some c!"memcmp"))) →
      (∃ j, p.LiveAt c!"memcmp" j) ∨ c!"memcmp" ∈ p.undefined) :
    ∃ st, irGraph demangle p = .ok st := by
  refine (irGraph_ok_iff once).mpr ⟨named, hacc, ?_⟩
  rintro ⟨ds₁, d, ds₂, pre, post, h1, ⟨i, h2⟩, h3, h4⟩
  refine hmem ⟨i, d, by rw [h1]; simp, h2, by rw [h3]; simp⟩ ?_
  rcases h4 with h4 | ⟨d', h5, ⟨j, h6⟩, h7⟩
  · exact ⟨i, d, by rw [h1]; simp, h2, by rw [h3]; simp [h4]⟩
  · exact ⟨j, d', by rw [h1]; simp [h5], h6, h7⟩

/-! ### Order of the definitions -/

theorem mustTarget_congr {thumb : Bool} {al al' : List (Str × Str)} {cs cs' : List Str}
    (h : ∀ n, n ∈ cs ↔ n ∈ cs') (hal : ∀ f, mget f al = mget f al') (s : Stmt) (name : Str) :
    MustTarget thumb al cs s name ↔ MustTarget thumb al' cs' s name := by
  unfold MustTarget
  split <;> simp only [h, hal]

/-- Names of the nodes after the pass. -/
theorem IrFacts.name_at {demangle : Str → Str} {p : Program} {cs ext : List Str} {st0 st : Build}
    (r : IrFacts demangle p cs ext st0 st) (k : Nat) (name : Str) :
    (cs ++ ext)[k]? = some name ↔ ∃ nd, st.g.nodes[k]? = some nd ∧ nd.name = name := by
  rw [r.ir.shape.nodes, r.sym.nodes]
  by_cases hc : k < cs.length
  · rw [List.getElem?_append_left hc, List.getElem?_append_left (by simpa using hc), List.getElem?_map]
    cases cs[k]? <;> simp [mkNode]
  · rw [List.getElem?_append_right (by omega), List.getElem?_append_right (by simpa using hc),
      List.getElem?_map, List.length_map]
    cases ext[k - cs.length]? <;> simp [mkNode]

theorem classify_thumb_memory {f : Str} {rs : List Str} : classify true f ≠ .memory rs := by
  intro h
  have hi : IsIntrinsic f := by
    unfold IsIntrinsic
    rcases classify_memory h with ⟨h1, _⟩ | ⟨h1 | h1, _⟩ <;>
      exact List.IsPrefix.trans (by decide) h1
  rw [classify_ignored.mpr (.inr (.inl ⟨rfl, hi⟩))] at h
  simp at h

/-- Enough for `OrderSafe`: the memory routines and `memcmp`, as far as they are called by name or through a
bitcast, are shown under these names. -/
theorem orderSafe_of {p : Program}
    (h : (∀ r ∈ CopyRoutines ++ FillRoutines, (∃ j, p.Principal j r) ∨
      ((∀ i, ¬ p.Contains i (.bitcastCall (some r))) ∧
        (p.NotLive r → ∀ i, ¬ p.Contains i (.directCall r)))) ∧
      ((∃ j, p.Principal j c!"memcmp") ∨ ∀ i, ¬ p.Contains i (.bitcastCall (some c!"memcmp")))) :
    p.OrderSafe := by
  have key : ∀ r ∈ CopyRoutines ++ FillRoutines, (∃ j, p.Principal j r) ∨
      ∀ k s', p.Contains k s' → ¬ p.Creates s' r := by
    intro r hr
    rcases h.1 r hr with h | ⟨h1, h2⟩
    · exact Or.inl h
    · right
      rintro k s' h3 (rfl | ⟨rfl, _, _, h4, _⟩)
      · exact h1 k h3
      · exact h2 h4 k h3
  intro i s r hs hn
  cases hn with
  | memcmp =>
    rcases h.2 with h | h
    · exact Or.inl h
    · right; right
      rintro k s' h3 (rfl | ⟨_, _, h4, _⟩)
      · exact h k h3
      · exact h4 rfl
  | copy _ _ h3 =>
    rcases key r (List.mem_append.mpr (Or.inl h3)) with h | h
    · exact Or.inl h
    · exact Or.inr (Or.inr h)
  | fill _ _ h3 =>
    rcases key r (List.mem_append.mpr (Or.inr h3)) with h | h
    · exact Or.inl h
    · exact Or.inr (Or.inr h)

theorem IrFacts.creates_must {demangle : Str → Str} {p : Program} {cs ext : List Str} {st0 st : Build}
    (r : IrFacts demangle p cs ext st0 st) {s : Stmt} {n : Str} (h : p.Creates s n) :
    MustTarget p.target.isThumb st0.aliases cs s n := by
  rcases h with rfl | ⟨rfl, h1, h2, h3, _⟩
  · rfl
  · refine Or.inr ⟨classify_plain.mpr h1, fun h => h2 (by simpa [symbollessIntrinsics] using h.1),
      Or.inr ⟨(r.dead _).mpr h3, rfl⟩⟩

theorem IrFacts.creator {demangle : Str → Str} {p : Program} {cs ext : List Str} {st0 st : Build}
    (r : IrFacts demangle p cs ext st0 st) {n : Str} (h : n ∈ ext) :
    ∃ i s, p.Contains i s ∧ p.Creates s n := by
  obtain ⟨i', s', h11, h12 | ⟨h12, h13, h14, h15, h16⟩⟩ := r.ir.extWhy n h
  · exact ⟨i', s', h11, Or.inl h12⟩
  · exact ⟨i', s', h11, Or.inr ⟨h12, classify_plain.mp h13, by simpa [symbollessIntrinsics] using h16,
      (r.dead n).mp h14, h15⟩⟩

/-- Under `OrderSafe`, the edges are determined by the statements alone. -/
theorem callsName_iff {demangle : Str → Str} {p : Program} {cs ext : List Str} {st0 st : Build}
    (r : IrFacts demangle p cs ext st0 st) (safe : p.OrderSafe) (i : Nat) (name : Str) :
    st.g.CallsName i name ↔
      ∃ s, p.Contains i s ∧ MustTarget p.target.isThumb st0.aliases cs s name := by
  constructor
  · rintro ⟨j, nd, h1, h2, h3⟩
    obtain ⟨s, name', h4, h5, h6⟩ := r.ir.sound _ h1
    simp only at h4 h5
    have h7 := (r.name_at j name).mpr ⟨nd, h2, h3⟩
    rw [h7] at h5
    have := Option.some.inj h5
    subst this
    have hmem : name ∈ cs ++ ext := List.mem_of_getElem? h7
    have key : ∀ n, p.Needs s n → n ∈ cs ++ ext → n ∈ cs ∨
        ((∃ s', p.Contains i s' ∧ p.Creates s' n) ∧ (n = c!"memcmp" → p.NotLive n ∧ n ∈ p.undefined)) := by
      intro n hn hm
      rcases safe i s n h4 hn with ⟨k, hk⟩ | h | h
      · exact Or.inl (List.mem_of_getElem? (r.principal.mp hk))
      · exact Or.inr h
      · rcases List.mem_append.mp hm with hm | hm
        · exact Or.inl hm
        · obtain ⟨k, s', h8, h9⟩ := r.creator hm
          exact absurd h9 (h k s' h8)
    unfold MayTarget at h6
    split at h6
    · exact ⟨_, h4, h6⟩
    · rename_i f
      rcases h6 with ⟨rs, h8, h9⟩ | ⟨h8, h9, h10⟩
      · have ht : p.target = .other := by
          cases ht : p.target with
          | other => rfl
          | thumbv6m => rw [ht] at h8; exact absurd h8 classify_thumb_memory
          | thumbv7m => rw [ht] at h8; exact absurd h8 classify_thumb_memory
        have hn : p.Needs (.directCall f) name := by
          rcases classify_memory h8 with ⟨h11, rfl⟩ | ⟨h11, rfl⟩
          · exact .copy ht h11 h9
          · exact .fill ht h11 h9
        rcases key name hn hmem with h | ⟨⟨s', h11, h12⟩, _⟩
        · exact ⟨_, h4, Or.inl ⟨rs, h8, h9, h⟩⟩
        · exact ⟨s', h11, r.creates_must h12⟩
      · by_cases hf : f = c!"memcmp"
        · subst hf
          rcases key _ .memcmp (h9 (by simp [symbollessIntrinsics])) with h | ⟨⟨s', h11, h12⟩, h13⟩
          · refine ⟨_, h4, Or.inr ⟨h8, fun h' => h'.2 h, ?_⟩⟩
            rcases h10 with h10 | ⟨h10, _, h11⟩
            · exact Or.inl h10
            · exact Or.inr ⟨h10, h11⟩
          · rcases h10 with h10 | ⟨h10, _, h14⟩
            · rw [(r.dead _).mpr (h13 rfl).1] at h10
              simp at h10
            · rw [← h14] at h12
              exact ⟨s', h11, r.creates_must h12⟩
        · refine ⟨_, h4, Or.inr ⟨h8, fun h' => hf (by simpa [symbollessIntrinsics] using h'.1), ?_⟩⟩
          rcases h10 with h10 | ⟨h10, _, h11⟩
          · exact Or.inl h10
          · exact Or.inr ⟨h10, h11⟩
    · exact absurd h6 (by simp)
  · rintro ⟨s, h1, h2⟩
    obtain ⟨j, h3, h4⟩ := r.ir.complete i s name h1 h2
    obtain ⟨nd, h5, h6⟩ := (r.name_at j name).mp h3
    exact ⟨j, nd, h4, h5, h6⟩

theorem IrFacts.alias_iff {demangle : Str → Str} {p : Program} {cs ext : List Str} {st0 st : Build}
    (r : IrFacts demangle p cs ext st0 st) (f c : Str) :
    mget f st0.aliases = some c ↔ ∃ j, p.Principal j c ∧ p.LiveAt f j := by
  constructor
  · intro h
    obtain ⟨j, e, _, h2, _⟩ := r.sym.aliases_some f c h
    exact ⟨j, r.principal.mpr h2, (r.live f c j h2).mp h⟩
  · rintro ⟨j, h1, h2⟩
    exact (r.live f c j (r.principal.mp h1)).mpr h2

theorem IrFacts.mem_cs {demangle : Str → Str} {p : Program} {cs ext : List Str} {st0 st : Build}
    (r : IrFacts demangle p cs ext st0 st) (c : Str) : c ∈ cs ↔ ∃ j, p.Principal j c := by
  constructor
  · intro h
    obtain ⟨j, hj⟩ := List.getElem?_of_mem h
    exact ⟨j, r.principal.mpr hj⟩
  · rintro ⟨j, h⟩
    exact List.mem_of_getElem? (r.principal.mp h)

end CallStack
