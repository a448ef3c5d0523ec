import Verif.Spec.SharedAbort
import Verif.Proof.SharedChange
import Verif.Proof.SharedNames
import Verif.Proof.SharedFigures
import Verif.Props.SharedFigures
import Verif.Proof.MachineOk
import Verif.Props.Abort

/-! When the passes over the LLVM-IR and the machine code succeed, if functions may have the same names. -/

namespace CallStack

theorem Program.LastOf.lt {p : Program} {i m : Nat} (h : p.LastOf i m) : m < p.defined.length := by
  obtain ⟨_, _, _, _, _, e2, _⟩ := h
  exact (List.getElem?_eq_some_iff.mp e2).1

section ir

variable {p : Program} {al : List (Str × Str)} {st : Build}

/-- What lets a statement pass; `B`: there is a node of the name `memcmp`. -/
def StepFit (p : Program) (al : List (Str × Str)) (B : Prop) (s : Stmt) : Prop :=
  s ≠ .bitcastCall none ∧
  ∀ f, s = .directCall f → classify p.target.isThumb f ≠ .unhandled ∧
    (classify p.target.isThumb f = .plain → mget f al ≠ none ∨ f ∈ p.undefined ∨ (f = c!"memcmp" ∧ ¬ B))

theorem StepFit.congr {B C : Prop} (h : B ↔ C) {s : Stmt} : StepFit p al B s ↔ StepFit p al C s := by
  unfold StepFit
  rw [h]

/-- The part of the state that decides whether statements pass. -/
structure Fit (al : List (Str × Str)) (B : Prop) (st : Build) : Prop where
  aliases : st.aliases = al
  canon : ∀ (n c : Str), mget n al = some c → HasKey st c
  memcmp : HasKey st c!"memcmp" ↔ B

theorem symbolless_iff (f : Str) : f ∈ symbollessIntrinsics ↔ f = c!"memcmp" := by
  simp [symbollessIntrinsics]

theorem stmtStep_fit {B : Prop} (inv : Fit al B st) {i : Nat} {c : Str} {s : Stmt} :
    (∃ st', stmtStep p c i st s = .ok st') ↔ StepFit p al B s := by
  constructor
  · rintro ⟨st', h⟩
    refine ⟨?_, ?_⟩
    · rintro rfl
      simp [stmtStep] at h
    · rintro f rfl
      cases hcl : classify p.target.isThumb f with
      | ignored => simp
      | memory rs => simp
      | unhandled => simp [stmtStep, hcl] at h
      | plain =>
        refine ⟨by simp, fun _ => ?_⟩
        simp only [stmtStep, hcl] at h
        by_contra hno
        simp only [not_or, ne_eq, not_not] at hno
        obtain ⟨h1, h2, h3⟩ := hno
        unfold plainCall at h
        split at h
        · rename_i hsym
          simp only [Bool.and_eq_true, Option.isNone_iff_eq_none, List.contains_iff_mem, symbolless_iff] at hsym
          obtain ⟨rfl, hsym⟩ := hsym
          exact h3 ⟨rfl, fun hb => inv.memcmp.mpr hb hsym⟩
        · rw [inv.aliases, h1] at h
          simp only at h
          rw [if_neg (by simpa using h2)] at h
          simp at h
  · rintro ⟨h1, h2⟩
    cases s with
    | asm x => exact ⟨_, rfl⟩
    | bitcastCall x =>
      cases x with
      | none => exact absurd rfl h1
      | some n => exact ⟨_, rfl⟩
    | indirectCall sig => exact ⟨_, rfl⟩
    | comment => exact ⟨_, rfl⟩
    | label => exact ⟨_, rfl⟩
    | other => exact ⟨_, rfl⟩
    | directCall f =>
      obtain ⟨h3, h4⟩ := h2 f rfl
      cases hcl : classify p.target.isThumb f with
      | ignored => exact ⟨st, by simp only [stmtStep, hcl]⟩
      | memory rs => exact ⟨_, by simp only [stmtStep, hcl]; rfl⟩
      | unhandled => exact absurd hcl h3
      | plain =>
        simp only [stmtStep, hcl]
        unfold plainCall
        split
        · exact ⟨_, rfl⟩
        · rename_i hsym
          have hal := inv.aliases
          cases hm : mget f st.aliases with
          | some canon =>
            simp only
            rw [hal] at hm
            cases hi : mget canon st.indices with
            | some k => exact ⟨_, rfl⟩
            | none => exact absurd hi (inv.canon f canon hm)
          | none =>
            simp only
            rw [hal] at hm
            rcases h4 hcl with h5 | h5 | ⟨rfl, h6⟩
            · exact absurd hm h5
            · rw [if_pos (by simpa using h5)]
              exact ⟨_, rfl⟩
            · exfalso
              apply hsym
              simp only [Bool.and_eq_true, Option.isNone_iff_eq_none, List.contains_iff_mem, symbolless_iff, true_and]
              by_contra hn
              exact h6 (inv.memcmp.mp hn)

theorem addsKey_memcmp {t : Bool} {s : Stmt} : AddsKey t al s c!"memcmp" ↔ s = .bitcastCall (some c!"memcmp") := by
  unfold AddsKey
  constructor
  · rintro (h | ⟨_, _, _, h⟩)
    · exact h
    · exact absurd ((symbolless_iff _).mpr rfl) h
  · exact .inl

theorem Fit.stmt {B : Prop} (inv : Fit al B st) {i : Nat} {c : Str} {s : Stmt} {st' : Build}
    (h : stmtStep p c i st s = .ok st') : Fit al (B ∨ s = .bitcastCall (some c!"memcmp")) st' := by
  obtain ⟨a1, a2⟩ := HasKey.stmt h
  refine ⟨a1.trans inv.aliases, fun n c hc => (a2 c).mpr (.inl (inv.canon n c hc)), ?_⟩
  rw [a2, inv.memcmp, addsKey_memcmp]

theorem Fit.stmts {B : Prop} (inv : Fit al B st) {i : Nat} {c : Str} {ss : List Stmt} {st' : Build}
    (h : stmtsPass p c i st ss = .ok st') : Fit al (B ∨ .bitcastCall (some c!"memcmp") ∈ ss) st' := by
  obtain ⟨a1, a2⟩ := HasKey.stmts ss h
  refine ⟨a1.trans inv.aliases, fun n c hc => (a2 c).mpr (.inl (inv.canon n c hc)), ?_⟩
  rw [a2, inv.memcmp]
  simp only [addsKey_memcmp, exists_eq_right]

theorem Fit.congr {B C : Prop} (inv : Fit al B st) (h : B ↔ C) : Fit al C st :=
  ⟨inv.aliases, inv.canon, inv.memcmp.trans h⟩

theorem stmtsPass_fit {i : Nat} {c : Str} (ss : List Stmt) : ∀ {B : Prop} {st : Build}, Fit al B st →
    ((∃ st', stmtsPass p c i st ss = .ok st') ↔ ∀ pre s post, ss = pre ++ s :: post →
      StepFit p al (B ∨ .bitcastCall (some c!"memcmp") ∈ pre) s) := by
  induction ss with
  | nil =>
    intro B st _
    refine ⟨fun _ pre s post h => ?_, fun _ => ⟨_, rfl⟩⟩
    simp at h
  | cons s ss ih =>
    intro B st inv
    have hstep := stmtStep_fit (p := p) inv (i := i) (c := c) (s := s)
    have hcons : ∀ pre : List Stmt, ((B ∨ s = .bitcastCall (some c!"memcmp")) ∨ .bitcastCall (some c!"memcmp") ∈ pre) ↔
        (B ∨ .bitcastCall (some c!"memcmp") ∈ s :: pre) := by
      intro pre
      rw [List.mem_cons, or_assoc, @eq_comm _ s]
    constructor
    · rintro ⟨st2, h⟩ pre s' post hsplit
      simp only [stmtsPass] at h
      split at h
      · simp at h
      rename_i st1 e1
      cases pre with
      | nil =>
        simp only [List.nil_append, List.cons.injEq] at hsplit
        rw [← hsplit.1]
        exact (StepFit.congr (by simp)).mp (hstep.mp ⟨_, e1⟩)
      | cons s0 pre =>
        simp only [List.cons_append, List.cons.injEq] at hsplit
        rw [← hsplit.1]
        exact (StepFit.congr (hcons pre)).mp ((ih (inv.stmt e1)).mp ⟨_, h⟩ pre s' post hsplit.2)
    · intro h
      obtain ⟨st1, e1⟩ := hstep.mpr ((StepFit.congr (by simp)).mp (h [] s ss rfl))
      obtain ⟨st2, e2⟩ := (ih (inv.stmt e1)).mpr (by
        intro pre s' post hsplit
        exact (StepFit.congr (hcons pre)).mpr (h (s :: pre) s' post (by rw [hsplit]; rfl)))
      exact ⟨st2, by simp only [stmtsPass, e1, e2]⟩

/-- The statements of the definition pass. -/
def DefineFit (p : Program) (al : List (Str × Str)) (B : Prop) (d : Define) : Prop :=
  mget d.name al ≠ none → ∀ pre s post, d.stmts = pre ++ s :: post →
    StepFit p al (B ∨ .bitcastCall (some c!"memcmp") ∈ pre) s

theorem DefineFit.congr {B C : Prop} (h : B ↔ C) {d : Define} : DefineFit p al B d ↔ DefineFit p al C d := by
  unfold DefineFit
  rw [h]

theorem defineStep_fit {B : Prop} (inv : Fit al B st) {d : Define} :
    (∃ st', defineStep p st d = .ok st') ↔ DefineFit p al B d := by
  cases hm : mget d.name st.aliases with
  | none =>
    refine ⟨fun _ h => ?_, fun _ => ⟨st, by simp only [defineStep, hm]⟩⟩
    rw [inv.aliases] at hm
    exact absurd hm h
  | some c =>
    have hm0 := hm
    rw [inv.aliases] at hm
    obtain ⟨k, hk⟩ := Option.ne_none_iff_exists'.mp (inv.canon _ _ hm)
    have := stmtsPass_fit (p := p) (i := k) (c := c) d.stmts (B := B) (al := al)
      (st := { st with defined := sinsert c st.defined, edges := mset k (st.seen k) st.edges })
      ⟨inv.aliases, inv.canon, inv.memcmp⟩
    simp only [defineStep, hm0, hk, this]
    exact ⟨fun h _ => h, fun h => h (by rw [hm]; simp)⟩

theorem Fit.define {B : Prop} (inv : Fit al B st) {d : Define} {st' : Build} (h : defineStep p st d = .ok st') :
    Fit al (B ∨ (mget d.name al ≠ none ∧ .bitcastCall (some c!"memcmp") ∈ d.stmts)) st' := by
  unfold defineStep at h
  split at h
  · rename_i hn
    cases h
    rw [inv.aliases] at hn
    exact inv.congr (by simp [hn])
  · rename_i c hc
    split at h
    · cases h
    · rename_i k hk
      rw [inv.aliases] at hc
      refine (Fit.stmts (al := al) (B := B)
        (st := { st with defined := sinsert c st.defined, edges := mset k (st.seen k) st.edges }) ⟨inv.aliases, inv.canon, inv.memcmp⟩ h).congr ?_
      simp [hc]

theorem definePass_fit (ds : List Define) : ∀ {B : Prop} {st : Build}, Fit al B st →
    ((∃ st', definePass p st ds = .ok st') ↔ ∀ ds₁ d ds₂, ds = ds₁ ++ d :: ds₂ →
      DefineFit p al (B ∨ ∃ d' ∈ ds₁, mget d'.name al ≠ none ∧ .bitcastCall (some c!"memcmp") ∈ d'.stmts) d) := by
  induction ds with
  | nil =>
    intro B st _
    refine ⟨fun _ pre s post h => ?_, fun _ => ⟨_, rfl⟩⟩
    simp at h
  | cons d ds ih =>
    intro B st inv
    have hstep := defineStep_fit (p := p) inv (d := d)
    have hcons : ∀ pre : List Define,
        ((B ∨ (mget d.name al ≠ none ∧ .bitcastCall (some c!"memcmp") ∈ d.stmts)) ∨
          ∃ d' ∈ pre, mget d'.name al ≠ none ∧ .bitcastCall (some c!"memcmp") ∈ d'.stmts) ↔
        (B ∨ ∃ d' ∈ d :: pre, mget d'.name al ≠ none ∧ .bitcastCall (some c!"memcmp") ∈ d'.stmts) := by
      intro pre
      rw [or_assoc]
      simp only [List.mem_cons, exists_eq_or_imp]
    constructor
    · rintro ⟨st2, h⟩ pre d' post hsplit
      simp only [definePass] at h
      split at h
      · simp at h
      rename_i st1 e1
      cases pre with
      | nil =>
        simp only [List.nil_append, List.cons.injEq] at hsplit
        rw [← hsplit.1]
        exact (DefineFit.congr (by simp)).mp (hstep.mp ⟨_, e1⟩)
      | cons d0 pre =>
        simp only [List.cons_append, List.cons.injEq] at hsplit
        rw [← hsplit.1]
        exact (DefineFit.congr (hcons pre)).mp ((ih (inv.define e1)).mp ⟨_, h⟩ pre d' post hsplit.2)
    · intro h
      obtain ⟨st1, e1⟩ := hstep.mpr ((DefineFit.congr (by simp)).mp (h [] d ds rfl))
      obtain ⟨st2, e2⟩ := (ih (inv.define e1)).mpr (by
        intro pre d' post hsplit
        exact (DefineFit.congr (hcons pre)).mpr (h (d :: pre) d' post (by rw [hsplit]; rfl)))
      exact ⟨st2, by simp only [definePass, e1, e2]⟩

/-- Success of the whole pass over the LLVM-IR, for every program. -/
theorem irGraph_fit {demangle : Str → Str} {p : Program} :
    (∃ st, irGraph demangle p = .ok st) ↔
      (∀ e ∈ p.defined, ∃ n, e.2.Named n) ∧ (∀ i s, p.Contains i s → p.Acceptable s) ∧
      (p.CallsAfterBitcast c!"memcmp" → (∃ j, p.LiveAt c!"memcmp" j) ∨ c!"memcmp" ∈ p.undefined) := by
  by_cases named : ∀ e ∈ p.defined, ∃ n, e.2.Named n
  swap
  · refine ⟨fun ⟨st, h⟩ => absurd ?_ named, fun h => absurd h.1 named⟩
    unfold irGraph at h
    split at h
    · cases h
    rename_i st0 h0
    obtain ⟨cs, hs⟩ := symPass_inv p.defined (SymInv.empty demangle p) h0
    simp only [List.nil_append] at hs
    intro e he
    obtain ⟨j, hj⟩ := List.getElem?_of_mem he
    obtain ⟨c, hc⟩ := hs.idx_lt hj
    exact ⟨c, (mem_realNames e.2 c).mp (canonicalOf_spec (hs.canon j e c hj hc)).1⟩
  obtain ⟨st0, h0⟩ : ∃ st0, symPass demangle p Build.empty p.defined = .ok st0 := by
    apply symPass_ok
    intro e he h
    obtain ⟨n, hn⟩ := named e he
    have := (mem_realNames e.2 n).mpr hn
    rw [h] at this
    simp at this
  obtain ⟨cs, hsym⟩ := symPass_inv p.defined (SymInv.empty demangle p) h0
  simp only [List.nil_append] at hsym
  have hlive : ∀ f, mget f st0.aliases ≠ none ↔ ∃ j, p.LiveAt f j := by
    intro f
    rw [ne_eq, hsym.dead f]
    exact not_forall_not
  have hkey : HasKey st0 c!"memcmp" → ∃ j, p.LiveAt c!"memcmp" j := by
    intro h
    obtain ⟨j, hj⟩ := Option.ne_none_iff_exists'.mp h
    exact ⟨j, hsym.self (hsym.indices_some _ _ hj)⟩
  have fit : Fit st0.aliases (HasKey st0 c!"memcmp") st0 := by
    refine ⟨rfl, fun n c hn => ?_, Iff.rfl⟩
    obtain ⟨i, e, _, h2, _⟩ := hsym.aliases_some n c hn
    exact hsym.indices_ne c (List.mem_of_getElem? h2)
  have key := definePass_fit (p := p) p.defines fit
  unfold irGraph
  rw [h0]
  simp only [key]
  clear key
  constructor
  · intro h
    refine ⟨named, ?_, ?_⟩
    · rintro i s ⟨d, hd, hl, hs⟩
      obtain ⟨ds₁, ds₂, e⟩ := List.append_of_mem hd
      obtain ⟨pre, post, e'⟩ := List.append_of_mem hs
      obtain ⟨h1, h2⟩ := h ds₁ d ds₂ e ((hlive _).mpr ⟨i, hl⟩) pre s post e'
      unfold Program.Acceptable
      split
      · rintro rfl
        exact h1 rfl
      · rename_i f
        obtain ⟨h3, h4⟩ := h2 f rfl
        constructor
        · intro hf
          cases ht : p.target with
          | thumbv6m => simp
          | thumbv7m => simp
          | other =>
            right
            have ht' : p.target.isThumb = false := by rw [ht]; rfl
            rw [ht'] at h3
            cases hcl : classify false f with
            | ignored =>
              rcases classify_ignored.mp hcl with h | ⟨h, _⟩ | h
              · exact Or.inl h
              · simp at h
              · exact Or.inr (Or.inl h)
            | memory rs =>
              right; right
              rcases classify_memory hcl with ⟨h, _⟩ | ⟨h, _⟩
              · exact Or.inl h
              · exact Or.inr h
            | unhandled => exact absurd hcl h3
            | plain => exact absurd hf (classify_plain.mp hcl)
        · intro hf
          rcases h4 (classify_plain.mpr hf) with h5 | h5 | ⟨h5, _⟩
          · exact Or.inl ((hlive f).mp h5)
          · exact Or.inr (Or.inl h5)
          · exact Or.inr (Or.inr h5)
      · trivial
    · rintro ⟨ds₁, d, ds₂, pre, post, h1, h2, h3, h4⟩
      have hpl : classify p.target.isThumb c!"memcmp" = .plain := classify_plain.mpr (by unfold IsIntrinsic; decide)
      rcases ((h ds₁ d ds₂ h1 ((hlive _).mpr h2) pre _ post h3).2 _ rfl).2 hpl with h5 | h5 | ⟨_, h5⟩
      · exact Or.inl ((hlive _).mp h5)
      · exact Or.inr h5
      · exfalso
        rcases h4 with h4 | ⟨d', h6, h7, h8⟩
        · exact h5 (Or.inr h4)
        · exact h5 (Or.inl (Or.inr ⟨d', h6, (hlive _).mpr h7, h8⟩))
  · rintro ⟨_, hacc, hmem⟩ ds₁ d ds₂ h1 hl pre s post h3
    obtain ⟨i, hl⟩ := (hlive _).mp hl
    have hc : p.Contains i s := ⟨d, by rw [h1]; simp, hl, by rw [h3]; simp⟩
    refine ⟨?_, ?_⟩
    · rintro rfl
      exact hacc i _ hc rfl
    · rintro f rfl
      obtain ⟨h4, h5⟩ := hacc i _ hc
      refine ⟨?_, ?_⟩
      · intro hu
        obtain ⟨k1, k2, k3, k4, k5⟩ := classify_unhandled hu
        rcases h4 k1 with h | h | h | h
        · revert k2
          cases ht : p.target <;> simp_all [Target.isThumb]
        · exact k3 h
        · exact k4 h
        · exact k5 h
      · intro hpl
        rcases h5 (classify_plain.mp hpl) with h | h | h
        · exact Or.inl ((hlive f).mpr h)
        · exact Or.inr (Or.inl h)
        · subst h
          by_cases hl' : ∃ j, p.LiveAt c!"memcmp" j
          · exact Or.inl ((hlive _).mpr hl')
          by_cases hu : c!"memcmp" ∈ p.undefined
          · exact Or.inr (Or.inl hu)
          refine Or.inr (Or.inr ⟨rfl, ?_⟩)
          have hno : ¬ p.CallsAfterBitcast c!"memcmp" := fun h => (hmem h).elim hl' hu
          rintro ((hj | ⟨d', l1, l2, l4⟩) | hj)
          · exact hl' (hkey hj)
          · exact hno ⟨ds₁, d, ds₂, pre, post, h1, ⟨i, hl⟩, h3, Or.inr ⟨d', l1, (hlive _).mp l2, l4⟩⟩
          · exact hno ⟨ds₁, d, ds₂, pre, post, h1, ⟨i, hl⟩, h3, Or.inl hj⟩

end ir

section machine

variable {demangle : Str → Str} {ord : HashOrder} {search : TagSearch} {p : Program} {elf elf0 : Elf}
  {cs : List Str} {st0 stIr st : Build} {g : Graph}

theorem SharedFacts.resolves_iff (f : SharedFacts demangle ord search p elf0 cs st0 stIr st g) (t : Nat) :
    (∃ j, Resolves stIr t j) ↔ ∃ j, p.StartsAt j t := by
  constructor
  · rintro ⟨j, name, h1, _⟩
    rw [f.ir.addr] at h1
    obtain ⟨i, s, h3, _⟩ := f.sym.addr_some t name h1
    exact ⟨i, s, h3⟩
  · rintro ⟨j, s, h1⟩
    have h2 := f.sym.addr_ne j _ h1
    rw [← f.ir.addr] at h2
    obtain ⟨c, hc⟩ := Option.ne_none_iff_exists'.mp h2
    have hc' := hc
    rw [f.ir.addr] at hc'
    obtain ⟨i, s', _, h4⟩ := f.sym.addr_some t c hc'
    obtain ⟨k, hk⟩ := Option.ne_none_iff_exists'.mp (f.sym.indices_ne c (List.mem_of_getElem? h4))
    exact ⟨k, c, hc, f.ir.indices _ _ hk⟩

/-- There is only one local usage after the first functions. -/
theorem SharedFacts.localAfter_unique (f : SharedFacts demangle ord search p elf0 cs st0 stIr st g)
    (ht : p.target.isThumb = true) {m : Nat} (hm : m < p.defined.length) (k : Nat) : ∀ (l l' : Local),
    p.LocalAfter search elf m k l → p.LocalAfter search elf m k l' → l = l' := by
  have hfig : ∀ {a b : Option Nat}, figureLocal a = figureLocal b → a = b := by
    intro a b h
    cases a <;> cases b <;> simp_all [figureLocal]
  induction k with
  | zero =>
    intro l l' h1 h2
    cases h1 with
    | @compiler a a1 =>
      cases h2 with
      | @compiler b b1 =>
        have hlt : m < cs.length := by rw [f.sym.len]; exact hm
        have he := List.getElem?_eq_getElem hm
        have hcan := f.sym.canon m _ _ he (List.getElem?_eq_getElem hlt)
        rw [(frameOpt_iff he hcan a).mp a1, (frameOpt_iff he hcan b).mp b1]
  | succ k ih =>
    intro l l' h1 h2
    cases h1 with
    | code a1 a2 a3 a4 a5 =>
      cases h2 with
      | code b1 b2 b3 b4 b5 =>
        cases hfig (ih _ _ a1 b1)
        obtain rfl := (codeOf_iff.mpr ⟨ht, a3⟩).unique (codeOf_iff.mpr ⟨ht, b3⟩)
        have e1 := f.principal.mp a4
        rw [f.principal.mp b4] at e1
        cases e1
        exact a5.unique b5
      | other b1 b2 => exact absurd a2 b2
    | other a1 a2 =>
      cases h2 with
      | code b1 b2 b3 b4 b5 => exact absurd b2 a2
      | other b1 b2 => exact ih _ _ a1 b1

/-- Functions of one node have the same principal name. -/
theorem SharedFacts.last_name (f : SharedFacts demangle ord search p elf0 cs st0 stIr st g) {i m : Nat} {c name : Str}
    (hl : p.LastOf i m) (hc : cs[i]? = some c) (hm : cs[m]? = some name) : name = c := by
  obtain ⟨_, s, _, t, e1, e2, e3, _⟩ := hl
  have c1 := f.sym.canon i _ c e1 hc
  have c2 := f.sym.canon m _ name e2 hm
  have hr : realNames t = realNames s := by unfold realNames; rw [e3]
  simp only at c1 c2
  rw [hr, c1] at c2
  exact (Except.ok.inj c2).symm

/-- The comparison of one function with its machine code. -/
theorem SharedFacts.local_step (f : SharedFacts demangle ord search p elf0 cs st0 stIr st g) (alike : p.NamesAlike)
    {stext : Nat} {text : List Nat} (hx : elf.text = some (stext, text)) {k : Nat} {e : Nat × Sym} {st1 st2 : Build}
    (hek : p.defined[k]? = some e) (inv : MachineInv stIr.g.nodes.length stIr st1)
    (h1 : machineStep search (p.target == .thumbv7m) (elfTags elf.symtab) stext text st1 e = .ok st2)
    (hl : ∀ (m : Nat) (name : Str), cs[m]? = some name →
      ∃ nd, st1.g.nodes[m]? = some nd ∧ p.LocalAfter search elf m k nd.loc) :
    MachineInv stIr.g.nodes.length stIr st2 ∧
    (∀ (m : Nat) (name : Str), cs[m]? = some name →
      ∃ nd, st2.g.nodes[m]? = some nd ∧ p.LocalAfter search elf m (k + 1) nd.loc) ∧
    ∃ m l, p.LastOf k m ∧ p.LocalAfter search elf m (k + 1) l := by
  obtain ⟨inv1, c, i, r, hno, han, hu⟩ := machineStep_spec inv f.ir.lt h1
  obtain ⟨hc, hla⟩ := f.nodeOf alike hek hno
  have all : ∀ (m : Nat) (name : Str), cs[m]? = some name →
      ∃ nd, st2.g.nodes[m]? = some nd ∧ p.LocalAfter search elf m (k + 1) nd.loc := by
    intro m name hm
    obtain ⟨nd, hnd, hloc⟩ := hl m name hm
    by_cases hi : i = m
    · subst hi
      obtain ⟨nd0, nd', h2, h3, h4⟩ := hu.loc
      rw [hnd] at h2
      cases h2
      refine ⟨nd', h3, ?_⟩
      obtain ⟨known, hkn⟩ := local_figure nd.loc
      rw [hkn] at h4 hloc
      obtain rfl := f.last_name hla hc hm
      have h5 := (C50_override_policy known r.stack r.modifiesSp _ _ _).mp h4
      rw [inv.asmFns, f.asm_iff alike hm, isOutlined_iff] at h5
      exact .code hloc hla (decoded_of hek hx han) (f.principal.mpr hm) h5
    · refine ⟨nd, ?_, .other hloc fun hl => hi (hla.unique hl)⟩
      rw [hu.other m (fun h => hi h.symm) (List.getElem?_eq_some_iff.mp hnd).1]
      exact hnd
  refine ⟨inv1, all, ?_⟩
  have hi : i < cs.length := by rw [f.sym.len]; exact hla.lt
  obtain ⟨nd, _, h3⟩ := all i _ (List.getElem?_eq_getElem hi)
  exact ⟨i, nd.loc, hla, h3⟩

/-- The local usages before the comparison. -/
theorem SharedFacts.local_start (f : SharedFacts demangle ord search p elf0 cs st0 stIr st g) {m : Nat} {name : Str}
    (hm : cs[m]? = some name) : ∃ nd, stIr.g.nodes[m]? = some nd ∧ p.LocalAfter search elf m 0 nd.loc := by
  have hlt : m < p.defined.length := by rw [← f.sym.len]; exact (List.getElem?_eq_some_iff.mp hm).1
  have he := List.getElem?_eq_getElem hlt
  have hcan := f.sym.canon m _ _ he hm
  refine ⟨mkNode name (mget name p.stackSizes) false, ?_, ?_⟩
  · obtain ⟨ext, hex⟩ := f.ir.nodes
    have h0 : (cs.map (fun c => mkNode c (mget c p.stackSizes) false))[m]? =
        some (mkNode name (mget name p.stackSizes) false) := by
      rw [List.getElem?_map, hm]
      rfl
    rw [hex, f.sym.nodes, List.getElem?_append_left (List.getElem?_eq_some_iff.mp h0).1, h0]
  · have hloc : (mkNode name (mget name p.stackSizes) false).loc = figureLocal (mget name p.stackSizes) := by
      unfold mkNode figureLocal
      cases mget name p.stackSizes <;> rfl
    rw [hloc]
    exact .compiler ((frameOpt_iff he hcan _).mpr rfl)

/-- A run of the loop compares every function. -/
theorem SharedFacts.loop_fits (f : SharedFacts demangle ord search p elf0 cs st0 stIr st g) (alike : p.NamesAlike)
    {stext : Nat} {text : List Nat} (hx : elf.text = some (stext, text)) (es : List (Nat × Sym)) :
    ∀ (k : Nat) {st1 st2 : Build}, p.defined.drop k = es → MachineInv stIr.g.nodes.length stIr st1 →
    (∀ (m : Nat) (name : Str), cs[m]? = some name →
      ∃ nd, st1.g.nodes[m]? = some nd ∧ p.LocalAfter search elf m k nd.loc) →
    machineLoop search (p.target == .thumbv7m) (elfTags elf.symtab) stext text st1 es = .ok st2 →
    ∀ j, k ≤ j → j < p.defined.length → ∃ m l, p.LastOf j m ∧ p.LocalAfter search elf m (j + 1) l := by
  induction es with
  | nil =>
    intro k st1 st2 hd _ _ _ j h1 h2
    rw [List.drop_eq_nil_iff] at hd
    omega
  | cons e es ih =>
    intro k st1 st2 hd inv hl h j h1 h2
    unfold machineLoop at h
    split at h
    · simp at h
    rename_i st1' hs
    have hek : p.defined[k]? = some e := by
      have := congrArg List.head? hd
      simpa using this
    obtain ⟨inv1, hl1, hk⟩ := f.local_step alike hx hek inv hs hl
    by_cases hj : j = k
    · subst hj
      exact hk
    · refine ih (k + 1) ?_ inv1 hl1 h j (by omega) h2
      have := congrArg List.tail hd
      simpa using this

/-- If every function fits, the loop runs. -/
theorem SharedFacts.fits_loop (f : SharedFacts demangle ord search p elf0 cs st0 stIr st g) (alike : p.NamesAlike)
    (ht : p.target.isThumb = true) {stext : Nat} {text : List Nat} (hx : elf.text = some (stext, text))
    (hok : ∀ i, i < p.defined.length → p.CodeFits search elf i) (es : List (Nat × Sym)) :
    ∀ (k : Nat) {st1 : Build}, p.defined.drop k = es → MachineInv stIr.g.nodes.length stIr st1 →
    (∀ (m : Nat) (name : Str), cs[m]? = some name →
      ∃ nd, st1.g.nodes[m]? = some nd ∧ p.LocalAfter search elf m k nd.loc) →
    ∃ st2, machineLoop search (p.target == .thumbv7m) (elfTags elf.symtab) stext text st1 es = .ok st2 := by
  induction es with
  | nil => exact fun _ _ _ _ _ => ⟨_, rfl⟩
  | cons e es ih =>
    intro k st1 hd inv hl
    have hek : p.defined[k]? = some e := by
      have := congrArg List.head? hd
      simpa using this
    have hk := (List.getElem?_eq_some_iff.mp hek).1
    obtain ⟨⟨a, s, first, rest, h1, h2, h3⟩, address, size, r, h4, h5, m, l, h6, h7⟩ := hok k hk
    rw [hek] at h1
    cases h1
    obtain ⟨k1, rfl, rfl⟩ := analyzed_of hek hx h4
    obtain ⟨c, hc, _⟩ := f.canon_at hek
    have hal := f.alias alike hek hc ⟨by rw [h2]; exact List.mem_cons_self, h3⟩
    obtain ⟨m', hm', hla⟩ := f.lookup alike hek hc
    obtain rfl := h6.unique hla
    have hno : NodeOf stIr (a, s) c m := ⟨first, rest, h2, by rw [f.ir.aliases]; exact hal, f.ir.indices _ _ hm'⟩
    obtain ⟨name, hm⟩ : ∃ name, cs[m]? = some name :=
      ⟨_, List.getElem?_eq_getElem (by rw [f.sym.len]; exact h6.lt)⟩
    obtain rfl := f.last_name h6 hc hm
    obtain ⟨nd, hnd, hloc⟩ := hl m name hm
    have hpol : ∃ known, nd.loc = figureLocal known ∧
        LocalPolicy (r.modifiesSp = true) (∃ x, p.Contains m (.asm x)) (OutlinedName name) known r.stack l := by
      cases h7 with
      | @code _ known _ _ _ _ _ b1 b2 b3 b4 b5 =>
        refine ⟨known, f.localAfter_unique ht h6.lt k _ _ hloc b1, ?_⟩
        obtain rfl := (codeOf_iff.mpr ⟨ht, h4⟩).unique (codeOf_iff.mpr ⟨ht, b3⟩)
        have e1 := f.principal.mp b4
        rw [hm] at e1
        cases e1
        exact b5
      | other b1 b2 => exact absurd h6 b2
    obtain ⟨known, hkn, hpol⟩ := hpol
    have hov := (C50_override_policy known r.stack r.modifiesSp (stIr.asmFns.contains name) (isOutlined name) l).mpr
      (by rw [f.asm_iff alike hm, isOutlined_iff]; exact hpol)
    obtain ⟨st1', hs⟩ := machineStep_of (hno.inv inv) k1 hnd
      (by rw [inv.asmFns, hkn]; exact hov)
      (fun addr ha => by
        obtain ⟨j, hj⟩ := (f.resolves_iff addr).mpr (h5 addr (mem_calledAddrs.mp ha))
        exact ⟨j, (inv.resolves addr j).mpr hj⟩)
    obtain ⟨inv1, hl1, _⟩ := f.local_step alike hx hek inv hs hl
    obtain ⟨st2, hs2⟩ := ih (k + 1) (by
      have := congrArg List.tail hd
      simpa using this) inv1 hl1
    exact ⟨st2, by unfold machineLoop; rw [hs]; exact hs2⟩

/-- Whenever the pass over the LLVM-IR ends, so does a run that does not look at the machine code. -/
theorem irGraph_shared (ord : HashOrder) (search : TagSearch) (symtab : List (Nat × Str))
    (h : irGraph demangle p = .ok stIr) :
    ∃ cs st0 st g, SharedFacts demangle ord search p ⟨symtab, none⟩ cs st0 stIr st g := by
  have hrun : callGraph demangle ord search p ⟨symtab, none⟩ = .ok (stIr, addIndirects ord stIr) := by
    unfold callGraph machinePass
    simp only [h]
    cases p.target.isThumb <;> rfl
  obtain ⟨cs, st0, stIr', f⟩ := callGraph_shared hrun
  have : irGraph demangle p = .ok stIr' := by
    unfold irGraph
    simp only [f.symOk]
    exact f.definesOk
  rw [h] at this
  cases this
  exact ⟨cs, st0, _, _, f⟩

end machine

/-! ### Other orders of the hash maps -/

/-- Every node can be found under its name. -/
def Keyed (st : Build) : Prop := ∀ nd ∈ st.g.nodes, HasKey st nd.name

theorem Keyed.of_eq {st st' : Build} (h : Keyed st) (h1 : st'.g.nodes = st.g.nodes) (h2 : st'.indices = st.indices) :
    Keyed st' := by
  unfold Keyed HasKey at h ⊢
  rw [h1, h2]
  exact h

theorem Keyed.getOrAdd {st : Build} (h : Keyed st) (n : Str) : Keyed (st.getOrAddNode n).1 := by
  intro nd hnd
  obtain ⟨k, hk⟩ := List.getElem?_of_mem hnd
  refine ((HasKey.getOrAdd st n nd.name).2).mpr ?_
  rcases getOrAdd_node st n hk with h1 | h1
  · exact .inl (h nd (List.mem_of_getElem? h1))
  · exact .inr h1

theorem Keyed.stmt {p : Program} {c : Str} {i : Nat} {st st' : Build} {s : Stmt} (hk : Keyed st)
    (h : stmtStep p c i st s = .ok st') : Keyed st' := by
  unfold stmtStep at h
  split at h
  · cases h
    exact hk
  · cases h
  · rename_i sym
    have he := Except.ok.inj h
    subst he
    exact (hk.getOrAdd sym).of_eq rfl rfl
  · rename_i func
    split at h
    · cases h
      exact hk
    · rename_i rs _
      cases h
      obtain ⟨h1, h2, _⟩ := callRoutines_frame i rs st
      exact hk.of_eq h1 h2
    · cases h
    · unfold plainCall at h
      split at h
      · cases h
        exact hk
      · split at h
        · split at h
          · rename_i callee _
            cases h
            obtain ⟨h1, h2, _⟩ := call_frame st i callee
            exact hk.of_eq h1 h2
          · cases h
        · split at h
          · have he := Except.ok.inj h
            change (st.getOrAddNode func).1.call i (st.getOrAddNode func).2 = st' at he
            subst he
            obtain ⟨h1, h2, _⟩ := call_frame (st.getOrAddNode func).1 i (st.getOrAddNode func).2
            exact (hk.getOrAdd func).of_eq h1 h2
          · cases h
  all_goals
    cases h
    exact hk

theorem Keyed.stmts {p : Program} {c : Str} {i : Nat} (ss : List Stmt) : ∀ {st st' : Build}, Keyed st →
    stmtsPass p c i st ss = .ok st' → Keyed st' := by
  induction ss with
  | nil =>
    intro st st' hk h
    cases h
    exact hk
  | cons s ss ih =>
    intro st st' hk h
    simp only [stmtsPass] at h
    split at h
    · cases h
    · rename_i h1
      exact ih (hk.stmt h1) h

theorem Keyed.defines {p : Program} (ds : List Define) : ∀ {st st' : Build}, Keyed st →
    definePass p st ds = .ok st' → Keyed st' := by
  induction ds with
  | nil =>
    intro st st' hk h
    cases h
    exact hk
  | cons d ds ih =>
    intro st st' hk h
    simp only [definePass] at h
    split at h
    · cases h
    · rename_i st1 h1
      refine ih ?_ h
      unfold defineStep at h1
      split at h1
      · cases h1
        exact hk
      · split at h1
        · cases h1
        · refine Keyed.stmts d.stmts ?_ h1
          exact hk.of_eq rfl rfl

theorem localAfter_congr {p p' : Program} {search : TagSearch} {elf : Elf} {m k : Nat} {l : Local}
    (target : p'.target = p.target) (defined : p'.defined = p.defined)
    (principal : ∀ n, p'.Principal m n ↔ p.Principal m n) (frame : ∀ k, p'.Frame m k ↔ p.Frame m k)
    (body : ∀ s, p'.Contains m s ↔ p.Contains m s) (h : p'.LocalAfter search elf m k l) :
    p.LocalAfter search elf m k l := by
  have hlast : ∀ {i}, p'.LastOf i m ↔ p.LastOf i m := by
    intro i
    unfold Program.LastOf
    rw [defined]
  induction h with
  | @compiler o h1 =>
    refine .compiler ?_
    cases o with
    | none => exact fun k hk => h1 k ((frame k).mpr hk)
    | some k => exact (frame k).mp h1
  | code h1 h2 h3 h4 h5 ih =>
    unfold Program.Decoded at h3
    rw [defined, target] at h3
    exact .code ih (hlast.mp h2) h3 ((principal _).mp h4) (by simpa only [body] using h5)
  | other h1 h2 ih => exact .other ih (fun hk => h2 (hlast.mpr hk))

section orders

variable {demangle : Str → Str} {ord ord' : HashOrder} {search : TagSearch} {p p' : Program} {elf : Elf}
  {cs cs' : List Str} {st0 stIr st st0' stIr' st' : Build} {g g' : Graph}

theorem SharedFacts.keyed (f : SharedFacts demangle ord search p elf cs st0 stIr st g) : Keyed stIr := by
  refine Keyed.defines p.defines ?_ f.definesOk
  intro nd hnd
  rw [f.sym.nodes] at hnd
  obtain ⟨c, hc, rfl⟩ := List.mem_map.mp hnd
  exact f.sym.indices_ne c hc

/-- The names of all nodes. -/
theorem SharedFacts.node_names (f : SharedFacts demangle ord search p elf cs st0 stIr st g) (alike : p.NamesAlike)
    (defs : p.DefinesOnce) (decls : p.DeclaresOnce) {nd : Node} (h : nd ∈ g.nodes) :
    p.Shown nd.name ∨ nd.name = c!"?" ∨
      ∃ i sig, p.MayCallType i sig ∧ nd.name = (labelSig (voidOf ord st) sig).show ++ c!"*" := by
  obtain ⟨k, hk⟩ := List.getElem?_of_mem h
  obtain ⟨ns, hns⟩ := f.out.nodes
  by_cases h1 : k < stIr.g.nodes.length
  · left
    obtain ⟨nd', k1, k2, _⟩ := f.node (List.getElem?_eq_getElem h1)
    rw [hk] at k1
    cases k1
    rw [k2, ← f.shown_iff, f.machine.indices]
    obtain ⟨j, hj⟩ := Option.ne_none_iff_exists'.mp (f.keyed _ (List.getElem_mem h1))
    exact List.mem_map.mpr ⟨_, mget_mem hj, rfl⟩
  · by_cases h2 : k < st.g.nodes.length
    · have h3 := f.machine.new k (by omega) h2
      rw [hns, List.getElem?_append_left h2, h3] at hk
      cases hk
      exact .inr (.inl rfl)
    · rcases f.out.new k (by omega) (List.getElem?_eq_some_iff.mp hk).1 with ⟨e, he, hc, hd⟩ | ⟨_, h3, _⟩
      · right; right
        rw [hd.node] at hk
        cases hk
        rw [(ord.isPerm _ _ _).mem_iff, f.machine.indirects] at he
        have := (EdgeStep.defines p.defines f.definesOk).called
          (fun e0 k1 k2 => by rw [(f.sym.fresh e0 k1).1] at k2; cases k2) e he hc
        obtain ⟨a, ha⟩ := List.exists_mem_of_ne_nil _ this
        obtain ⟨i, sig', k1, k2, k3⟩ := (f.callers_iff alike he a).mp ha
        exact ⟨i, e.1, ⟨(f.registered defs decls e.1).mp ⟨e.2, he⟩, sig', k2, k3⟩, rfl⟩
      · rw [h3] at hk
        cases hk
        exact .inr (.inl rfl)

/-- There are nodes for all these names, except the question mark. -/
theorem SharedFacts.names_node (f : SharedFacts demangle ord search p elf cs st0 stIr st g) (alike : p.NamesAlike)
    (defs : p.DefinesOnce) (decls : p.DeclaresOnce) {n : Str} (h : p.Shown n ∨
      ∃ i sig, p.MayCallType i sig ∧ n = (labelSig (voidOf ord st) sig).show ++ c!"*") :
    ∃ nd ∈ g.nodes, nd.name = n := by
  rcases h with h | ⟨i, sig, h, rfl⟩
  · obtain ⟨e, he, rfl⟩ := List.mem_map.mp ((f.shown_iff n).mpr h)
    have hne : mget e.1 st.indices ≠ none := fun hno => mget_none.mp hno e he rfl
    obtain ⟨k, hk⟩ := Option.ne_none_iff_exists'.mp hne
    obtain ⟨nd, h1, h2⟩ := f.index hk
    exact ⟨nd, List.mem_of_getElem? h1, h2⟩
  · obtain ⟨d, hd, hl, hs⟩ := h.2.choose_spec.1
    obtain ⟨a, s, he, hn⟩ := hl
    obtain ⟨c, hc, _⟩ := f.canon_at he
    obtain ⟨m, _, hla⟩ := f.lookup alike he hc
    obtain ⟨e, _, rfl, k, _, _, h5⟩ := f.fict alike defs decls hla h
    exact ⟨_, List.mem_of_getElem? h5.node, rfl⟩

theorem Program.Reordered.shown (same : p.Reordered p') (n : Str) : p'.Shown n ↔ p.Shown n := by
  unfold Program.Shown Program.External Program.NotLive
  simp only [same.principal, same.contains, same.liveAt]

theorem Program.Reordered.namesAlike (same : p.Reordered p') (alike : p.NamesAlike) : p'.NamesAlike := by
  unfold Program.NamesAlike
  rw [same.defined]
  exact alike

theorem Program.Reordered.addressed (same : p.Reordered p') (h : p.Addressed) : p'.Addressed := by
  unfold Program.Addressed
  rw [same.defined]
  exact h

/-- Both runs show the same names. -/
theorem SharedFacts.same_names (same : p.Reordered p') (alike : p.NamesAlike) (defs : p.DefinesOnce)
    (decls : p.DeclaresOnce) (one : p.OneVoid) (f : SharedFacts demangle ord search p elf cs st0 stIr st g)
    (f' : SharedFacts demangle ord' search p' elf cs' st0' stIr' st' g') {nd' : Node} (hn : nd' ∈ g'.nodes) :
    nd'.name = c!"?" ∨ ∃ nd ∈ g.nodes, nd.name = nd'.name := by
  have hv := chosen_unique one (f.chosen defs decls)
    (same.chosen (f'.chosen (same.definesOnce defs) (same.declaresOnce decls)))
  rcases f'.node_names (same.namesAlike alike) (same.definesOnce defs) (same.declaresOnce decls) hn with h | h | h
  · exact .inr (f.names_node alike defs decls (.inl ((same.shown _).mp h)))
  · exact .inl h
  · obtain ⟨i, sig, h1, h2⟩ := h
    rw [same.mayCallType] at h1
    rw [← hv] at h2
    exact .inr (f.names_node alike defs decls (.inr ⟨i, sig, h1, h2⟩))

/-- The calls, unknown calls and local usages of the live functions are the same. -/
theorem SharedFacts.same (same : p.Reordered p') (alike : p.NamesAlike) (defs : p.DefinesOnce)
    (decls : p.DeclaresOnce) (addressed : p.Addressed) (safe : p.OrderSafe) (one : p.OneVoid)
    (f : SharedFacts demangle ord search p elf cs st0 stIr st g)
    (f' : SharedFacts demangle ord' search p' elf cs' st0' stIr' st' g') :
    LiveSame p.defined.length g.Calls g.locOf g'.Calls g'.locOf := by
  have alike' := same.namesAlike alike
  have defs' := same.definesOnce defs
  have decls' := same.declaresOnce decls
  have safe' := same.orderSafe safe
  have hlen : p'.defined.length = p.defined.length := by rw [same.defined]
  have hv := chosen_unique one (f.chosen defs decls) (same.chosen (f'.chosen defs' decls'))
  refine ⟨f.liveGraph alike safe, hlen ▸ f'.liveGraph alike' safe', ?_, ?_, ?_⟩
  · intro a b ha hb
    have h1 := congrFun (congrFun (f.mayCall_iff alike defs decls addressed safe) a) b
    have h2 := congrFun (congrFun (f'.mayCall_iff alike' defs' decls' (same.addressed addressed) safe') a) b
    rw [← hv, same.mayCallShared, ← h1, hlen] at h2
    unfold LiveHop at h2
    simp only [ha, hb, true_and] at h2
    exact (iff_of_eq h2).symm
  · intro a ha
    have h1 := f.mayLeave_iff alike defs decls safe a
    have h2 := f'.mayLeave_iff alike' defs' decls' safe' a
    rw [same.mayLeaveShared, ← h1, hlen] at h2
    simp only [ha, true_and] at h2
    exact h2.symm
  · intro a ha
    refine ((f.localShared_iff alike ha _).mp ?_).symm
    exact localShared_congr same.target same.defined (same.principal a) (fun _ => same.frame) (same.contains a)
      (f'.localShared alike' (by rw [hlen]; exact ha))

end orders

end CallStack
