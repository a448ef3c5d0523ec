import Verif.Proof.Change
import Verif.Proof.HashOrder
import Verif.Spec.SharedFigures

/-!
Lemmas about two programs in which functions may have the same names: the same program with its hash maps in other
orders, and two versions of a program.
-/

namespace CallStack

variable {p p' : Program}

/-! ### Other orders of the hash maps -/

theorem Program.Reordered.symm (h : p.Reordered p') : p'.Reordered p :=
  ⟨h.target.symm, h.defined.symm, h.undefined.symm, h.stackSizes.symm, h.defines.symm, h.declares.symm⟩

theorem Program.Reordered.definesOnce (h : p.Reordered p') (once : p.DefinesOnce) : p'.DefinesOnce := by
  unfold Program.DefinesOnce
  exact (h.defines.map _).nodup_iff.mpr once

theorem Program.Reordered.declaresOnce (h : p.Reordered p') (once : p.DeclaresOnce) : p'.DeclaresOnce := by
  unfold Program.DeclaresOnce
  exact (h.declares.map _).nodup_iff.mpr once

theorem Program.Reordered.lastOf (h : p.Reordered p') {i m : Nat} : p'.LastOf i m ↔ p.LastOf i m := by
  unfold Program.LastOf
  rw [h.defined]

theorem Program.Reordered.frame (h : p.Reordered p') {i k : Nat} : p'.Frame i k ↔ p.Frame i k := by
  unfold Program.Frame Program.Reported
  rw [h.defined, h.stackSizes]

theorem Program.Reordered.frameOpt (h : p.Reordered p') {i : Nat} {o : Option Nat} :
    p'.FrameOpt i o ↔ p.FrameOpt i o := by
  cases o <;> simp only [Program.FrameOpt, h.frame]

theorem Program.Reordered.decoded (h : p.Reordered p') {search : TagSearch} {elf : Elf} {i address size : Nat}
    {r : ThumbState} : p'.Decoded search elf i address size r ↔ p.Decoded search elf i address size r := by
  unfold Program.Decoded
  rw [h.defined, h.target]

theorem Program.Reordered.firstDefined (h : p.Reordered p') {j : Nat} {sig : FnSig} :
    p'.FirstDefined j sig ↔ p.FirstDefined j sig := by
  unfold Program.FirstDefined
  simp only [h.defined, h.defines.mem_iff]

theorem Program.Reordered.firstDeclaredAs (h : p.Reordered p') {j : Nat} {sig : FnSig} :
    p'.FirstDeclared j sig ↔ p.FirstDeclared j sig := by
  unfold Program.FirstDeclared
  simp only [h.defined, h.declares.mem_iff]

theorem Program.Reordered.takenAs (h : p.Reordered p') {j : Nat} {sig : FnSig} :
    p'.TakenAs j sig ↔ p.TakenAs j sig := by
  unfold Program.TakenAs
  simp only [h.firstDefined, h.firstDeclaredAs]

theorem Program.Reordered.receiver (h : p.Reordered p') {v : Str} : p'.Receiver v ↔ p.Receiver v := by
  unfold Program.Receiver
  simp only [h.takenAs]

theorem Program.Reordered.chosen (h : p.Reordered p') {c : Option Str} (hc : p'.Chosen c) : p.Chosen c := by
  cases hc with
  | known h1 => exact .known (h.receiver.mp h1)
  | core h1 h2 h3 => exact .core (fun k => h1 (h.receiver.mpr k)) (h.receiver.mp h2) h3
  | only h1 h2 h3 h4 =>
    exact .only (fun k => h1 (h.receiver.mpr k)) (fun w hw => h2 w (h.receiver.mpr hw)) (h.receiver.mp h3)
      (fun w hw => h4 w (h.receiver.mpr hw))
  | none h1 h2 h3 =>
    refine .none (fun k => h1 (h.receiver.mpr k)) (fun w hw => h2 w (h.receiver.mpr hw)) fun v hv => ?_
    obtain ⟨w, hw, hne⟩ := h3 v (h.receiver.mpr hv)
    exact ⟨w, h.receiver.mp hw, hne⟩

theorem Program.Reordered.stmtCalls (h : p.Reordered p') {s : Stmt} {j : Nat} :
    p'.StmtCalls s j ↔ p.StmtCalls s j := by
  have key : ∀ {p p' : Program}, p.Reordered p' → p.StmtCalls s j → p'.StmtCalls s j := by
    intro p p' h hs
    cases hs with
    | bitcast h1 => exact .bitcast ((h.principal _ _).mpr h1)
    | direct h1 h2 h3 => exact .direct h1 ((h.liveAt _ _).mpr h2) (fun e => (h.principal _ _).mpr (h3 e))
    | copy h1 h2 h3 h4 => exact .copy (by rw [h.target]; exact h1) h2 h3 ((h.principal _ _).mpr h4)
    | fill h1 h2 h3 h4 => exact .fill (by rw [h.target]; exact h1) h2 h3 ((h.principal _ _).mpr h4)
  exact ⟨key h.symm, key h⟩

theorem Program.Reordered.stmtLeaves (h : p.Reordered p') {s : Stmt} : p'.StmtLeaves s ↔ p.StmtLeaves s := by
  have key : ∀ {p p' : Program}, p.Reordered p' → p.StmtLeaves s → p'.StmtLeaves s := by
    intro p p' h hs
    cases hs with
    | bitcast h1 => exact .bitcast (fun j hj => h1 j ((h.principal _ _).mp hj))
    | direct h1 h2 h3 => exact .direct h1 (fun j hj => h2 j ((h.liveAt _ _).mp hj)) h3
  exact ⟨key h.symm, key h⟩

theorem Program.Reordered.mayCallType (h : p.Reordered p') {i : Nat} {sig : FnSig} :
    p'.MayCallType i sig ↔ p.MayCallType i sig := by
  unfold Program.MayCallType
  simp only [h.takenAs, h.contains]

theorem Program.Reordered.mayCallShared (h : p.Reordered p') (search : TagSearch) (elf : Elf) (c : Option Str) :
    p'.MayCallShared search elf c = p.MayCallShared search elf c := by
  funext a b
  unfold Program.MayCallShared Program.CodeCalls Program.StartsAt Program.Candidate
  simp only [h.lastOf, h.contains, h.stmtCalls, h.decoded, h.target, h.defined, h.mayCallType, h.takenAs,
    h.firstDefined]

theorem Program.Reordered.mayLeaveShared (h : p.Reordered p') {search : TagSearch} {elf : Elf} {a : Nat} :
    p'.MayLeaveShared search elf a ↔ p.MayLeaveShared search elf a := by
  unfold Program.MayLeaveShared Program.MayLeave Program.CodeLeaves Program.NoIr Program.Untyped
    Program.DefinedSig Program.DeclaredSig
  simp only [h.lastOf, h.contains, h.stmtLeaves, h.decoded, h.target, h.mayCallType, h.liveAt, h.principal,
    h.defines.mem_iff, h.declares.mem_iff]

/-! ### Two versions of a program -/

theorem Program.SameShape.lastOf (h : p.SameShape p') {i m : Nat} : p'.LastOf i m ↔ p.LastOf i m := by
  unfold Program.LastOf
  rw [h.defined]

theorem Program.SameShape.namesAlike (h : p.SameShape p') (alike : p.NamesAlike) : p'.NamesAlike := by
  unfold Program.NamesAlike
  rw [h.defined]
  exact alike

theorem Program.SameShape.mayCallShared (h : p.SameShape p') {search : TagSearch} {elf : Elf} {c : Option Str}
    {a : Nat} (hb : ∀ i, p.LastOf i a → p.SameBody p' i) (b : Nat) :
    p'.MayCallShared search elf c a b ↔ p.MayCallShared search elf c a b := by
  have hsym := h.symm
  unfold Program.MayCallShared
  simp only [h.lastOf, h.codeCalls, h.candidate]
  refine exists_congr fun i => and_congr_right fun hi => ?_
  simp only [h.mayCallType (hb i hi), (hb i hi) _]
  refine or_congr ?_ Iff.rfl
  constructor
  · rintro ⟨s, j, h1, h2, h3⟩; exact ⟨s, j, h1, hsym.stmtCalls h2, h3⟩
  · rintro ⟨s, j, h1, h2, h3⟩; exact ⟨s, j, h1, h.stmtCalls h2, h3⟩

theorem Program.SameShape.mayLeaveShared (h : p.SameShape p') {search : TagSearch} {elf : Elf} {a : Nat}
    (hb : ∀ i, p.LastOf i a → p.SameBody p' i) :
    p'.MayLeaveShared search elf a ↔ p.MayLeaveShared search elf a := by
  unfold Program.MayLeaveShared
  simp only [h.lastOf]
  exact exists_congr fun i => and_congr_right fun hi => h.mayLeave (hb i hi)

/-- Functions that share a node have the same statements, which the LLVM-IR has under their names. -/
theorem Program.LastOf.contains {i m : Nat} (h : p.LastOf i m) {s : Stmt} : p.Contains i s ↔ p.Contains m s := by
  obtain ⟨a, x, b, y, h1, h2, h3, _⟩ := h
  have key : ∀ n, p.LiveAt n i ↔ p.LiveAt n m := by
    intro n
    unfold Program.LiveAt Sym.Named
    rw [h1, h2]
    constructor
    · rintro ⟨_, _, e, h4⟩
      cases e
      exact ⟨_, _, rfl, by rw [h3]; exact h4⟩
    · rintro ⟨_, _, e, h4⟩
      cases e
      exact ⟨_, _, rfl, by rw [← h3]; exact h4⟩
  unfold Program.Contains
  simp only [key]

/-! ### Local usage -/

/-- What the local usage at a node depends on. -/
theorem localShared_congr {search : TagSearch} {elf : Elf} {m : Nat} {l : Local} (target : p'.target = p.target)
    (defined : p'.defined = p.defined) (principal : ∀ n, p'.Principal m n ↔ p.Principal m n)
    (frame : ∀ k, p'.Frame m k ↔ p.Frame m k) (body : ∀ s, p'.Contains m s ↔ p.Contains m s)
    (h : p'.LocalShared search elf m l) : p.LocalShared search elf m l := by
  have hopt : ∀ {o}, p'.FrameOpt m o → p.FrameOpt m o := by
    intro o ho
    cases o with
    | none => exact fun k hk => ho k ((frame k).mpr hk)
    | some k => exact (frame k).mp ho
  have hlast : ∀ {i}, p'.LastOf i m ↔ p.LastOf i m := by
    intro i
    unfold Program.LastOf
    rw [defined]
  have hafter : ∀ {k l}, p'.LocalAfter search elf m k l → p.LocalAfter search elf m k l := by
    intro k l ha
    induction ha with
    | compiler h1 => exact .compiler (hopt h1)
    | code h1 h2 h3 h4 h5 ih =>
      unfold Program.Decoded at h3
      rw [defined, target] at h3
      exact .code ih (hlast.mp h2) h3 ((principal _).mp h4) (by simpa only [body] using h5)
    | other h1 h2 ih => exact .other ih (fun hk => h2 (hlast.mpr hk))
  cases h with
  | code h1 h2 h3 =>
    rw [defined] at h3
    exact .code (by rw [← target]; exact h1) h2 (hafter h3)
  | compiler h1 h2 => exact .compiler (by rw [← target]; exact h1) (hopt h2)

/-! ### Maxima -/

/-- Maxima of two runs are equal if everything that can be reached is the same. -/
theorem maxima_congr {E E' : Nat → Nat → Prop} {leaves leaves' : Nat → Prop} {loc loc' : Nat → Local} {i : Nat}
    {o o' : Option Max} (shown : (∃ m, o' = some m) ↔ ∃ m, o = some m)
    (ho : ∀ m, o = some m → Heaviest E loc i m.bytes ∧ (m.IsExact ↔ ∀ u, Reach E i u →
      (loc u).Known ∧ ¬ leaves u ∧ (Recursive E u → (loc u).bytes = 0)))
    (ho' : ∀ m, o' = some m → Heaviest E' loc' i m.bytes ∧ (m.IsExact ↔ ∀ u, Reach E' i u →
      (loc' u).Known ∧ ¬ leaves' u ∧ (Recursive E' u → (loc' u).bytes = 0)))
    (hE : ∀ u, Reach E i u → ∀ w, E' u w ↔ E u w) (hl : ∀ u, Reach E i u → loc' u = loc u)
    (hL : ∀ u, Reach E i u → (leaves' u ↔ leaves u)) : o' = o := by
  cases hm : o with
  | none =>
    cases hm' : o' with
    | none => rfl
    | some m' =>
      obtain ⟨m, h1⟩ := shown.mp ⟨m', hm'⟩
      rw [hm] at h1
      cases h1
  | some m =>
    obtain ⟨m', hm'⟩ := shown.mpr ⟨m, hm⟩
    rw [hm']
    obtain ⟨⟨⟨us, u1, u2⟩, u3⟩, u4⟩ := ho m hm
    obtain ⟨⟨⟨us', v1, v2⟩, v3⟩, v4⟩ := ho' m' hm'
    have hw : ∀ {us}, GroupChain E i us → weight loc' us = weight loc us :=
      fun hus => weight_congr fun u hu => hl u (hus.1 u hu)
    have v1' := (groupChain_congr hE).mp v1
    have k1 := u3 us' v1'
    have k2 := v3 us ((groupChain_congr hE).mpr u1)
    rw [hw v1'] at v2
    rw [hw u1] at k2
    have hb : m'.bytes = m.bytes := by omega
    have hx : m'.IsExact ↔ m.IsExact := by
      rw [u4, v4]
      refine forall_congr' fun u => ?_
      rw [reach_congr hE (.refl i)]
      refine imp_congr_right fun hu => ?_
      rw [hL u hu, hl u hu]
      have : Recursive E' u ↔ Recursive E u := by
        unfold Recursive
        refine exists_congr fun w => ?_
        rw [hE u hu]
        refine and_congr_right fun h1 => ?_
        exact reach_congr hE (hu.trans (.step h1 (.refl w))) u
      rw [this]
    cases m <;> cases m' <;> simp_all [Max.bytes, Max.IsExact]

end CallStack
