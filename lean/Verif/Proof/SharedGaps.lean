import Verif.Proof.SharedLog
import Verif.Proof.SharedAbort

/-!
Which messages a run logs, if several functions may have the same names.
-/

namespace CallStack

section run

variable {demangle : Str → Str} {ord : HashOrder} {search : TagSearch} {p : Program} {elf : Elf}
  {cs : List Str} {st0 stIr st : Build} {g : Graph}

/-- The message `m` is logged when the machine code of the `i`-th live function is looked at. -/
def StepMsg (search : TagSearch) (p : Program) (elf : Elf) (cs : List Str) (stIr : Build) (i : Nat) (m : LogMsg) :
    Prop :=
  ∃ c n address size r l l', cs[i]? = some c ∧ p.LastOf i n ∧ p.Decoded search elf i address size r ∧
    p.LocalAfter search elf n i l ∧ p.LocalAfter search elf n (i + 1) l' ∧
    (m ∈ overrideLog c l r.stack r.modifiesSp (stIr.asmFns.contains c) (isOutlined c) ∨
      (m = .noUsage c ∧ l' = .unknown) ∨ (m = .untypedCall c ∧ c ∉ stIr.defined ∧ r.indirect = true))

/-- What is logged about one function. -/
theorem SharedFacts.step_log (f : SharedFacts demangle ord search p elf cs st0 stIr st g) (alike : p.NamesAlike)
    (ht : p.target.isThumb = true) {stext : Nat} {text : List Nat} (hx : elf.text = some (stext, text)) {k : Nat}
    {e : Nat × Sym} {st1 st2 : Build}
    (hek : p.defined[k]? = some e) (inv : MachineInv stIr.g.nodes.length stIr st1)
    (h1 : machineStep search (p.target == .thumbv7m) (elfTags elf.symtab) stext text st1 e = .ok st2)
    (hl : ∀ (m : Nat) (name : Str), cs[m]? = some name →
      ∃ nd, st1.g.nodes[m]? = some nd ∧ p.LocalAfter search elf m k nd.loc) (m : LogMsg) :
    m ∈ machineStepLog search (p.target == .thumbv7m) (elfTags elf.symtab) stext text st1 e ↔
      StepMsg search p elf cs stIr k m := by
  obtain ⟨_, hl2, _⟩ := f.local_step alike hx hek inv h1 hl
  obtain ⟨inv1, c, i, r, hno, han, hu⟩ := machineStep_spec inv f.ir.lt h1
  obtain ⟨hc, hla⟩ := f.nodeOf alike hek hno
  have hi : i < cs.length := by rw [f.sym.len]; exact hla.lt
  obtain ⟨nd, hnd, hloc⟩ := hl i _ (List.getElem?_eq_getElem hi)
  obtain ⟨nd0, nd', h2, h3, h4⟩ := hu.loc
  rw [hnd] at h2
  cases h2
  obtain ⟨nd'', h5, hloc'⟩ := hl2 i _ (List.getElem?_eq_getElem hi)
  rw [h3] at h5
  cases h5
  have hd := decoded_of hek hx han
  have key : m ∈ machineStepLog search (p.target == .thumbv7m) (elfTags elf.symtab) stext text st1 e ↔
      (m ∈ overrideLog c nd.loc r.stack r.modifiesSp (stIr.asmFns.contains c) (isOutlined c) ∨
      (m = .noUsage c ∧ nd'.loc = .unknown) ∨ (m = .untypedCall c ∧ c ∉ stIr.defined ∧ r.indirect = true)) := by
    obtain ⟨bytes, b1, b2⟩ := han
    obtain ⟨first, rest, n1, n2, n3⟩ := hno
    unfold machineStepLog
    rw [n1]
    simp only
    rw [inv.aliases, n2]
    simp only
    have b1' : textSlice stext text (e.1 % 2 ^ 32)
      (symSize search (elfTags elf.symtab) (e.1 % 2 ^ 32) (e.2.size % 2 ^ 32)) = .ok bytes := b1
    rw [b1']
    simp only
    rw [b2]
    simp only
    unfold useThumbLog
    rw [inv.indices, n3]
    simp only
    have hl : st1.g.localAt i = .ok nd.loc := by
      unfold Graph.localAt
      rw [hnd]
    rw [hl]
    simp only
    rw [h4, inv.asmFns, inv.defined]
    simp only [List.mem_append]
    refine or_congr Iff.rfl (or_congr ?_ ?_)
    · split
      · rename_i hu
        simp [hu]
      · rename_i hu
        simp [hu]
    · split
      · rename_i hu
        simp only [Bool.and_eq_true, Bool.not_eq_true', List.contains_eq_mem, decide_eq_false_iff_not] at hu
        simp [hu]
      · rename_i hu
        simp only [Bool.and_eq_true, Bool.not_eq_true', List.contains_eq_mem, decide_eq_false_iff_not] at hu
        simp only [List.not_mem_nil, false_iff]
        rintro ⟨_, h7⟩
        exact hu h7
  rw [key]
  constructor
  · intro h
    exact ⟨c, i, _, _, r, _, _, hc, hla, hd, hloc, hloc', h⟩
  · rintro ⟨c', n, address, size, r', l, l', a1, a2, a3, a4, a5, a6⟩
    rw [hc] at a1
    cases a1
    obtain rfl := hla.unique a2
    obtain rfl := (codeOf_iff.mpr ⟨ht, hd⟩).unique (codeOf_iff.mpr ⟨ht, a3⟩)
    obtain rfl := f.localAfter_unique ht hla.lt k _ _ hloc a4
    obtain rfl := f.localAfter_unique ht hla.lt _ _ _ hloc' a5
    exact a6

/-- What is logged about all of them. -/
theorem SharedFacts.loop_log (f : SharedFacts demangle ord search p elf cs st0 stIr st g) (alike : p.NamesAlike)
    (ht : p.target.isThumb = true) {stext : Nat} {text : List Nat} (hx : elf.text = some (stext, text))
    (es : List (Nat × Sym)) :
    ∀ (k : Nat) {st1 st2 : Build}, p.defined.drop k = es → MachineInv stIr.g.nodes.length stIr st1 →
    (∀ (m : Nat) (name : Str), cs[m]? = some name →
      ∃ nd, st1.g.nodes[m]? = some nd ∧ p.LocalAfter search elf m k nd.loc) →
    machineLoop search (p.target == .thumbv7m) (elfTags elf.symtab) stext text st1 es = .ok st2 →
    ∀ m, m ∈ machineLoopLog search (p.target == .thumbv7m) (elfTags elf.symtab) stext text st1 es ↔
      ∃ i, k ≤ i ∧ StepMsg search p elf cs stIr i m := by
  induction es with
  | nil =>
    intro k st1 st2 hd _ _ _ m
    rw [List.drop_eq_nil_iff] at hd
    simp only [machineLoopLog, List.not_mem_nil, false_iff]
    rintro ⟨i, hi, c, _, _, _, _, _, _, hc, _⟩
    have := (List.getElem?_eq_some_iff.mp hc).1
    rw [f.sym.len] at this
    omega
  | cons e es ih =>
    intro k st1 st2 hd inv hl h m
    unfold machineLoop at h
    split at h
    · simp at h
    rename_i st1' hs
    have hek : p.defined[k]? = some e := by
      have := congrArg List.head? hd
      simpa using this
    obtain ⟨inv1, hl1, _⟩ := f.local_step alike hx hek inv hs hl
    have hd' : p.defined.drop (k + 1) = es := by
      have := congrArg List.tail hd
      simpa using this
    rw [machineLoopLog, hs, List.mem_append, f.step_log alike ht hx hek inv hs hl]
    simp only
    rw [ih (k + 1) hd' inv1 hl1 h]
    constructor
    · rintro (h1 | ⟨i, h1, h2⟩)
      · exact ⟨k, Nat.le_refl k, h1⟩
      · exact ⟨i, by omega, h2⟩
    · rintro ⟨i, h1, h2⟩
      by_cases hik : i = k
      · subst hik
        exact .inl h2
      · exact .inr ⟨i, by omega, h2⟩

/-- `RunFacts.mem_machineLog` if names may be shared. -/
theorem SharedFacts.mem_machineLog (f : SharedFacts demangle ord search p elf cs st0 stIr st g)
    (alike : p.NamesAlike) (m : LogMsg) : m ∈ machineLog search p elf stIr ↔
      (m = .noText ∧ p.target.isThumb = true ∧ elf.text = none) ∨
      (p.target.isThumb = true ∧ ∃ i, StepMsg search p elf cs stIr i m) := by
  unfold machineLog
  by_cases ht : p.target.isThumb = true
  · rw [if_pos ht]
    cases hx : elf.text with
    | none =>
      simp only [List.mem_singleton, ht, and_true, true_and]
      constructor
      · exact .inl
      · rintro (h1 | ⟨i, c, n, address, size, r, l, l', _, _, ⟨_, _, _, _, _, _, h3, _⟩, _⟩)
        · exact h1
        · rw [hx] at h3
          simp at h3
    | some t =>
      obtain ⟨stext, text⟩ := t
      obtain ⟨hloop, _⟩ := f.loop stext text ht hx
      simp only [reduceCtorEq, and_false, false_or, ht, true_and]
      rw [f.loop_log alike ht hx p.defined 0 rfl (MachineInv.init rfl f.ir.wf f.ir.seen)
        (fun _ _ hm => f.local_start hm) hloop]
      simp
  · rw [if_neg ht]
    simp only [List.not_mem_nil, false_iff]
    rintro (⟨_, h1, _⟩ | ⟨h1, _⟩) <;> exact ht h1

theorem SharedFacts.mem_symsLog (f : SharedFacts demangle ord search p elf cs st0 stIr st g) (m : LogMsg) :
    m ∈ symsLog p p.defined ↔ ∃ (i : Nat) (e : Nat × Sym) (c : Str), p.defined[i]? = some e ∧ cs[i]? = some c ∧
      ((m = .noUsage c ∧ mget c p.stackSizes = none ∧ p.target.isThumb = false) ∨
       (m = .noType c ∧ symSig p (realNames e.2) = none ∧ isOutlined c = false)) := by
  rw [CallStack.mem_symsLog p.defined f.symOk]
  simp only [mem_symLog]
  constructor
  · rintro ⟨e, he, c, h1, h2⟩
    obtain ⟨i, hi⟩ := List.getElem?_of_mem he
    obtain ⟨c', hc⟩ := f.sym.idx_lt hi
    have := f.sym.canon i e c' hi hc
    rw [h1] at this
    obtain rfl := Except.ok.inj this
    exact ⟨i, e, c, hi, hc, h2⟩
  · rintro ⟨i, e, c, hi, hc, h2⟩
    exact ⟨e, List.mem_of_getElem? hi, c, f.sym.canon i e c hi hc, h2⟩

theorem SharedFacts.stmtMsgs (f : SharedFacts demangle ord search p elf cs st0 stIr st g) (alike : p.NamesAlike) :
    StmtMsgs p.target.isThumb (fun c s => ∃ i, p.Principal i c ∧ p.Contains i s) st0 []
      (definesLog p st0 [] p.defines).1 stIr (definesLog p st0 [] p.defines).2 := by
  refine (definePass_msgs p.defines [] f.definesOk).congr ?_
  intro c s
  unfold OccursIn Program.Contains
  constructor
  · rintro ⟨d, hd, h1, h2⟩
    obtain ⟨i, e, h3, h4, h5⟩ := f.sym.aliases_some d.name c h1
    exact ⟨i, f.principal.mpr h4, d, hd, (liveAt_iff p d.name i).mpr ⟨e, h3, h5⟩, h2⟩
  · rintro ⟨i, h1, d, hd, ⟨a, s', h2, h4⟩, h3⟩
    exact ⟨d, hd, f.alias alike h2 (f.principal.mp h1) h4, h3⟩

theorem SharedFacts.log_eq (f : SharedFacts demangle ord search p elf cs st0 stIr st g)
    (hc : callGraph demangle ord search p elf = .ok (st, g))
    {start : Option Str} {g1 : Graph} (hs : applyStart demangle st.indices start g = .ok g1) :
    runLog demangle ord search p elf start =
      symsLog p p.defined ++ ((definesLog p st0 [] p.defines).1 ++ (machineLog search p elf stIr ++
        (indirectsLog ord st ++ startLog demangle ord st.indices start ++
          if st.hasStackUsageInfo then [] else [.noFigures]))) := by
  have hg : addIndirects ord st = g := by
    unfold callGraph irGraph at hc
    rw [f.symOk] at hc
    simp only [f.definesOk, f.pass, Except.ok.injEq, Prod.mk.injEq, true_and] at hc
    exact hc
  unfold runLog
  rw [f.symOk]
  simp only
  rw [f.definesOk]
  simp only
  rw [f.pass]
  simp only
  rw [hg, hs]

/-- The last function that was compared, where the figure is still unknown. -/
theorem Program.LocalAfter.last_step {m k : Nat} {l : Local} (h : p.LocalAfter search elf m k l) {i : Nat} (hi : i < k)
    (hl : p.LastOf i m) : ∃ j < k, p.LastOf j m ∧ p.LocalAfter search elf m (j + 1) l := by
  induction h with
  | compiler _ => omega
  | @code k _ _ _ _ _ _ h1 h2 h3 h4 h5 _ => exact ⟨k, by omega, h2, .code h1 h2 h3 h4 h5⟩
  | @other k _ h1 h2 ih =>
    have hne : i ≠ k := by
      rintro rfl
      exact h2 hl
    obtain ⟨j, h3, h4, h5⟩ := ih (by omega)
    exact ⟨j, by omega, h4, h5⟩

end run

end CallStack
