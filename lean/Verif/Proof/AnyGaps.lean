import Verif.Proof.SharedGaps
import Verif.Proof.AnyAbort

/-!
Which messages a run logs, whatever the names of the functions.
-/

namespace CallStack

section run

variable {demangle : Str → Str} {ord : HashOrder} {search : TagSearch} {p : Program} {elf : Elf}
  {cs : List Str} {st0 stIr st : Build} {g : Graph}

/-- The message `m` is logged when the machine code of the `i`-th live function is looked at. -/
def StepMsgNode (search : TagSearch) (p : Program) (elf : Elf) (stIr : Build) (i : Nat) (m : LogMsg) :
    Prop :=
  ∃ c n address size r l l', p.CodeFor i c n ∧ p.Decoded search elf i address size r ∧
    p.LocalNodeAfter search elf n i l ∧ p.LocalNodeAfter search elf n (i + 1) l' ∧
    (m ∈ overrideLog c l r.stack r.modifiesSp (stIr.asmFns.contains c) (isOutlined c) ∨
      (m = .noUsage c ∧ l' = .unknown) ∨ (m = .untypedCall c ∧ c ∉ stIr.defined ∧ r.indirect = true))

/-- What is logged about one function. -/
theorem SharedFacts.step_log_any (f : SharedFacts demangle ord search p elf cs st0 stIr st g)
    (ht : p.target.isThumb = true) {stext : Nat} {text : List Nat} (hx : elf.text = some (stext, text)) {k : Nat}
    {e : Nat × Sym} {st1 st2 : Build}
    (hek : p.defined[k]? = some e) (inv : MachineInv stIr.g.nodes.length stIr st1)
    (h1 : machineStep search (p.target == .thumbv7m) (elfTags elf.symtab) stext text st1 e = .ok st2)
    (hl : ∀ (m : Nat) (name : Str), cs[m]? = some name →
      ∃ nd, st1.g.nodes[m]? = some nd ∧ p.LocalNodeAfter search elf m k nd.loc) (m : LogMsg) :
    m ∈ machineStepLog search (p.target == .thumbv7m) (elfTags elf.symtab) stext text st1 e ↔
      StepMsgNode search p elf stIr k m := by
  obtain ⟨_, hl2, _⟩ := f.local_step_any hx hek inv h1 hl
  obtain ⟨inv1, c, i, r, hno, han, hu⟩ := machineStep_spec inv f.ir.lt h1
  have hla := (f.nodeOf_any hek c i).mp hno
  have hi : i < cs.length := by rw [f.sym.len]; exact hla.lt
  obtain ⟨nd, hnd, hloc⟩ := hl i _ (List.getElem?_eq_getElem hi)
  obtain ⟨nd0, nd', h2, h3, h4⟩ := hu.loc
  rw [hnd] at h2
  cases h2
  obtain ⟨nd'', h5, hloc'⟩ := hl2 i _ (List.getElem?_eq_getElem hi)
  rw [h3] at h5
  cases h5
  have hd := decoded_of hek hx han
  have key : m ∈ machineStepLog search (p.target == .thumbv7m) (elfTags elf.symtab) stext text st1 e ↔
      (m ∈ overrideLog c nd.loc r.stack r.modifiesSp (stIr.asmFns.contains c) (isOutlined c) ∨
      (m = .noUsage c ∧ nd'.loc = .unknown) ∨ (m = .untypedCall c ∧ c ∉ stIr.defined ∧ r.indirect = true)) := by
    obtain ⟨bytes, b1, b2⟩ := han
    obtain ⟨first, rest, n1, n2, n3⟩ := hno
    unfold machineStepLog
    rw [n1]
    simp only
    rw [inv.aliases, n2]
    simp only
    have b1' : textSlice stext text (e.1 % 2 ^ 32)
      (symSize search (elfTags elf.symtab) (e.1 % 2 ^ 32) (e.2.size % 2 ^ 32)) = .ok bytes := b1
    rw [b1']
    simp only
    rw [b2]
    simp only
    unfold useThumbLog
    rw [inv.indices, n3]
    simp only
    have hl : st1.g.localAt i = .ok nd.loc := by
      unfold Graph.localAt
      rw [hnd]
    rw [hl]
    simp only
    rw [h4, inv.asmFns, inv.defined]
    simp only [List.mem_append]
    refine or_congr Iff.rfl (or_congr ?_ ?_)
    · split
      · rename_i hu
        simp [hu]
      · rename_i hu
        simp [hu]
    · split
      · rename_i hu
        simp only [Bool.and_eq_true, Bool.not_eq_true', List.contains_eq_mem, decide_eq_false_iff_not] at hu
        simp [hu]
      · rename_i hu
        simp only [Bool.and_eq_true, Bool.not_eq_true', List.contains_eq_mem, decide_eq_false_iff_not] at hu
        simp only [List.not_mem_nil, false_iff]
        rintro ⟨_, h7⟩
        exact hu h7
  rw [key]
  constructor
  · intro h
    exact ⟨c, i, _, _, r, _, _, hla, hd, hloc, hloc', h⟩
  · rintro ⟨c', n, address, size, r', l, l', a2, a3, a4, a5, a6⟩
    obtain ⟨rfl, rfl⟩ := f.codeFor_unique hla a2
    obtain rfl := (codeOf_iff.mpr ⟨ht, hd⟩).unique (codeOf_iff.mpr ⟨ht, a3⟩)
    obtain rfl := f.localNodeAfter_unique ht hla.lt k _ _ hloc a4
    obtain rfl := f.localNodeAfter_unique ht hla.lt _ _ _ hloc' a5
    exact a6

/-- What is logged about all of them. -/
theorem SharedFacts.loop_log_any (f : SharedFacts demangle ord search p elf cs st0 stIr st g)
    (ht : p.target.isThumb = true) {stext : Nat} {text : List Nat} (hx : elf.text = some (stext, text))
    (es : List (Nat × Sym)) :
    ∀ (k : Nat) {st1 st2 : Build}, p.defined.drop k = es → MachineInv stIr.g.nodes.length stIr st1 →
    (∀ (m : Nat) (name : Str), cs[m]? = some name →
      ∃ nd, st1.g.nodes[m]? = some nd ∧ p.LocalNodeAfter search elf m k nd.loc) →
    machineLoop search (p.target == .thumbv7m) (elfTags elf.symtab) stext text st1 es = .ok st2 →
    ∀ m, m ∈ machineLoopLog search (p.target == .thumbv7m) (elfTags elf.symtab) stext text st1 es ↔
      ∃ i, k ≤ i ∧ StepMsgNode search p elf stIr i m := by
  induction es with
  | nil =>
    intro k st1 st2 hd _ _ _ m
    rw [List.drop_eq_nil_iff] at hd
    simp only [machineLoopLog, List.not_mem_nil, false_iff]
    rintro ⟨i, hi, c, _, _, _, _, _, _, ⟨_, _, _, _, he, _⟩, _⟩
    have := (List.getElem?_eq_some_iff.mp he).1
    omega
  | cons e es ih =>
    intro k st1 st2 hd inv hl h m
    unfold machineLoop at h
    split at h
    · simp at h
    rename_i st1' hs
    have hek : p.defined[k]? = some e := by
      have := congrArg List.head? hd
      simpa using this
    obtain ⟨inv1, hl1, _⟩ := f.local_step_any hx hek inv hs hl
    have hd' : p.defined.drop (k + 1) = es := by
      have := congrArg List.tail hd
      simpa using this
    rw [machineLoopLog, hs, List.mem_append, f.step_log_any ht hx hek inv hs hl]
    simp only
    rw [ih (k + 1) hd' inv1 hl1 h]
    constructor
    · rintro (h1 | ⟨i, h1, h2⟩)
      · exact ⟨k, Nat.le_refl k, h1⟩
      · exact ⟨i, by omega, h2⟩
    · rintro ⟨i, h1, h2⟩
      by_cases hik : i = k
      · subst hik
        exact .inl h2
      · exact .inr ⟨i, by omega, h2⟩

/-- `RunFacts.mem_machineLog` whatever the names. -/
theorem SharedFacts.mem_machineLog_any (f : SharedFacts demangle ord search p elf cs st0 stIr st g)
    (m : LogMsg) : m ∈ machineLog search p elf stIr ↔
      (m = .noText ∧ p.target.isThumb = true ∧ elf.text = none) ∨
      (p.target.isThumb = true ∧ ∃ i, StepMsgNode search p elf stIr i m) := by
  unfold machineLog
  by_cases ht : p.target.isThumb = true
  · rw [if_pos ht]
    cases hx : elf.text with
    | none =>
      simp only [List.mem_singleton, ht, and_true, true_and]
      constructor
      · exact .inl
      · rintro (h1 | ⟨i, c, n, address, size, r, l, l', _, ⟨_, _, _, _, _, _, h3, _⟩, _⟩)
        · exact h1
        · rw [hx] at h3
          simp at h3
    | some t =>
      obtain ⟨stext, text⟩ := t
      obtain ⟨hloop, _⟩ := f.loop stext text ht hx
      simp only [reduceCtorEq, and_false, false_or, ht, true_and]
      rw [f.loop_log_any ht hx p.defined 0 rfl (MachineInv.init rfl f.ir.wf f.ir.seen)
        (fun _ _ hm => f.local_start_any hm) hloop]
      simp
  · rw [if_neg ht]
    simp only [List.not_mem_nil, false_iff]
    rintro (⟨_, h1, _⟩ | ⟨h1, _⟩) <;> exact ht h1

/-- The last function that was compared, where the figure is still unknown. -/
theorem Program.LocalNodeAfter.last_step {m k : Nat} {l : Local} (h : p.LocalNodeAfter search elf m k l) {i : Nat} (hi : i < k)
    {c : Str}
    (hl : p.CodeFor i c m) : ∃ j < k, ∃ c, p.CodeFor j c m ∧ p.LocalNodeAfter search elf m (j + 1) l := by
  induction h with
  | compiler _ => omega
  | @code k _ _ _ _ _ _ h1 h2 h3 h5 _ => exact ⟨k, by omega, _, h2, .code h1 h2 h3 h5⟩
  | @other k _ h1 h2 ih =>
    have hne : i ≠ k := by
      rintro rfl
      exact h2 _ hl
    obtain ⟨j, h3, h5⟩ := ih (by omega)
    exact ⟨j, by omega, h5⟩

end run

end CallStack
