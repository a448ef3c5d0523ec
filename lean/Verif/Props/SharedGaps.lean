import Verif.Proof.SharedGaps
import Verif.Props.Log
import Verif.Props.Shared
import Verif.Props.SharedTotal

/-!
Property C122: what the tool says about the gaps in its knowledge, if several functions may have the same names.
-/

namespace CallStack

section run

theorem stmt_not_sym (m : LogMsg) (h : m.ofSym = true) : m.ofStmt = false := by
  cases m <;> simp_all [LogMsg.ofSym, LogMsg.ofStmt]

theorem stmt_not_code (m : LogMsg) (h : m.ofCode = true) : m.ofStmt = false := by
  cases m <;> simp_all [LogMsg.ofCode, LogMsg.ofStmt]

theorem stmt_not_indirect (m : LogMsg) (h : m.ofIndirect = true) : m.ofStmt = false := by
  cases m <;> simp_all [LogMsg.ofIndirect, LogMsg.ofStmt]

theorem stmt_not_start (m : LogMsg) (h : m.ofStart = true) : m.ofStmt = false := by
  cases m <;> simp_all [LogMsg.ofStart, LogMsg.ofStmt]

theorem isAsm_eq {n : Str} {m : LogMsg} (h : LogMsg.isAsm n m = true) : ∃ y, m = .asm y n := by
  cases m <;> simp_all [LogMsg.isAsm]

theorem isAsm_stmt {n : Str} {m : LogMsg} (h : LogMsg.isAsm n m = true) : m.ofStmt = true := by
  obtain ⟨y, rfl⟩ := isAsm_eq h
  rfl

variable {demangle : Str → Str} {ord : HashOrder} {search : TagSearch} {p : Program} {elf : Elf}

/-- The machine code of the function that a node shows was looked at. -/
theorem Program.LocalAfter.decoded {m i : Nat} {l : Local} (h : p.LocalAfter search elf m (i + 1) l)
    (hl : p.LastOf i m) : ∃ known address size r name, p.LocalAfter search elf m i (figureLocal known) ∧
      p.Decoded search elf i address size r ∧ p.Principal m name ∧
      LocalPolicy (r.modifiesSp = true) (∃ x, p.Contains m (.asm x)) (OutlinedName name) known r.stack l := by
  cases h with
  | code h1 h2 h3 h4 h5 => exact ⟨_, _, _, _, _, h1, h3, h4, h5⟩
  | other _ h2 => exact absurd hl h2

theorem Program.LocalAfter.earlier {m k : Nat} {l : Local} (h : p.LocalAfter search elf m k l) {i : Nat} (hi : i ≤ k) :
    ∃ l', p.LocalAfter search elf m i l' := by
  induction h with
  | compiler h1 =>
    obtain rfl : i = 0 := by omega
    exact ⟨_, .compiler h1⟩
  | @code k _ _ _ _ _ _ h1 h2 h3 h4 h5 ih =>
    by_cases hk : i = k + 1
    · subst hk
      exact ⟨_, .code h1 h2 h3 h4 h5⟩
    · exact ih (by omega)
  | @other k _ h1 h2 ih =>
    by_cases hk : i = k + 1
    · subst hk
      exact ⟨_, .other h1 h2⟩
    · exact ih (by omega)

/-- **C122** What is announced, as C86. There is a warning for a function of unknown usage on other targets if the
compiler gives no figure under its names. On thumb targets there is one if, when the machine code of the function
has been looked at, neither the compiler nor the code of the functions of these names so far gave a figure. -/
theorem C122_gaps {start : Option Str} {out : Graph × List (List Nat)} (alike : p.NamesAlike)
    (decls : p.DeclaresOnce) (h : finalGraph demangle ord search p elf start = .ok out) :
    let log := runLog demangle ord search p elf start
    (∀ n, .noUsage n ∈ log ↔
      (p.target.isThumb = false ∧ ∃ i, p.Principal i n ∧ ∀ k, ¬ p.Frame i k) ∨
      (p.target.isThumb = true ∧ ∃ i m, p.Principal i n ∧ p.LastOf i m ∧
        p.LocalAfter search elf m (i + 1) .unknown)) ∧
    (.noText ∈ log ↔ p.TextMissing elf) ∧
    (∀ n, .noType n ∈ log ↔ ∃ i, p.Principal i n ∧ p.Untyped i ∧ ¬ OutlinedName n) ∧
    (.untypedSymbols ∈ log ↔ p.SomeUntyped) ∧
    (∀ n, .untypedCall n ∈ log ↔ ∃ i, p.Principal i n ∧ p.CodeLeaves search elf i) := by
  obtain ⟨st, g, g1, h1, h2⟩ := finalGraph_start h
  obtain ⟨cs, st0, stIr, f⟩ := callGraph_shared h1
  have hmem := f.mem_log h1 h2
  have hlt : ∀ {i n}, p.Principal i n → ∃ e, p.defined[i]? = some e := fun hp =>
    ⟨_, List.getElem?_eq_getElem (f.sym.len ▸ (List.getElem?_eq_some_iff.mp (f.principal.mp hp)).1)⟩
  refine ⟨fun n => ?_, ?_, fun n => ?_, ?_, fun n => ?_⟩
  · rw [hmem]
    simp only [LogMsg.ofSym, LogMsg.ofStmt, LogMsg.ofCode, LogMsg.ofIndirect, LogMsg.ofStart, Bool.false_eq_true, true_and,
      reduceCtorEq, false_and, or_false, false_or, StepMsg,
      f.mem_symsLog, f.mem_machineLog alike, mem_overrideLog, LogMsg.noUsage.injEq, exists_false, and_false]
    constructor
    · rintro (⟨i, e, c, h3, h4, rfl, h5, h6⟩ | ⟨ht, i, c, m, address, size, t, l, l', h3, h4, h5, h6, h7, rfl, rfl⟩)
      · refine .inl ⟨h6, i, f.principal.mpr h4, fun k hk => ?_⟩
        rw [(frame_iff h3 (f.sym.canon i e n h3 h4) k).mp hk] at h5
        simp at h5
      · exact .inr ⟨ht, i, m, f.principal.mpr h3, h4, h7⟩
    · rintro (⟨ht, i, h3, h4⟩ | ⟨ht, i, m, h3, h4, h5⟩)
      · obtain ⟨e, he⟩ := hlt h3
        have hc := f.principal.mp h3
        refine .inl ⟨i, e, n, he, hc, rfl, ?_, ht⟩
        cases hm : mget n p.stackSizes with
        | none => rfl
        | some k => exact absurd ((frame_iff he (f.sym.canon i _ n he hc) k).mpr hm) (h4 k)
      · obtain ⟨known, address, size, r, name, h6, h7, _⟩ := h5.decoded h4
        exact .inr ⟨ht, i, n, m, address, size, r, _, _, f.principal.mp h3, h4, h7, h6, h5, rfl, rfl⟩
  · rw [hmem]
    simp only [LogMsg.ofSym, LogMsg.ofStmt, LogMsg.ofCode, LogMsg.ofIndirect, LogMsg.ofStart, Bool.false_eq_true, true_and,
      reduceCtorEq, false_and, or_false, false_or, StepMsg,
      f.mem_machineLog alike, mem_overrideLog, exists_false, and_false, true_and]
    rfl
  · rw [hmem]
    simp only [LogMsg.ofSym, LogMsg.ofStmt, LogMsg.ofCode, LogMsg.ofIndirect, LogMsg.ofStart, Bool.false_eq_true, true_and,
      reduceCtorEq, false_and, or_false, false_or,
      f.mem_symsLog, LogMsg.noType.injEq]
    constructor
    · rintro ⟨i, e, c, h3, h4, rfl, h5, h6⟩
      obtain ⟨c', hc', _, hcm⟩ := f.canon_at h3
      rw [h4] at hc'
      cases hc'
      refine ⟨i, f.principal.mpr h4, ⟨⟨n, e.1, e.2, h3, (mem_realNames _ _).mp hcm⟩, (symSig_none decls h3).mp h5⟩, ?_⟩
      rw [← isOutlined_iff, h6]
      simp
    · rintro ⟨i, h3, ⟨_, h4⟩, h5⟩
      obtain ⟨e, he⟩ := hlt h3
      refine ⟨i, _, n, he, f.principal.mp h3, rfl, (symSig_none decls he).mpr h4, ?_⟩
      rw [← isOutlined_iff] at h5
      simpa using h5
  · rw [hmem]
    simp only [LogMsg.ofSym, LogMsg.ofStmt, LogMsg.ofCode, LogMsg.ofIndirect, LogMsg.ofStart, Bool.false_eq_true, true_and,
      reduceCtorEq, false_and, or_false, false_or]
    unfold indirectsLog Program.SomeUntyped
    simp only [List.mem_append, List.mem_flatMap, mem_indirectStepLog, reduceCtorEq, false_and, or_false,
      and_false, exists_false]
    rw [← f.untyped decls]
    cases st.hasUntypedSymbols <;> simp
  · rw [hmem]
    simp only [LogMsg.ofSym, LogMsg.ofStmt, LogMsg.ofCode, LogMsg.ofIndirect, LogMsg.ofStart, Bool.false_eq_true, true_and,
      reduceCtorEq, false_and, or_false, false_or, StepMsg,
      f.mem_machineLog alike, mem_overrideLog, LogMsg.untypedCall.injEq, exists_false, and_false]
    constructor
    · rintro ⟨ht, i, c, m, address, size, t, l, l', h3, h4, h5, h6, h7, rfl, h8, h9⟩
      refine ⟨i, f.principal.mpr h3, ht, ?_, address, size, t, h5, h9⟩
      rintro d hd ⟨a, s, h10, h11⟩
      exact h8 ((definePass_defined_all p.defines f.definesOk).2 d hd n (f.alias alike h10 h3 h11))
    · rintro ⟨i, h3, ht, h4, address, size, t, h5, h6⟩
      have hx : elf.text ≠ none := by
        obtain ⟨_, _, _, _, _, _, h7, _⟩ := h5
        rw [h7]
        simp
      obtain ⟨e, he⟩ := hlt h3
      have hc := f.principal.mp h3
      obtain ⟨m, _, hl⟩ := f.lookup alike he hc
      have hi := (List.getElem?_eq_some_iff.mp he).1
      obtain ⟨l, l', h7, h8⟩ : ∃ l l', p.LocalAfter search elf m i l ∧ p.LocalAfter search elf m (i + 1) l' := by
        have := f.localShared alike hl.lt
        generalize g.locOf m = x at this
        cases this with
        | code _ _ h7 =>
          obtain ⟨l, h8⟩ := h7.earlier (Nat.le_of_lt hi)
          obtain ⟨l', h9⟩ := h7.earlier hi
          exact ⟨l, l', h8, h9⟩
        | compiler h7 _ =>
          rcases h7 with h7 | h7
          · rw [ht] at h7
            simp at h7
          · exact absurd h7 hx
      refine ⟨ht, i, n, m, address, size, t, l, l', hc, hl, h5, h7, h8, rfl, fun h9 => ?_, h6⟩
      obtain ⟨d, hd, h10⟩ := f.ir.defined n h9
      obtain ⟨j, e', h11, h12, h13⟩ := f.sym.aliases_some d.name n h10
      obtain ⟨c', hc', _, hcm⟩ := f.canon_at he
      rw [hc] at hc'
      cases hc'
      obtain ⟨h14, _⟩ := canonicalOf_spec (f.sym.canon j e' n h11 h12)
      have := alike j i e'.1 e'.2 e.1 e.2 n h11 he ((mem_realNames _ _).mp h14) ((mem_realNames _ _).mp hcm)
      have h15 := (mem_realNames _ _).mp h13
      exact h4 d hd ⟨e.1, e.2, he, this ▸ h15.1, h15.2⟩

/-- **C122** Every function of unknown usage is announced that is the last of its names, unless it is said that the
machine code is missing. -/
theorem C122_unknown_announced_partial {start : Option Str} {out : Graph × List (List Nat)} (alike : p.NamesAlike)
    (decls : p.DeclaresOnce) (h : finalGraph demangle ord search p elf start = .ok out) {m : Nat} {n : Str}
    (hl : p.LastOf m m) (hp : p.Principal m n) (hu : p.LocalShared search elf m .unknown) :
    .noUsage n ∈ runLog demangle ord search p elf start ∨ .noText ∈ runLog demangle ord search p elf start := by
  have key := C122_gaps alike decls h
  rw [key.1, key.2.1]
  obtain ⟨st, g, g1, h1, h2⟩ := finalGraph_start h
  obtain ⟨cs, st0, stIr, f⟩ := callGraph_shared h1
  generalize hg : Local.unknown = l at hu
  cases hu with
  | code ht hx h3 =>
    subst hg
    obtain ⟨j, _, h4, h5⟩ := h3.last_step hl.lt hl
    refine .inl (.inr ⟨ht, j, m, ?_, h4, h5⟩)
    obtain ⟨a, s, b, t, h6, h7, h8, _⟩ := h4
    obtain ⟨c, h9, h10, _⟩ := f.canon_at h6
    have h11 := f.sym.canon m _ n h7 (f.principal.mp hp)
    have hr : realNames t = realNames s := by unfold realNames; rw [h8]
    rw [show realNames (b, t).2 = realNames (a, s).2 from hr, h10] at h11
    obtain rfl := Except.ok.inj h11
    exact f.principal.mpr h9
  | @compiler llvm ht hf =>
    cases llvm with
    | some k => cases hg
    | none =>
      cases hth : p.target.isThumb with
      | false => exact .inl (.inl ⟨rfl, m, hp, hf⟩)
      | true =>
        rcases ht with ht | ht
        · rw [hth] at ht
          simp at ht
        · exact .inr ⟨hth, ht⟩

/-- **C122** The overrides that are announced, as C87; but the message shows the figure at the node instead of that of
the compiler. -/
theorem C122_overrides {start : Option Str} {out : Graph × List (List Nat)} (alike : p.NamesAlike)
    (h : finalGraph demangle ord search p elf start = .ok out) :
    let log := runLog demangle ord search p elf start
    (∀ n k k', .overrideAsm n k k' ∈ log ↔ p.target.isThumb = true ∧ ∃ i m, p.Principal i n ∧ p.LastOf i m ∧
      p.LocalAfter search elf m i (.exact k) ∧ p.LocalAfter search elf m (i + 1) (.exact k') ∧ k ≠ k' ∧
      ∃ x, p.Contains i (.asm x)) ∧
    (∀ n k k', .overrideOutlined n k k' ∈ log ↔ p.target.isThumb = true ∧ ∃ i m, p.Principal i n ∧ p.LastOf i m ∧
      p.LocalAfter search elf m i (.exact k) ∧ p.LocalAfter search elf m (i + 1) (.exact k') ∧ k ≠ k' ∧
      ¬ ∃ x, p.Contains i (.asm x)) ∧
    (∀ n k k', .overrideOutlined n k k' ∈ log → OutlinedName n ∧ k = 0) := by
  obtain ⟨st, g, g1, h1, h2⟩ := finalGraph_start h
  obtain ⟨cs, st0, stIr, f⟩ := callGraph_shared h1
  have hmem := f.mem_log h1 h2
  -- the cases of the policy where the figures differ
  have key : ∀ {i m n k k'}, p.target.isThumb = true → p.Principal i n → p.LastOf i m →
      p.LocalAfter search elf m i (.exact k) → p.LocalAfter search elf m (i + 1) (.exact k') → k ≠ k' →
      ∃ address size t, cs[i]? = some n ∧ p.Decoded search elf i address size t ∧ t.stack = some k' ∧
        (k' ≠ 0 ↔ t.modifiesSp = true) ∧
        ((∃ x, p.Contains i (.asm x)) ∨ ((¬ ∃ x, p.Contains i (.asm x)) ∧ OutlinedName n ∧ k = 0)) := by
    intro i m n k k' ht hp hl ha hb hne
    have hc := f.principal.mp hp
    obtain ⟨known, address, size, t, name, h3, h4, h5, h6⟩ := hb.decoded hl
    have hk : figureLocal known = .exact k := f.localAfter_unique ht hl.lt i _ _ h3 ha
    obtain rfl : known = some k := by
      cases known with
      | none => cases hk
      | some x => cases hk; rfl
    have hn : name = n := by
      have h7 := f.principal.mp h5
      obtain ⟨a, s, b, t', h8, h9, h10, _⟩ := hl
      have h11 := f.sym.canon m _ name h9 h7
      have h12 := f.sym.canon i _ n h8 hc
      have hr : realNames t' = realNames s := by unfold realNames; rw [h10]
      rw [show realNames (b, t').2 = realNames (a, s).2 from hr, h12] at h11
      exact (Except.ok.inj h11).symm
    subst hn
    refine ⟨address, size, t, hc, h4, ?_⟩
    simp only [← hl.contains] at h6
    generalize hg : (Local.exact k') = l at h6
    generalize t.stack = our at h6
    cases h6 with
    | only _ _ => exact absurd (Local.exact.inj hg).symm hne
    | agree _ _ => exact absurd (Local.exact.inj hg).symm hne
    | asm _ _ b1 b2 b3 =>
      obtain rfl := Local.exact.inj hg
      exact ⟨rfl, b3, .inl b2⟩
    | outlinedZero _ b1 b2 b3 b4 =>
      obtain rfl := Local.exact.inj hg
      exact ⟨rfl, ⟨fun _ => b4, fun _ => b1⟩, .inr ⟨b2, b3, rfl⟩⟩
    | outlined _ _ _ _ _ _ _ _ => exact absurd (Local.exact.inj hg).symm hne
  -- what the message tells about the figures
  have after : ∀ {i m c address size t l l' k k'}, p.target.isThumb = true → cs[i]? = some c → p.LastOf i m →
      p.Decoded search elf i address size t → p.LocalAfter search elf m i l → p.LocalAfter search elf m (i + 1) l' →
      l = .exact k → t.stack = some k' → k ≠ k' →
      ((∃ x, p.Contains i (.asm x)) ∨ ((¬ ∃ x, p.Contains i (.asm x)) ∧ OutlinedName c ∧ k = 0)) →
      p.LocalAfter search elf m i (.exact k) ∧ p.LocalAfter search elf m (i + 1) (.exact k') := by
    rintro i m c address size t _ l' k k' ht hc hl hd ha hb rfl hs hne hor
    refine ⟨ha, ?_⟩
    obtain ⟨known, address', size', t', name, h3, h4, h5, h6⟩ := id (hb.decoded hl)
    have hk : figureLocal known = .exact k := f.localAfter_unique ht hl.lt i _ _ h3 ha
    obtain rfl : known = some k := by
      cases known with
      | none => cases hk
      | some x => cases hk; rfl
    obtain rfl := (codeOf_iff.mpr ⟨ht, hd⟩).unique (codeOf_iff.mpr ⟨ht, h4⟩)
    simp only [← hl.contains] at h6
    rw [hs] at h6
    cases h6 with
    | agree _ _ => exact absurd rfl hne
    | asm _ _ _ _ _ => exact hb
    | outlinedZero _ _ _ _ _ => exact hb
    | outlined _ _ _ b2 _ b4 _ _ =>
      rcases hor with b5 | ⟨_, _, b5⟩
      · exact absurd b5 b4
      · exact absurd b5 b2
  have hpar : ∀ x : LogMsg, (∀ a, x ≠ .noUsage a) → (∀ a, x ≠ .untypedCall a) → x ≠ .noText →
      (x ∈ machineLog search p elf stIr ↔ p.target.isThumb = true ∧ ∃ i m c k k', p.Principal i c ∧ p.LastOf i m ∧
        p.LocalAfter search elf m i (.exact k) ∧ p.LocalAfter search elf m (i + 1) (.exact k') ∧ k ≠ k' ∧
        ((x = .overrideAsm c k k' ∧ ∃ x, p.Contains i (.asm x)) ∨
          (x = .overrideOutlined c k k' ∧ (¬ ∃ x, p.Contains i (.asm x)) ∧ OutlinedName c ∧ k = 0))) := by
    intro x m1 m2 m3
    rw [f.mem_machineLog alike]
    simp only [StepMsg, m1, m2, m3, false_and, or_false, false_or, mem_overrideLog]
    refine and_congr_right fun ht => ?_
    constructor
    · rintro ⟨i, c, m, address, size, t, l, l', h3, h4, h5, h6, h7, k, k', h8, h9, h10, h11, h12⟩
      have h13 : (x = .overrideAsm c k k' ∧ ∃ x, p.Contains i (.asm x)) ∨
          (x = .overrideOutlined c k k' ∧ (¬ ∃ x, p.Contains i (.asm x)) ∧ OutlinedName c ∧ k = 0) := by
        rw [← f.asm_iff alike h3, ← isOutlined_iff]
        simpa using h12
      obtain ⟨h14, h15⟩ := after ht h3 h4 h5 h6 h7 h8 h9 h11 (h13.imp And.right And.right)
      exact ⟨i, m, c, k, k', f.principal.mpr h3, h4, h14, h15, h11, h13⟩
    · rintro ⟨i, m, c, k, k', h3, h4, h5, h6, h7, h8⟩
      obtain ⟨address, size, t, h9, h10, h11, h12, _⟩ := key ht h3 h4 h5 h6 h7
      refine ⟨i, c, m, address, size, t, _, _, h9, h4, h10, h5, h6, k, k', rfl, h11, h12, h7, ?_⟩
      rw [← f.asm_iff alike h9, ← isOutlined_iff] at h8
      simpa using h8
  refine ⟨fun n k k' => ?_, fun n k k' => ?_, fun n k k' => ?_⟩
  · rw [hmem]
    simp only [LogMsg.ofSym, LogMsg.ofStmt, LogMsg.ofCode, LogMsg.ofIndirect, LogMsg.ofStart, Bool.false_eq_true, true_and,
      reduceCtorEq, false_and, or_false, false_or]
    rw [hpar _ (by simp) (by simp) (by simp)]
    simp only [LogMsg.overrideAsm.injEq, reduceCtorEq, false_and, or_false]
    refine and_congr_right fun _ => ?_
    constructor
    · rintro ⟨i, m, c, _, _, h3, h4, h5, h6, h7, ⟨rfl, rfl, rfl⟩, h8⟩
      exact ⟨i, m, h3, h4, h5, h6, h7, h8⟩
    · rintro ⟨i, m, h3, h4, h5, h6, h7, h8⟩
      exact ⟨i, m, n, k, k', h3, h4, h5, h6, h7, ⟨rfl, rfl, rfl⟩, h8⟩
  · rw [hmem]
    simp only [LogMsg.ofSym, LogMsg.ofStmt, LogMsg.ofCode, LogMsg.ofIndirect, LogMsg.ofStart, Bool.false_eq_true, true_and,
      reduceCtorEq, false_and, or_false, false_or]
    rw [hpar _ (by simp) (by simp) (by simp)]
    simp only [LogMsg.overrideOutlined.injEq, reduceCtorEq, false_and, false_or]
    refine and_congr_right fun ht => ?_
    constructor
    · rintro ⟨i, m, c, _, _, h3, h4, h5, h6, h7, ⟨rfl, rfl, rfl⟩, h8, _⟩
      exact ⟨i, m, h3, h4, h5, h6, h7, h8⟩
    · rintro ⟨i, m, h3, h4, h5, h6, h7, h8⟩
      obtain ⟨_, _, _, _, _, _, _, h9⟩ := key ht h3 h4 h5 h6 h7
      rcases h9 with h9 | h9
      · exact absurd h9 h8
      · exact ⟨i, m, n, k, k', h3, h4, h5, h6, h7, ⟨rfl, rfl, rfl⟩, h9⟩
  · rw [hmem]
    simp only [LogMsg.ofSym, LogMsg.ofStmt, LogMsg.ofCode, LogMsg.ofIndirect, LogMsg.ofStart, Bool.false_eq_true, true_and,
      reduceCtorEq, false_and, or_false, false_or]
    rw [hpar _ (by simp) (by simp) (by simp)]
    simp only [LogMsg.overrideOutlined.injEq, reduceCtorEq, false_and, false_or]
    rintro ⟨_, i, m, c, _, _, _, _, _, _, _, ⟨rfl, rfl, rfl⟩, _, h10, rfl⟩
    exact ⟨h10, rfl⟩

/-- **C122** What the tool assumes about the statements of live functions is announced, once each, as C88. -/
theorem C122_assumptions {start : Option Str} {out : Graph × List (List Nat)} (alike : p.NamesAlike)
    (h : finalGraph demangle ord search p elf start = .ok out) :
    let log := runLog demangle ord search p elf start
    (∀ x n, .asm x n ∈ log → ∃ i, p.Principal i n ∧ p.Contains i (.asm x)) ∧
    (∀ i n x, p.Principal i n → p.Contains i (.asm x) → ∃ y, log.filter (LogMsg.isAsm n) = [.asm y n]) ∧
    (∀ f, .inlined f ∈ log ↔ p.target.isThumb = false ∧ (∃ i, p.Contains i (.directCall f)) ∧
      (InlineIntrinsic f ∨ f = c!"llvm.x86.sse2.pause")) ∧
    (∀ f, log.count (.inlined f) ≤ 1) ∧
    (∀ n, .noInfo n ∈ log → (∃ i, p.Contains i (.bitcastCall (some n))) ∧ ∀ j, ¬ p.Principal j n) ∧
    (∀ i n, p.Contains i (.bitcastCall (some n)) → (∀ j, ¬ p.Principal j n) →
      .noInfo n ∈ log ∨ ∃ i, p.Contains i (.directCall n)) ∧
    (∀ n, log.count (.noInfo n) ≤ 1) := by
  obtain ⟨st, g, g1, h1, h2⟩ := finalGraph_start h
  obtain ⟨cs, st0, stIr, f⟩ := callGraph_shared h1
  have hmem := f.mem_log h1 h2
  have hst := f.stmtMsgs alike
  have hcs : ∀ n, mget n st0.indices = none ↔ ∀ j, ¬ p.Principal j n := by
    intro n
    constructor
    · intro hn j hj
      exact f.sym.indices_ne n (List.mem_of_getElem? (f.principal.mp hj)) hn
    · intro hn
      cases hm : mget n st0.indices with
      | none => rfl
      | some j => exact absurd (f.principal.mpr (f.sym.indices_some n j hm)) (hn j)
  have hin : ∀ {i s}, p.Contains i s → ∃ n, p.Principal i n := by
    rintro i s ⟨d, _, h3, _⟩
    have : i < cs.length := by
      rw [f.sym.len]
      obtain ⟨a, s, h4, _⟩ := h3
      exact (List.getElem?_eq_some_iff.mp h4).1
    exact ⟨_, f.principal.mpr (List.getElem?_eq_getElem this)⟩
  have hasm : st0.asmFns = [] := f.sym.asmFns
  -- only the pass over the definitions logs such messages
  have hfilter : ∀ q : LogMsg → Bool, (∀ m, q m = true → m.ofStmt = true) →
      (runLog demangle ord search p elf start).filter q = (definesLog p st0 [] p.defines).1.filter q := by
    intro q hq
    rw [f.log_eq h1 h2]
    have nil : ∀ l : List LogMsg, (∀ m ∈ l, m.ofStmt = false) → l.filter q = [] := by
      intro l hl
      rw [List.filter_eq_nil_iff]
      intro m hm hqm
      have := hq m hqm
      rw [hl m hm] at this
      simp at this
    have e1 := nil (symsLog p p.defined) (fun m hm => stmt_not_sym m (symsLog_ofSym f.symOk hm))
    have e2 := nil (machineLog search p elf stIr) (fun m hm => stmt_not_code m (machineLog_ofCode hm))
    have e3 := nil (indirectsLog ord st) (fun m hm => stmt_not_indirect m (ofIndirect_of hm))
    have e4 := nil (startLog demangle ord st.indices start) (fun m hm => stmt_not_start m (ofStart_of hm))
    have e5 : (if st.hasStackUsageInfo = true then [] else [LogMsg.noFigures]).filter q = [] := nil _ (fun m hm => by
      split at hm
      · simp at hm
      · simp only [List.mem_singleton] at hm
        subst hm
        rfl)
    simp only [List.filter_append, e1, e2, e3, e4, e5, List.nil_append, List.append_nil]
  have hcount : ∀ m : LogMsg, m.ofStmt = true →
      (runLog demangle ord search p elf start).count m = (definesLog p st0 [] p.defines).1.count m := by
    intro m hm
    have := hfilter (· == m) (fun x hx => by rw [eq_of_beq hx]; exact hm)
    rw [List.count_eq_length_filter, List.count_eq_length_filter, this]
  refine ⟨fun x n => ?_, fun i n x hp hx => ?_, fun x => ?_, fun x => ?_, fun n => ?_, fun i n => ?_, fun n => ?_⟩
  · rw [hmem]
    simp only [LogMsg.ofSym, LogMsg.ofStmt, LogMsg.ofCode, LogMsg.ofIndirect, LogMsg.ofStart, Bool.false_eq_true, true_and,
      reduceCtorEq, false_and, or_false, false_or]
    exact hst.asmWhy x n
  · rw [hfilter (LogMsg.isAsm n) (fun m hm => isAsm_stmt hm)]
    have hlen := hst.asmOne n
    have hn : n ∈ stIr.asmFns := (hst.asmIn n).mpr (.inr ⟨x, i, hp, hx⟩)
    rw [hasm, if_neg (by simp), if_pos hn] at hlen
    obtain ⟨m, hm⟩ := List.length_eq_one_iff.mp hlen
    rw [hm]
    have : m ∈ (definesLog p st0 [] p.defines).1.filter (LogMsg.isAsm n) := by rw [hm]; simp
    rw [List.mem_filter] at this
    obtain ⟨y, rfl⟩ := isAsm_eq this.2
    exact ⟨y, rfl⟩
  · rw [hmem]
    simp only [LogMsg.ofSym, LogMsg.ofStmt, LogMsg.ofCode, LogMsg.ofIndirect, LogMsg.ofStart, Bool.false_eq_true, true_and,
      reduceCtorEq, false_and, or_false, false_or]
    have h3 := hst.inlOne x
    have h4 := hst.seenIn x
    simp only [List.not_mem_nil, if_false, false_or, assumedInline_iff] at h3 h4
    rw [← List.count_pos_iff, h3]
    constructor
    · intro h5
      split at h5
      · rename_i h6
        obtain ⟨c, ⟨i, _, h7⟩, h8, h9⟩ := h4.mp h6
        exact ⟨h8, ⟨i, h7⟩, h9⟩
      · simp at h5
    · rintro ⟨h5, ⟨i, h6⟩, h7⟩
      obtain ⟨n, hn⟩ := hin h6
      rw [if_pos (h4.mpr ⟨n, ⟨i, hn, h6⟩, h5, h7⟩)]
      simp
  · rw [hcount _ rfl, hst.inlOne]
    split
    · simp
    · split <;> simp
  · rw [hmem]
    simp only [LogMsg.ofSym, LogMsg.ofStmt, LogMsg.ofCode, LogMsg.ofIndirect, LogMsg.ofStart, Bool.false_eq_true, true_and,
      reduceCtorEq, false_and, or_false, false_or]
    intro h3
    obtain ⟨⟨c, i, _, h4⟩, _⟩ := hst.infoWhy n h3
    refine ⟨⟨i, h4⟩, (hcs n).mp ?_⟩
    have h5 := hst.infoOne n
    have h6 := List.count_pos_iff.mpr h3
    by_contra h7
    rw [if_neg h7] at h5
    omega
  · intro h3 h4
    rw [hmem]
    simp only [LogMsg.ofSym, LogMsg.ofStmt, LogMsg.ofCode, LogMsg.ofIndirect, LogMsg.ofStart, Bool.false_eq_true, true_and,
      reduceCtorEq, false_and, or_false, false_or]
    obtain ⟨c, hc⟩ := hin h3
    rcases hst.info n ((hcs n).mpr h4) (hst.bitcast n c ⟨i, hc, h3⟩) with h5 | ⟨_, i', _, h5⟩
    · exact .inl h5
    · exact .inr ⟨i', h5⟩
  · rw [hcount _ rfl]
    have := hst.infoOne n
    split at this <;> omega


/-- `exTwins` meets the assumptions. The second of the functions of the same name has an unknown usage in the output,
but the tool does not say so: it announces only what it does not know at the nodes that it finds by name. -/
theorem C122_hidden_silent :
    exTwins.NamesAlike ∧ exTwins.DeclaresOnce ∧ exTwins.Principal 1 c!"OUTLINED_FUNCTION_0" ∧
    (finalGraph id sameOrder linearSearch exTwins exTwinsElf none).toOption.map (fun x => x.1.locOf 1) =
      some .unknown ∧
    ∀ n, .noUsage n ∉ runLog id sameOrder linearSearch exTwins exTwinsElf none := by
  have hlog : runLog id sameOrder linearSearch exTwins exTwinsElf none =
      [] := by decide +kernel
  refine ⟨C115_bound_violated.1, by unfold Program.DeclaresOnce; decide, ?_, by decide +kernel, ?_⟩
  · refine ⟨_, _, [], [], rfl, rfl, by rw [← isTag_iff]; decide, .inr ⟨?_, by simp⟩⟩
    rintro n' ⟨h1, _⟩ k' h2
    simp only [List.mem_singleton] at h1
    subst h1
    exact absurd h2 (by unfold Program.Reported; simp [mget, exTwins])
  · rw [hlog]
    simp

/-- Two functions `f` that contain inline assembly, and for which the compiler has no figures. -/
def exBlamed : Program :=
  { exTwins with
    defined := [(256, ⟨[c!"main"], 8⟩), (264, ⟨[c!"f"], 4⟩), (268, ⟨[c!"f"], 6⟩)]
    defines := [⟨c!"main", exSig, []⟩, ⟨c!"f", exSig, [.asm c!"nop"]⟩] }

/-- `exBlamed` meets the assumptions. The tool says that LLVM reported 8 bytes for `f`, but LLVM did not report
anything: the figure was found in the code of the other function. -/
theorem C122_figure_misattributed :
    exBlamed.NamesAlike ∧ exBlamed.stackSizes = [(c!"main", 8)] ∧
    (finalGraph id sameOrder linearSearch exBlamed exTwinsElf none).toOption.map
      (fun x => (x.1.locOf 1, x.1.locOf 2)) = some (.unknown, .exact 64) ∧
    runLog id sameOrder linearSearch exBlamed exTwinsElf none =
      [.asm c!"nop" c!"f", .overrideAsm c!"f" 8 64] := by
  refine ⟨?_, rfl, by decide +kernel, by decide +kernel⟩
  intro i j a s b t n hi hj hs ht
  obtain ⟨hi', e1⟩ := List.getElem?_eq_some_iff.mp hi
  obtain ⟨hj', e2⟩ := List.getElem?_eq_some_iff.mp hj
  match i, j, hi', hj' with
  | 0, 0, _, _ | 0, 1, _, _ | 0, 2, _, _ | 1, 0, _, _ | 1, 1, _, _ | 1, 2, _, _ | 2, 0, _, _ | 2, 1, _, _
  | 2, 2, _, _ =>
    simp only [exBlamed, List.getElem_cons_zero, List.getElem_cons_succ, Prod.mk.injEq] at e1 e2
    obtain ⟨_, rfl⟩ := e1
    obtain ⟨_, rfl⟩ := e2
    have h1 := hs.1
    have h2 := ht.1
    simp only [List.mem_cons, List.not_mem_nil, or_false] at h1 h2
    first
      | rfl
      | (rw [h1] at h2; revert h2; decide)

/-- The messages about a program with two functions `f` that the tool knows nothing about: those about a function are
given once for each of them. -/
example (search : TagSearch) :
    runLog id sameOrder search { exBlamed with target := .other, stackSizes := [] , defines := [⟨c!"main", exSig, []⟩] }
      ⟨[], none⟩ none =
      [.noUsage c!"main", .noUsage c!"f", .noType c!"f", .noUsage c!"f", .noType c!"f", .untypedSymbols,
        .noFigures] := by
  rw [runLog_other rfl search linearSearch _ ⟨[], none⟩]
  decide +kernel

end run

end CallStack
