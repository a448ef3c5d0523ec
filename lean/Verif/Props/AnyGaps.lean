import Verif.Proof.AnyGaps
import Verif.Props.SharedGaps
import Verif.Props.AnyReport

/-!
Property C131: what the tool says about the gaps in its knowledge, whatever the names of the functions.
-/

namespace CallStack

section run

variable {demangle : Str → Str} {ord : HashOrder} {search : TagSearch} {p : Program} {elf : Elf}

/-- The machine code of the function that a node shows was looked at. -/
theorem Program.LocalNodeAfter.decoded {m i : Nat} {l : Local} {c : Str} (h : p.LocalNodeAfter search elf m (i + 1) l)
    (hl : p.CodeFor i c m) : ∃ known address size r name, p.LocalNodeAfter search elf m i (figureLocal known) ∧
      p.Decoded search elf i address size r ∧ p.CodeFor i name m ∧
      LocalPolicy (r.modifiesSp = true) (∃ x, p.TakenIn m (.asm x)) (OutlinedName name) known r.stack l := by
  cases h with
  | code h1 h2 h3 h5 => exact ⟨_, _, _, _, _, h1, h3, h2, h5⟩
  | other _ h2 => exact absurd hl (h2 _)

theorem Program.LocalNodeAfter.earlier {m k : Nat} {l : Local} (h : p.LocalNodeAfter search elf m k l) {i : Nat} (hi : i ≤ k) :
    ∃ l', p.LocalNodeAfter search elf m i l' := by
  induction h with
  | compiler h1 =>
    obtain rfl : i = 0 := by omega
    exact ⟨_, .compiler h1⟩
  | @code k _ _ _ _ _ _ h1 h2 h3 h5 ih =>
    by_cases hk : i = k + 1
    · subst hk
      exact ⟨_, .code h1 h2 h3 h5⟩
    · exact ih (by omega)
  | @other k _ h1 h2 ih =>
    by_cases hk : i = k + 1
    · subst hk
      exact ⟨_, .other h1 h2⟩
    · exact ih (by omega)

/-- **C131** What is announced, as C86 but whatever the names. There is a warning for a function of unknown usage on other
targets if the compiler gives no figure under its names. On thumb targets there is one if, when some machine code that
counts for the function has been looked at, neither the compiler nor the code so far that counts for it gave a figure. -/
theorem C131_gaps {start : Option Str} {out : Graph × List (List Nat)} (decls : p.DeclaresOnce) (h : finalGraph demangle ord search p elf start = .ok out) :
    let log := runLog demangle ord search p elf start
    (∀ n, .noUsage n ∈ log ↔
      (p.target.isThumb = false ∧ ∃ i, p.Principal i n ∧ ∀ k, ¬ p.Frame i k) ∨
      (p.target.isThumb = true ∧ ∃ i m, p.CodeFor i n m ∧
        p.LocalNodeAfter search elf m (i + 1) .unknown)) ∧
    (.noText ∈ log ↔ p.TextMissing elf) ∧
    (∀ n, .noType n ∈ log ↔ ∃ i, p.Principal i n ∧ p.Untyped i ∧ ¬ OutlinedName n) ∧
    (.untypedSymbols ∈ log ↔ p.SomeUntyped) ∧
    (∀ n, .untypedCall n ∈ log ↔ ∃ m, p.LastShown n m ∧ p.JumpsOut search elf m) := by
  obtain ⟨st, g, g1, h1, h2⟩ := finalGraph_start h
  obtain ⟨cs, st0, stIr, f⟩ := callGraph_shared h1
  have hmem := f.mem_log h1 h2
  have hlt : ∀ {i n}, p.Principal i n → ∃ e, p.defined[i]? = some e := fun hp =>
    ⟨_, List.getElem?_eq_getElem (f.sym.len ▸ (List.getElem?_eq_some_iff.mp (f.principal.mp hp)).1)⟩
  refine ⟨fun n => ?_, ?_, fun n => ?_, ?_, fun n => ?_⟩
  · rw [hmem]
    simp only [LogMsg.ofSym, LogMsg.ofStmt, LogMsg.ofCode, LogMsg.ofIndirect, LogMsg.ofStart, Bool.false_eq_true, true_and,
      reduceCtorEq, false_and, or_false, false_or, StepMsgNode,
      f.mem_symsLog, f.mem_machineLog_any, mem_overrideLog, LogMsg.noUsage.injEq, exists_false, and_false]
    constructor
    · rintro (⟨i, e, c, h3, h4, rfl, h5, h6⟩ | ⟨ht, i, c, m, address, size, t, l, l', h3, h5, h6, h7, rfl, rfl⟩)
      · refine .inl ⟨h6, i, f.principal.mpr h4, fun k hk => ?_⟩
        rw [(frame_iff h3 (f.sym.canon i e n h3 h4) k).mp hk] at h5
        simp at h5
      · exact .inr ⟨ht, i, m, h3, h7⟩
    · rintro (⟨ht, i, h3, h4⟩ | ⟨ht, i, m, h4, h5⟩)
      · obtain ⟨e, he⟩ := hlt h3
        have hc := f.principal.mp h3
        refine .inl ⟨i, e, n, he, hc, rfl, ?_, ht⟩
        cases hm : mget n p.stackSizes with
        | none => rfl
        | some k => exact absurd ((frame_iff he (f.sym.canon i _ n he hc) k).mpr hm) (h4 k)
      · obtain ⟨known, address, size, r, name, h6, h7, _⟩ := h5.decoded h4
        exact .inr ⟨ht, i, n, m, address, size, r, _, _, h4, h7, h6, h5, rfl, rfl⟩
  · rw [hmem]
    simp only [LogMsg.ofSym, LogMsg.ofStmt, LogMsg.ofCode, LogMsg.ofIndirect, LogMsg.ofStart, Bool.false_eq_true, true_and,
      reduceCtorEq, false_and, or_false, false_or, StepMsgNode,
      f.mem_machineLog_any, mem_overrideLog, exists_false, and_false, true_and]
    rfl
  · rw [hmem]
    simp only [LogMsg.ofSym, LogMsg.ofStmt, LogMsg.ofCode, LogMsg.ofIndirect, LogMsg.ofStart, Bool.false_eq_true, true_and,
      reduceCtorEq, false_and, or_false, false_or,
      f.mem_symsLog, LogMsg.noType.injEq]
    constructor
    · rintro ⟨i, e, c, h3, h4, rfl, h5, h6⟩
      obtain ⟨c', hc', _, hcm⟩ := f.canon_at h3
      rw [h4] at hc'
      cases hc'
      refine ⟨i, f.principal.mpr h4, ⟨⟨n, e.1, e.2, h3, (mem_realNames _ _).mp hcm⟩, (symSig_none decls h3).mp h5⟩, ?_⟩
      rw [← isOutlined_iff, h6]
      simp
    · rintro ⟨i, h3, ⟨_, h4⟩, h5⟩
      obtain ⟨e, he⟩ := hlt h3
      refine ⟨i, _, n, he, f.principal.mp h3, rfl, (symSig_none decls he).mpr h4, ?_⟩
      rw [← isOutlined_iff] at h5
      simpa using h5
  · rw [hmem]
    simp only [LogMsg.ofSym, LogMsg.ofStmt, LogMsg.ofCode, LogMsg.ofIndirect, LogMsg.ofStart, Bool.false_eq_true, true_and,
      reduceCtorEq, false_and, or_false, false_or]
    unfold indirectsLog Program.SomeUntyped
    simp only [List.mem_append, List.mem_flatMap, mem_indirectStepLog, reduceCtorEq, false_and, or_false,
      and_false, exists_false]
    rw [← f.untyped decls]
    cases st.hasUntypedSymbols <;> simp
  · rw [hmem]
    simp only [LogMsg.ofSym, LogMsg.ofStmt, LogMsg.ofCode, LogMsg.ofIndirect, LogMsg.ofStart, Bool.false_eq_true, true_and,
      reduceCtorEq, false_and, or_false, false_or, StepMsgNode,
      f.mem_machineLog_any, mem_overrideLog, LogMsg.untypedCall.injEq, exists_false, and_false]
    constructor
    · rintro ⟨ht, i, c, m, address, size, t, l, l', h3, h5, h6, h7, rfl, h8, h9⟩
      obtain ⟨_, _, _, _, _, _, _, h4⟩ := id h3
      exact ⟨m, h4, ht, i, n, address, size, t, h3, (f.defined_any n).mp h8, h5, h9⟩
    · rintro ⟨m, h3, ht, i, c, address, size, t, h4, h5, h6, h7⟩
      obtain ⟨_, _, _, _, he, _, _, h8⟩ := id h4
      obtain rfl : c = n := by
        have k1 := f.principal.mp h8.1
        rw [f.principal.mp h3.1] at k1
        exact (Option.some.inj k1).symm
      have hx : elf.text ≠ none := by
        obtain ⟨_, _, _, _, _, _, h7, _⟩ := h6
        rw [h7]
        simp
      have hi := (List.getElem?_eq_some_iff.mp he).1
      obtain ⟨l, l', h9, h10⟩ : ∃ l l', p.LocalNodeAfter search elf m i l ∧ p.LocalNodeAfter search elf m (i + 1) l' := by
        have := f.localNode h4.lt
        generalize g.locOf m = x at this
        cases this with
        | code _ _ h7 =>
          obtain ⟨l, h8⟩ := h7.earlier (Nat.le_of_lt hi)
          obtain ⟨l', h9⟩ := h7.earlier hi
          exact ⟨l, l', h8, h9⟩
        | compiler h7 _ =>
          rcases h7 with h7 | h7
          · rw [ht] at h7
            simp at h7
          · exact absurd h7 hx
      exact ⟨ht, i, c, m, address, size, t, l, l', h4, h6, h9, h10, rfl, (f.defined_any c).mpr h5, h7⟩

/-- **C131** Every function of unknown usage that some machine code counts for is announced, unless it is said that the
machine code is missing. -/
theorem C131_unknown_announced {start : Option Str} {out : Graph × List (List Nat)} (decls : p.DeclaresOnce)
    (h : finalGraph demangle ord search p elf start = .ok out) {i m : Nat} {n : Str} (hl : p.CodeFor i n m)
    (hu : p.LocalNode search elf m .unknown) :
    .noUsage n ∈ runLog demangle ord search p elf start ∨ .noText ∈ runLog demangle ord search p elf start := by
  have key := C131_gaps decls h
  rw [key.1, key.2.1]
  obtain ⟨st, g, g1, h1, h2⟩ := finalGraph_start h
  obtain ⟨cs, st0, stIr, f⟩ := callGraph_shared h1
  obtain ⟨_, _, _, _, he, _, _, hls⟩ := id hl
  generalize hg : Local.unknown = l at hu
  cases hu with
  | code ht hx h3 =>
    subst hg
    obtain ⟨j, _, c, h4, h5⟩ := h3.last_step (List.getElem?_eq_some_iff.mp he).1 hl
    obtain ⟨_, _, _, _, _, _, _, h6⟩ := id h4
    obtain rfl : n = c := by
      have k1 := f.principal.mp hls.1
      rw [f.principal.mp h6.1] at k1
      exact (Option.some.inj k1).symm
    exact .inl (.inr ⟨ht, j, m, h4, h5⟩)
  | @compiler llvm ht hf =>
    cases llvm with
    | some k => cases hg
    | none =>
      cases hth : p.target.isThumb with
      | false => exact .inl (.inl ⟨rfl, m, hls.1, hf⟩)
      | true =>
        rcases ht with ht | ht
        · rw [hth] at ht
          simp at ht
        · exact .inr ⟨hth, ht⟩

/-- **C131** The overrides that are announced, as C87 but whatever the names: the message names the function that
the code counts for, and shows the figure that was left for it by the compiler and the code before. -/
theorem C131_overrides {start : Option Str} {out : Graph × List (List Nat)}
    (h : finalGraph demangle ord search p elf start = .ok out) :
    let log := runLog demangle ord search p elf start
    (∀ n k k', .overrideAsm n k k' ∈ log ↔ p.target.isThumb = true ∧ ∃ i m, p.CodeFor i n m ∧
      p.LocalNodeAfter search elf m i (.exact k) ∧ p.LocalNodeAfter search elf m (i + 1) (.exact k') ∧ k ≠ k' ∧
      ∃ x, p.TakenIn m (.asm x)) ∧
    (∀ n k k', .overrideOutlined n k k' ∈ log ↔ p.target.isThumb = true ∧ ∃ i m, p.CodeFor i n m ∧
      p.LocalNodeAfter search elf m i (.exact k) ∧ p.LocalNodeAfter search elf m (i + 1) (.exact k') ∧ k ≠ k' ∧
      ¬ ∃ x, p.TakenIn m (.asm x)) ∧
    (∀ n k k', .overrideOutlined n k k' ∈ log → OutlinedName n ∧ k = 0) := by
  obtain ⟨st, g, g1, h1, h2⟩ := finalGraph_start h
  obtain ⟨cs, st0, stIr, f⟩ := callGraph_shared h1
  have hmem := f.mem_log h1 h2
  -- the cases of the policy where the figures differ
  have key : ∀ {i m n k k'}, p.target.isThumb = true → p.CodeFor i n m →
      p.LocalNodeAfter search elf m i (.exact k) → p.LocalNodeAfter search elf m (i + 1) (.exact k') → k ≠ k' →
      ∃ address size t, p.Decoded search elf i address size t ∧ t.stack = some k' ∧
        (k' ≠ 0 ↔ t.modifiesSp = true) ∧
        ((∃ x, p.TakenIn m (.asm x)) ∨ ((¬ ∃ x, p.TakenIn m (.asm x)) ∧ OutlinedName n ∧ k = 0)) := by
    intro i m n k k' ht hl ha hb hne
    obtain ⟨known, address, size, t, name, h3, h4, h5, h6⟩ := hb.decoded hl
    have hk : figureLocal known = .exact k := f.localNodeAfter_unique ht hl.lt i _ _ h3 ha
    obtain rfl : known = some k := by
      cases known with
      | none => cases hk
      | some x => cases hk; rfl
    obtain ⟨hn, _⟩ := f.codeFor_unique h5 hl
    subst hn
    refine ⟨address, size, t, h4, ?_⟩
    generalize hg : (Local.exact k') = l at h6
    generalize t.stack = our at h6
    cases h6 with
    | only _ _ => exact absurd (Local.exact.inj hg).symm hne
    | agree _ _ => exact absurd (Local.exact.inj hg).symm hne
    | asm _ _ b1 b2 b3 =>
      obtain rfl := Local.exact.inj hg
      exact ⟨rfl, b3, .inl b2⟩
    | outlinedZero _ b1 b2 b3 b4 =>
      obtain rfl := Local.exact.inj hg
      exact ⟨rfl, ⟨fun _ => b4, fun _ => b1⟩, .inr ⟨b2, b3, rfl⟩⟩
    | outlined _ _ _ _ _ _ _ _ => exact absurd (Local.exact.inj hg).symm hne
  -- what the message tells about the figures
  have after : ∀ {i m c address size t l l' k k'}, p.target.isThumb = true → p.CodeFor i c m →
      p.Decoded search elf i address size t → p.LocalNodeAfter search elf m i l → p.LocalNodeAfter search elf m (i + 1) l' →
      l = .exact k → t.stack = some k' → k ≠ k' →
      ((∃ x, p.TakenIn m (.asm x)) ∨ ((¬ ∃ x, p.TakenIn m (.asm x)) ∧ OutlinedName c ∧ k = 0)) →
      p.LocalNodeAfter search elf m i (.exact k) ∧ p.LocalNodeAfter search elf m (i + 1) (.exact k') := by
    rintro i m c address size t _ l' k k' ht hl hd ha hb rfl hs hne hor
    refine ⟨ha, ?_⟩
    obtain ⟨known, address', size', t', name, h3, h4, h5, h6⟩ := id (hb.decoded hl)
    have hk : figureLocal known = .exact k := f.localNodeAfter_unique ht hl.lt i _ _ h3 ha
    obtain rfl : known = some k := by
      cases known with
      | none => cases hk
      | some x => cases hk; rfl
    obtain rfl := (codeOf_iff.mpr ⟨ht, hd⟩).unique (codeOf_iff.mpr ⟨ht, h4⟩)
    rw [hs] at h6
    cases h6 with
    | agree _ _ => exact absurd rfl hne
    | asm _ _ _ _ _ => exact hb
    | outlinedZero _ _ _ _ _ => exact hb
    | outlined _ _ _ b2 _ b4 _ _ =>
      rcases hor with b5 | ⟨_, _, b5⟩
      · exact absurd b5 b4
      · exact absurd b5 b2
  have hpar : ∀ x : LogMsg, (∀ a, x ≠ .noUsage a) → (∀ a, x ≠ .untypedCall a) → x ≠ .noText →
      (x ∈ machineLog search p elf stIr ↔ p.target.isThumb = true ∧ ∃ i m c k k', p.CodeFor i c m ∧
        p.LocalNodeAfter search elf m i (.exact k) ∧ p.LocalNodeAfter search elf m (i + 1) (.exact k') ∧ k ≠ k' ∧
        ((x = .overrideAsm c k k' ∧ ∃ x, p.TakenIn m (.asm x)) ∨
          (x = .overrideOutlined c k k' ∧ (¬ ∃ x, p.TakenIn m (.asm x)) ∧ OutlinedName c ∧ k = 0))) := by
    intro x m1 m2 m3
    rw [f.mem_machineLog_any]
    simp only [StepMsgNode, m1, m2, m3, false_and, or_false, false_or, mem_overrideLog]
    refine and_congr_right fun ht => ?_
    constructor
    · rintro ⟨i, c, m, address, size, t, l, l', h4, h5, h6, h7, k, k', h8, h9, h10, h11, h12⟩
      obtain ⟨_, _, _, _, _, _, _, hls⟩ := id h4
      have h13 : (x = .overrideAsm c k k' ∧ ∃ x, p.TakenIn m (.asm x)) ∨
          (x = .overrideOutlined c k k' ∧ (¬ ∃ x, p.TakenIn m (.asm x)) ∧ OutlinedName c ∧ k = 0) := by
        rw [← f.asm_any hls, ← isOutlined_iff]
        simpa using h12
      obtain ⟨h14, h15⟩ := after ht h4 h5 h6 h7 h8 h9 h11 (h13.imp And.right And.right)
      exact ⟨i, m, c, k, k', h4, h14, h15, h11, h13⟩
    · rintro ⟨i, m, c, k, k', h4, h5, h6, h7, h8⟩
      obtain ⟨_, _, _, _, _, _, _, hls⟩ := id h4
      obtain ⟨address, size, t, h10, h11, h12, _⟩ := key ht h4 h5 h6 h7
      refine ⟨i, c, m, address, size, t, _, _, h4, h10, h5, h6, k, k', rfl, h11, h12, h7, ?_⟩
      rw [← f.asm_any hls, ← isOutlined_iff] at h8
      simpa using h8
  refine ⟨fun n k k' => ?_, fun n k k' => ?_, fun n k k' => ?_⟩
  · rw [hmem]
    simp only [LogMsg.ofSym, LogMsg.ofStmt, LogMsg.ofCode, LogMsg.ofIndirect, LogMsg.ofStart, Bool.false_eq_true, true_and,
      reduceCtorEq, false_and, or_false, false_or]
    rw [hpar _ (by simp) (by simp) (by simp)]
    simp only [LogMsg.overrideAsm.injEq, reduceCtorEq, false_and, or_false]
    refine and_congr_right fun _ => ?_
    constructor
    · rintro ⟨i, m, c, _, _, h4, h5, h6, h7, ⟨rfl, rfl, rfl⟩, h8⟩
      exact ⟨i, m, h4, h5, h6, h7, h8⟩
    · rintro ⟨i, m, h4, h5, h6, h7, h8⟩
      exact ⟨i, m, n, k, k', h4, h5, h6, h7, ⟨rfl, rfl, rfl⟩, h8⟩
  · rw [hmem]
    simp only [LogMsg.ofSym, LogMsg.ofStmt, LogMsg.ofCode, LogMsg.ofIndirect, LogMsg.ofStart, Bool.false_eq_true, true_and,
      reduceCtorEq, false_and, or_false, false_or]
    rw [hpar _ (by simp) (by simp) (by simp)]
    simp only [LogMsg.overrideOutlined.injEq, reduceCtorEq, false_and, false_or]
    refine and_congr_right fun ht => ?_
    constructor
    · rintro ⟨i, m, c, _, _, h4, h5, h6, h7, ⟨rfl, rfl, rfl⟩, h8, _⟩
      exact ⟨i, m, h4, h5, h6, h7, h8⟩
    · rintro ⟨i, m, h4, h5, h6, h7, h8⟩
      obtain ⟨_, _, _, _, _, _, h9⟩ := key ht h4 h5 h6 h7
      rcases h9 with h9 | h9
      · exact absurd h9 h8
      · exact ⟨i, m, n, k, k', h4, h5, h6, h7, ⟨rfl, rfl, rfl⟩, h9⟩
  · rw [hmem]
    simp only [LogMsg.ofSym, LogMsg.ofStmt, LogMsg.ofCode, LogMsg.ofIndirect, LogMsg.ofStart, Bool.false_eq_true, true_and,
      reduceCtorEq, false_and, or_false, false_or]
    rw [hpar _ (by simp) (by simp) (by simp)]
    simp only [LogMsg.overrideOutlined.injEq, reduceCtorEq, false_and, false_or]
    rintro ⟨_, i, m, c, _, _, _, _, _, _, ⟨rfl, rfl, rfl⟩, _, h10, rfl⟩
    exact ⟨h10, rfl⟩

end run

/-! ### Examples -/

/-- **C131** The warning about an indirect call can name a function without one: here it is in the code of `left`, which
counts for `right`, and nothing is said about `left`. -/
theorem C131_wrong_warning :
    (exThumbHomonyms.Principal 1 c!"left" ∧ ∃ address size r,
      exThumbHomonyms.Decoded linearSearch exThumbTwinElf 1 address size r ∧ r.indirect = true) ∧
    (exThumbHomonyms.Principal 2 c!"right" ∧ ∃ address size r,
      exThumbHomonyms.Decoded linearSearch exThumbTwinElf 2 address size r ∧ r.indirect = false) ∧
    .untypedCall c!"right" ∈ runLog id sameOrder linearSearch exThumbHomonyms exThumbTwinElf none ∧
    .untypedCall c!"left" ∉ runLog id sameOrder linearSearch exThumbHomonyms exThumbTwinElf none := by
  have pr : ∀ n ∈ [c!"swap"], IsMappingSymbol n ∨ ∀ k', ¬ exThumbHomonyms.Reported n k' := by
    refine fun n hn => .inr fun k hk => ?_
    rw [List.mem_singleton.mp hn] at hk
    cases hk
  refine ⟨⟨?_, 264, 4, ⟨[], [], true, false, some 0⟩, ?_, rfl⟩, ⟨?_, 268, 2, ⟨[], [], false, false, some 0⟩, ?_, rfl⟩,
    by decide +kernel, by decide +kernel⟩
  · exact ⟨_, _, [c!"swap"], [], rfl, rfl, by rw [← isTag_iff]; decide, .inl ⟨⟨0, rfl⟩, pr⟩⟩
  · exact decoded_iff.mpr ⟨_, _, _, _, rfl, rfl, rfl, by decide +kernel, by decide, by decide, by decide +kernel⟩
  · exact ⟨_, _, [c!"swap"], [], rfl, rfl, by rw [← isTag_iff]; decide, .inl ⟨⟨0, rfl⟩, pr⟩⟩
  · exact decoded_iff.mpr ⟨_, _, _, _, rfl, rfl, rfl, by decide +kernel, by decide, by decide, by decide +kernel⟩

/-- `exAsmHomonyms` where `right` contains inline assembly, so that the code counts. -/
def exOverridden : Program :=
  { exAsmHomonyms c!"swap" with defines := [⟨c!"right", exSig, [.asm c!"nop"]⟩] }

/-- The figure of `right` is overridden by that of the code of `left`, and then by that of its own code. -/
example : (∃ out, finalGraph id sameOrder linearSearch exOverridden exAsmTwinsElf none = .ok out) ∧
    .overrideAsm c!"right" 64 8 ∈ runLog id sameOrder linearSearch exOverridden exAsmTwinsElf none ∧
    .overrideAsm c!"right" 8 64 ∈ runLog id sameOrder linearSearch exOverridden exAsmTwinsElf none := by
  refine ⟨?_, by decide +kernel, by decide +kernel⟩
  have h : (finalGraph id sameOrder linearSearch exOverridden exAsmTwinsElf none).toOption.isSome = true := by
    decide +kernel
  cases hf : finalGraph id sameOrder linearSearch exOverridden exAsmTwinsElf none with
  | error e =>
    rw [hf] at h
    cases h
  | ok r => exact ⟨r, rfl⟩

end CallStack
