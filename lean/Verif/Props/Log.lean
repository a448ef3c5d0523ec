import Verif.Proof.LogShown
import Verif.Props.Figures
import Verif.Props.Filter

/-!
Properties C86-C91: what the tool says about the gaps in its knowledge (all `warn!` and `error!` of main.rs).
-/

namespace CallStack

theorem finalGraph_start {demangle : Str → Str} {ord : HashOrder} {search : TagSearch} {p : Program}
    {elf : Elf} {start : Option Str} {out : Graph × List (List Nat)}
    (h : finalGraph demangle ord search p elf start = .ok out) :
    ∃ st g g1, callGraph demangle ord search p elf = .ok (st, g) ∧
      applyStart demangle st.indices start g = .ok g1 := by
  unfold finalGraph at h
  split at h
  · simp at h
  · rename_i st g hc
    split at h
    · simp at h
    · rename_i g1 hs
      exact ⟨st, g, g1, hc, hs⟩

theorem runLog_other {demangle : Str → Str} {ord : HashOrder} {p : Program}
    (ht : p.target.isThumb = false) (search search' : TagSearch) (elf elf' : Elf) (start : Option Str) :
    runLog demangle ord search p elf start = runLog demangle ord search' p elf' start := by
  unfold runLog machineLog machinePass
  simp [ht]

/-- `main` contains two pieces of inline assembly, two calls of an intrinsic, a call through a bitcast and an
indirect call. The frame of `f` is not known; neither is anything about `raw`. -/
def exLog : Program :=
  { target := .other
    defined := [(8, ⟨[c!"main"], 4⟩), (16, ⟨[c!"f"], 8⟩), (24, ⟨[c!"raw"], 8⟩)]
    undefined := [c!"ext"]
    stackSizes := [(c!"main", 8)]
    defines := [⟨c!"main", exSig, [.asm c!"nop", .directCall c!"llvm.ctlz.i32", .asm c!"wfi",
        .directCall c!"llvm.ctlz.i32", .bitcastCall (some c!"ext"), .indirectCall exSig]⟩,
      ⟨c!"f", exSig, []⟩]
    declares := [] }

/-- All messages about that program. -/
theorem exLog_log (search : TagSearch) :
    runLog id sameOrder search exLog ⟨[], none⟩ (some c!"start") =
      [.noUsage c!"f", .noUsage c!"raw", .noType c!"raw", .asm c!"nop" c!"main", .inlined c!"llvm.ctlz.i32",
        .noInfo c!"ext", .untypedSymbols, .noStart] := by
  rw [runLog_other rfl search linearSearch _ ⟨[], none⟩]
  decide +kernel

/-- `main` contains inline assembly that LLVM did not account for; the other function was made by the outliner. -/
def exOverride : Program :=
  { target := .thumbv7m
    defined := [(256, ⟨[c!"main"], 8⟩), (264, ⟨[c!"OUTLINED_FUNCTION_0"], 4⟩)]
    undefined := []
    stackSizes := [(c!"main", 0), (c!"OUTLINED_FUNCTION_0", 0)]
    defines := [⟨c!"main", exSig, [.asm c!"push {r7, lr}"]⟩]
    declares := [] }

/-- push {r7, lr}; bl 264; pop {r7, pc}; push {r7, lr}; pop {r7, pc} -/
def exOverrideElf : Elf :=
  { symtab := [(256, c!"$t"), (264, c!"$t")]
    text := some (256, [0x80, 0xB5, 0x00, 0xF0, 0x01, 0xF8, 0x80, 0xBD, 0x80, 0xB5, 0x80, 0xBD]) }

/-- **C86** Everything the tool does not know about the functions of the executable is announced, and nothing
else is. There is a warning for each function of unknown stack usage (if the code section is missing, an error
about that instead); for each function without a type that may be called indirectly, and one about indirect calls
if there is such a function; and for each indirect call of unknown type in machine code. -/
theorem C86_gaps_announced {demangle : Str → Str} {ord : HashOrder} {search : TagSearch} {p : Program}
    {elf : Elf} {start : Option Str} {out : Graph × List (List Nat)} (once : p.NamesOnce)
    (decls : p.DeclaresOnce) (h : finalGraph demangle ord search p elf start = .ok out) :
    let log := runLog demangle ord search p elf start
    (∀ n, .noUsage n ∈ log ↔
      ∃ i, p.Principal i n ∧ p.LocalIs search elf i .unknown ∧ ¬ p.TextMissing elf) ∧
    (.noText ∈ log ↔ p.TextMissing elf) ∧
    (∀ n, .noType n ∈ log ↔ ∃ i, p.Principal i n ∧ p.Untyped i ∧ ¬ OutlinedName n) ∧
    (.untypedSymbols ∈ log ↔ p.SomeUntyped) ∧
    (∀ n, .untypedCall n ∈ log ↔ ∃ i, p.Principal i n ∧ p.CodeLeaves search elf i) := by
  obtain ⟨st, g, g1, h1, h2⟩ := finalGraph_start h
  obtain ⟨cs, ext, st0, stIr, r⟩ := callGraph_facts once h1
  have hmem := r.mem_log' once h2
  have hlt : ∀ {i n}, p.Principal i n → i < cs.length := fun hp =>
    (List.getElem?_eq_some_iff.mp (r.ir.principal.mp hp)).1
  refine ⟨fun n => ?_, ?_, fun n => ?_, ?_, fun n => ?_⟩
  · rw [hmem]
    simp only [LogMsg.ofSym, LogMsg.ofStmt, LogMsg.ofCode, LogMsg.ofIndirect, LogMsg.ofStart, Bool.false_eq_true, true_and,
      reduceCtorEq, false_and, or_false, false_or,
      r.mem_symsLog, r.mem_machineLog once, mem_overrideLog, LogMsg.noUsage.injEq, exists_false, and_false]
    constructor
    · rintro (⟨i, e, c, h3, h4, rfl, h5, h6⟩ | ⟨i, c, address, size, t, h3, h4, rfl, h5⟩)
      · refine ⟨i, r.ir.principal.mpr h4, .none (.inl h6) (fun k hk => ?_), fun hx => ?_⟩
        · rw [(frame_iff h3 (r.ir.sym.canon i e n h3 h4) k).mp hk] at h5
          simp at h5
        · rw [hx.1] at h6
          simp at h6
      · refine ⟨i, r.ir.principal.mpr h3, ?_, fun hx => ?_⟩
        · rw [← h5]
          exact r.localIs once (List.getElem?_eq_some_iff.mp h3).1
        · obtain ⟨_, _, _, _, h6, _⟩ := h4
          rw [hx.2] at h6
          simp at h6
    · rintro ⟨i, h3, h4, h5⟩
      have hc := r.ir.principal.mp h3
      have hi := hlt h3
      have hl : i < p.defined.length := by rw [← r.live_length]; exact hi
      have he := List.getElem?_eq_getElem hl
      have hu := ((r.localIs_iff once hi _).mp h4).symm
      cases h4 with
      | code h6 h7 => exact .inr ⟨i, n, _, _, _, hc, codeOf_iff.mpr ⟨h6, h7⟩, rfl, hu⟩
      | none h6 h7 =>
        rcases h6 with h6 | h6
        · refine .inl ⟨i, _, n, he, hc, rfl, ?_, h6⟩
          cases hm : mget n p.stackSizes with
          | none => rfl
          | some k => exact absurd ((frame_iff he (r.ir.sym.canon i _ n he hc) k).mpr hm) (h7 k)
        · cases ht : p.target.isThumb with
          | true => exact absurd ⟨ht, h6⟩ h5
          | false =>
            refine .inl ⟨i, _, n, he, hc, rfl, ?_, rfl⟩
            cases hm : mget n p.stackSizes with
            | none => rfl
            | some k => exact absurd ((frame_iff he (r.ir.sym.canon i _ n he hc) k).mpr hm) (h7 k)
  · rw [hmem]
    simp only [LogMsg.ofSym, LogMsg.ofStmt, LogMsg.ofCode, LogMsg.ofIndirect, LogMsg.ofStart, Bool.false_eq_true, true_and,
      reduceCtorEq, false_and, or_false, false_or,
      r.mem_machineLog once, mem_overrideLog, exists_false, and_false, true_and]
    rfl
  · rw [hmem]
    simp only [LogMsg.ofSym, LogMsg.ofStmt, LogMsg.ofCode, LogMsg.ofIndirect, LogMsg.ofStart, Bool.false_eq_true, true_and,
      reduceCtorEq, false_and, or_false, false_or,
      r.mem_symsLog, LogMsg.noType.injEq]
    constructor
    · rintro ⟨i, e, c, h3, h4, rfl, h5, h6⟩
      refine ⟨i, r.ir.principal.mpr h4, ⟨⟨n, r.ir.self n i h4⟩, (symSig_none decls h3).mp h5⟩, ?_⟩
      rw [← isOutlined_iff, h6]
      simp
    · rintro ⟨i, h3, ⟨_, h4⟩, h5⟩
      have hl : i < p.defined.length := by rw [← r.live_length]; exact hlt h3
      have he := List.getElem?_eq_getElem hl
      refine ⟨i, _, n, he, r.ir.principal.mp h3, rfl, (symSig_none decls he).mpr h4, ?_⟩
      rw [← isOutlined_iff] at h5
      simpa using h5
  · rw [hmem]
    simp only [LogMsg.ofSym, LogMsg.ofStmt, LogMsg.ofCode, LogMsg.ofIndirect, LogMsg.ofStart, Bool.false_eq_true, true_and,
      reduceCtorEq, false_and, or_false, false_or]
    unfold indirectsLog Program.SomeUntyped
    simp only [List.mem_append, List.mem_flatMap, mem_indirectStepLog, reduceCtorEq, false_and, or_false,
      and_false, exists_false]
    have hu := r.untyped decls
    simp only [← isOutlined_iff, Bool.not_eq_true]
    rw [← hu]
    cases st.hasUntypedSymbols <;> simp
  · rw [hmem]
    simp only [LogMsg.ofSym, LogMsg.ofStmt, LogMsg.ofCode, LogMsg.ofIndirect, LogMsg.ofStart, Bool.false_eq_true, true_and,
      reduceCtorEq, false_and, or_false, false_or,
      r.mem_machineLog once, mem_overrideLog, LogMsg.untypedCall.injEq, exists_false, and_false]
    constructor
    · rintro ⟨i, c, address, size, t, h3, h4, rfl, h5, h6⟩
      refine ⟨i, r.ir.principal.mpr h3, (r.codeUnknown_iff i).mp ⟨address, size, t, n, h4, h3, ?_, h6⟩⟩
      rw [← r.ir.defined]
      exact h5
    · rintro ⟨i, h3, h4⟩
      obtain ⟨address, size, t, c, h5, h6, h7, h8⟩ := (r.codeUnknown_iff i).mpr h4
      have hc := r.ir.principal.mp h3
      rw [h6] at hc
      obtain rfl := Option.some.inj hc
      refine ⟨i, c, address, size, t, h6, h5, rfl, ?_, h8⟩
      rw [r.ir.defined]
      exact h7

/-- The hypotheses are met by `exLog`; see `exLog_log` for the messages. -/
example (search : TagSearch) : exLog.NamesOnce ∧ exLog.DeclaresOnce ∧
    (∃ g cs, finalGraph id sameOrder search exLog ⟨[], none⟩ (some c!"start") = .ok (g, cs) ∧
      g.locOf 1 = .unknown) := by
  refine ⟨namesOnce_of (by decide), by unfold Program.DeclaresOnce; decide,
    finalGraph_eval rfl search _ _ (fun g _ => g.locOf 1 = _) (by decide +kernel)⟩

/-- If the code section is missing, only that is said; otherwise an indirect call in machine code is announced. -/
example : runLog id sameOrder linearSearch exThumb ⟨[], none⟩ none = [.noType c!"f", .noText, .untypedSymbols] ∧
    runLog id sameOrder linearSearch exThumb exThumbElf none =
      [.noType c!"f", .untypedCall c!"f", .untypedSymbols] := by
  decide +kernel

/-- **C87** Wherever the tool overrides the figure of the compiler by its own, it says so, with both figures, and
says whether that is because of inline assembly or because the function was made by the outliner; and it says so
only then. -/
theorem C87_overrides_announced {demangle : Str → Str} {ord : HashOrder} {search : TagSearch} {p : Program}
    {elf : Elf} {start : Option Str} {out : Graph × List (List Nat)} (once : p.NamesOnce)
    (h : finalGraph demangle ord search p elf start = .ok out) :
    let log := runLog demangle ord search p elf start
    (∀ n k k', .overrideAsm n k k' ∈ log ↔ ∃ i, p.Principal i n ∧ p.Frame i k ∧
      p.LocalIs search elf i (.exact k') ∧ k ≠ k' ∧ ∃ x, p.Contains i (.asm x)) ∧
    (∀ n k k', .overrideOutlined n k k' ∈ log ↔ ∃ i, p.Principal i n ∧ p.Frame i k ∧
      p.LocalIs search elf i (.exact k') ∧ k ≠ k' ∧ ¬ ∃ x, p.Contains i (.asm x)) ∧
    (∀ n k k', .overrideOutlined n k k' ∈ log → OutlinedName n ∧ k = 0) := by
  obtain ⟨st, g, g1, h1, h2⟩ := finalGraph_start h
  obtain ⟨cs, ext, st0, stIr, r⟩ := callGraph_facts once h1
  have hmem := r.mem_log' once h2
  have hlt : ∀ {i n}, p.Principal i n → i < cs.length := fun hp =>
    (List.getElem?_eq_some_iff.mp (r.ir.principal.mp hp)).1
  have hframe : ∀ {i c}, cs[i]? = some c → ∀ k, mget c p.stackSizes = some k ↔ p.Frame i k := by
    intro i c hc k
    have hl : i < p.defined.length := by
      rw [← r.live_length]
      exact (List.getElem?_eq_some_iff.mp hc).1
    have he := List.getElem?_eq_getElem hl
    exact (frame_iff he (r.ir.sym.canon i _ c he hc) k).symm
  have hexact : ∀ {c n}, (mkNode c (mget c p.stackSizes) false).loc = .exact n ↔
      mget c p.stackSizes = some n := by
    intro c n
    unfold mkNode
    cases mget c p.stackSizes <;> simp
  -- the cases of the policy where the figures differ
  have key : ∀ {i n k k'}, p.Principal i n → p.Frame i k → p.LocalIs search elf i (.exact k') → k ≠ k' →
      ∃ address size t, cs[i]? = some n ∧ CodeOf search p elf i address size t ∧
        (mkNode n (mget n p.stackSizes) false).loc = .exact k ∧ t.stack = some k' ∧
        (k' ≠ 0 ↔ t.modifiesSp = true) ∧
        ((∃ x, p.Contains i (.asm x)) ∨ ((¬ ∃ x, p.Contains i (.asm x)) ∧ OutlinedName n ∧ k = 0)) := by
    intro i n k k' hp hf hl hne
    have hc := r.ir.principal.mp hp
    have hk := (hframe hc k).mpr hf
    generalize hg : (Local.exact k') = l at hl
    cases hl with
    | @code address size t llvm name _ a1 a2 a3 a4 a5 =>
      have hn : name = n := by
        have := r.ir.principal.mp a4
        rw [hc] at this
        exact (Option.some.inj this).symm
      subst hn
      have hll : llvm = some k := by
        cases llvm with
        | none => exact absurd hf (a3 k)
        | some x =>
          have := (hframe hc x).mpr a3
          rw [hk] at this
          rw [Option.some.inj this]
      subst hll
      refine ⟨address, size, t, hc, codeOf_iff.mpr ⟨a1, a2⟩, hexact.mpr hk, ?_⟩
      generalize t.stack = our at a5
      cases a5 with
      | only _ _ => exact absurd (Local.exact.inj hg).symm hne
      | agree _ _ => exact absurd (Local.exact.inj hg).symm hne
      | asm _ m b1 b2 b3 =>
        obtain rfl := Local.exact.inj hg
        exact ⟨rfl, b3, .inl b2⟩
      | outlinedZero m b1 b2 b3 b4 =>
        obtain rfl := Local.exact.inj hg
        exact ⟨rfl, ⟨fun _ => b4, fun _ => b1⟩, .inr ⟨b2, b3, rfl⟩⟩
      | outlined _ m _ _ _ _ _ _ => exact absurd (Local.exact.inj hg).symm hne
    | frame a1 a2 =>
      have := (hframe hc _).mpr a2
      rw [hk] at this
      obtain rfl := Option.some.inj this
      exact absurd (Local.exact.inj hg).symm hne
    | none a1 a2 => exact absurd hf (a2 k)
  have hpar : ∀ m : LogMsg, (∀ a, m ≠ .noUsage a) → (∀ a, m ≠ .untypedCall a) → m ≠ .noText →
      (m ∈ machineLog search p elf stIr ↔ ∃ i c address size t k k', cs[i]? = some c ∧
        CodeOf search p elf i address size t ∧ (mkNode c (mget c p.stackSizes) false).loc = .exact k ∧
        t.stack = some k' ∧ (k' ≠ 0 ↔ t.modifiesSp = true) ∧ k ≠ k' ∧
        ((m = .overrideAsm c k k' ∧ ∃ x, p.Contains i (.asm x)) ∨
          (m = .overrideOutlined c k k' ∧ (¬ ∃ x, p.Contains i (.asm x)) ∧ OutlinedName c ∧ k = 0))) := by
    intro m m1 m2 m3
    rw [r.mem_machineLog once]
    simp only [m1, m2, m3, false_and, or_false, false_or, mem_overrideLog]
    constructor
    · rintro ⟨i, c, address, size, t, h3, h4, k, k', h5, h6, h7, h8, h9⟩
      refine ⟨i, c, address, size, t, k, k', h3, h4, h5, h6, h7, h8, ?_⟩
      rw [← r.ir.asm_iff h3, ← isOutlined_iff]
      simpa using h9
    · rintro ⟨i, c, address, size, t, k, k', h3, h4, h5, h6, h7, h8, h9⟩
      refine ⟨i, c, address, size, t, h3, h4, k, k', h5, h6, h7, h8, ?_⟩
      rw [← r.ir.asm_iff h3, ← isOutlined_iff] at h9
      simpa using h9
  refine ⟨fun n k k' => ?_, fun n k k' => ?_, fun n k k' => ?_⟩
  · rw [hmem]
    simp only [LogMsg.ofSym, LogMsg.ofStmt, LogMsg.ofCode, LogMsg.ofIndirect, LogMsg.ofStart, Bool.false_eq_true, true_and,
      reduceCtorEq, false_and, or_false, false_or]
    rw [hpar _ (by simp) (by simp) (by simp)]
    simp only [LogMsg.overrideAsm.injEq, reduceCtorEq, false_and, or_false]
    constructor
    · rintro ⟨i, c, address, size, t, _, _, h3, h4, h5, h6, h7, h8, ⟨rfl, rfl, rfl⟩, h9⟩
      have hk := hexact.mp h5
      obtain ⟨b1, b2⟩ := codeOf_iff.mp h4
      refine ⟨i, r.ir.principal.mpr h3, (hframe h3 k).mp hk, ?_, h8, h9⟩
      refine .code (llvm := some k) b1 b2 ((hframe h3 k).mp hk) (r.ir.principal.mpr h3) ?_
      rw [h6]
      exact .asm k k' h8 h9 h7
    · rintro ⟨i, h3, h4, h5, h6, h7⟩
      obtain ⟨address, size, t, b1, b2, b3, b4, b5, _⟩ := key h3 h4 h5 h6
      exact ⟨i, n, address, size, t, k, k', b1, b2, b3, b4, b5, h6, ⟨rfl, rfl, rfl⟩, h7⟩
  · rw [hmem]
    simp only [LogMsg.ofSym, LogMsg.ofStmt, LogMsg.ofCode, LogMsg.ofIndirect, LogMsg.ofStart, Bool.false_eq_true, true_and,
      reduceCtorEq, false_and, or_false, false_or]
    rw [hpar _ (by simp) (by simp) (by simp)]
    simp only [LogMsg.overrideOutlined.injEq, reduceCtorEq, false_and, false_or]
    constructor
    · rintro ⟨i, c, address, size, t, _, _, h3, h4, h5, h6, h7, h8, ⟨rfl, rfl, rfl⟩, h9, h10, rfl⟩
      have hk := hexact.mp h5
      obtain ⟨b1, b2⟩ := codeOf_iff.mp h4
      refine ⟨i, r.ir.principal.mpr h3, (hframe h3 0).mp hk, ?_, h8, h9⟩
      refine .code (llvm := some 0) b1 b2 ((hframe h3 0).mp hk) (r.ir.principal.mpr h3) ?_
      rw [h6]
      exact .outlinedZero k' (Ne.symm h8) h9 h10 (h7.mp (Ne.symm h8))
    · rintro ⟨i, h3, h4, h5, h6, h7⟩
      obtain ⟨address, size, t, b1, b2, b3, b4, b5, b6⟩ := key h3 h4 h5 h6
      refine ⟨i, n, address, size, t, k, k', b1, b2, b3, b4, b5, h6, ⟨rfl, rfl, rfl⟩, ?_⟩
      rcases b6 with b6 | b6
      · exact absurd b6 h7
      · exact b6
  · rw [hmem]
    simp only [LogMsg.ofSym, LogMsg.ofStmt, LogMsg.ofCode, LogMsg.ofIndirect, LogMsg.ofStart, Bool.false_eq_true, true_and,
      reduceCtorEq, false_and, or_false, false_or]
    rw [hpar _ (by simp) (by simp) (by simp)]
    simp only [LogMsg.overrideOutlined.injEq, reduceCtorEq, false_and, false_or]
    rintro ⟨i, c, address, size, t, _, _, _, _, _, _, _, _, ⟨rfl, rfl, rfl⟩, _, h10, rfl⟩
    exact ⟨h10, rfl⟩

/-- Both kinds, and the figures that are shown. -/
example : exOverride.NamesOnce ∧
    runLog id sameOrder linearSearch exOverride exOverrideElf none =
      [.asm c!"push {r7, lr}" c!"main", .overrideAsm c!"main" 0 8,
        .overrideOutlined c!"OUTLINED_FUNCTION_0" 0 8] ∧
    (finalGraph id sameOrder linearSearch exOverride exOverrideElf none).toOption.map
      (fun x => x.1.nodes.map (fun nd => (nd.name, nd.loc, nd.max))) =
      some [(c!"main", .exact 8, some (.exact 16)), (c!"OUTLINED_FUNCTION_0", .exact 8, some (.exact 8))] := by
  refine ⟨namesOnce_of (by decide), ?_⟩
  decide +kernel

/-- **C88** What the tool assumes about the statements of live functions is announced, once each: inline assembly
in a function is taken to use no stack and call nothing; certain intrinsics are taken for instructions; functions
that are called through a bitcast and are not in the executable. The last are not announced if they were shown
already because they are called directly, too. -/
theorem C88_assumptions_announced {demangle : Str → Str} {ord : HashOrder} {search : TagSearch} {p : Program}
    {elf : Elf} {start : Option Str} {out : Graph × List (List Nat)} (once : p.NamesOnce)
    (h : finalGraph demangle ord search p elf start = .ok out) :
    let log := runLog demangle ord search p elf start
    (∀ x n, .asm x n ∈ log → ∃ i, p.Principal i n ∧ p.Contains i (.asm x)) ∧
    (∀ i n x, p.Principal i n → p.Contains i (.asm x) → ∃ y, log.filter (LogMsg.isAsm n) = [.asm y n]) ∧
    (∀ f, .inlined f ∈ log ↔ p.target.isThumb = false ∧ (∃ i, p.Contains i (.directCall f)) ∧
      (InlineIntrinsic f ∨ f = c!"llvm.x86.sse2.pause")) ∧
    (∀ f, log.count (.inlined f) ≤ 1) ∧
    (∀ n, .noInfo n ∈ log → (∃ i, p.Contains i (.bitcastCall (some n))) ∧ ∀ j, ¬ p.Principal j n) ∧
    (∀ i n, p.Contains i (.bitcastCall (some n)) → (∀ j, ¬ p.Principal j n) →
      .noInfo n ∈ log ∨ ∃ i, p.Contains i (.directCall n)) ∧
    (∀ n, log.count (.noInfo n) ≤ 1) := by
  obtain ⟨st, g, g1, h1, h2⟩ := finalGraph_start h
  obtain ⟨cs, ext, st0, stIr, r⟩ := callGraph_facts once h1
  have hmem := r.mem_log' once h2
  have hst := r.stmtMsgs
  have hcs : ∀ n, mget n st0.indices = none ↔ ∀ j, ¬ p.Principal j n := by
    intro n
    rw [r.ir.idx0.none, r.ir.mem_cs]
    exact not_exists
  have hin : ∀ {i s}, p.Contains i s → ∃ n, p.Principal i n := by
    rintro i s ⟨d, _, h3, _⟩
    have : i < cs.length := by
      rw [r.live_length]
      obtain ⟨a, s, h4, _⟩ := h3
      exact (List.getElem?_eq_some_iff.mp h4).1
    exact ⟨_, r.ir.principal.mpr (List.getElem?_eq_getElem this)⟩
  have hasm : st0.asmFns = [] := r.ir.sym.asmFns
  -- only the pass over the definitions logs such messages
  have hfilter : ∀ q : LogMsg → Bool, (∀ m, q m = true → m.ofStmt = true) →
      (runLog demangle ord search p elf start).filter q = (definesLog p st0 [] p.defines).1.filter q := by
    intro q hq
    rw [r.log_eq h2]
    have nil : ∀ l : List LogMsg, (∀ m ∈ l, m.ofStmt = false) → l.filter q = [] := by
      intro l hl
      rw [List.filter_eq_nil_iff]
      intro m hm hqm
      have := hq m hqm
      rw [hl m hm] at this
      simp at this
    have e1 := nil (symsLog p p.defined) (fun m hm => by
      have := r.ofSym_of hm
      cases m <;> simp_all [LogMsg.ofSym, LogMsg.ofStmt])
    have e2 := nil (machineLog search p elf stIr) (fun m hm => by
      have := r.ofCode_of once hm
      cases m <;> simp_all [LogMsg.ofCode, LogMsg.ofStmt])
    have e3 := nil (indirectsLog ord st) (fun m hm => by
      have := ofIndirect_of hm
      cases m <;> simp_all [LogMsg.ofIndirect, LogMsg.ofStmt])
    have e4 := nil (startLog demangle ord st.indices start) (fun m hm => by
      have := ofStart_of hm
      cases m <;> simp_all [LogMsg.ofStart, LogMsg.ofStmt])
    have e5 : (if st.hasStackUsageInfo = true then [] else [LogMsg.noFigures]).filter q = [] := nil _ (fun m hm => by
      split at hm
      · simp at hm
      · simp only [List.mem_singleton] at hm
        subst hm
        rfl)
    simp only [List.filter_append, e1, e2, e3, e4, e5, List.nil_append, List.append_nil]
  have hcount : ∀ m : LogMsg, m.ofStmt = true →
      (runLog demangle ord search p elf start).count m = (definesLog p st0 [] p.defines).1.count m := by
    intro m hm
    have := hfilter (· == m) (fun x hx => by rw [eq_of_beq hx]; exact hm)
    rw [List.count_eq_length_filter, List.count_eq_length_filter, this]
  refine ⟨fun x n => ?_, fun i n x hp hx => ?_, fun f => ?_, fun f => ?_, fun n => ?_, fun i n => ?_, fun n => ?_⟩
  · rw [hmem]
    simp only [LogMsg.ofSym, LogMsg.ofStmt, LogMsg.ofCode, LogMsg.ofIndirect, LogMsg.ofStart, Bool.false_eq_true, true_and,
      reduceCtorEq, false_and, or_false, false_or]
    exact hst.asmWhy x n
  · rw [hfilter (LogMsg.isAsm n) (fun m hm => by cases m <;> simp_all [LogMsg.isAsm, LogMsg.ofStmt])]
    have hlen := hst.asmOne n
    have hn : n ∈ stIr.asmFns := (hst.asmIn n).mpr (.inr ⟨x, i, hp, hx⟩)
    rw [hasm, if_neg (by simp), if_pos hn] at hlen
    obtain ⟨m, hm⟩ := List.length_eq_one_iff.mp hlen
    rw [hm]
    have : m ∈ (definesLog p st0 [] p.defines).1.filter (LogMsg.isAsm n) := by rw [hm]; simp
    rw [List.mem_filter] at this
    cases m <;> simp_all [LogMsg.isAsm]
  · rw [hmem]
    simp only [LogMsg.ofSym, LogMsg.ofStmt, LogMsg.ofCode, LogMsg.ofIndirect, LogMsg.ofStart, Bool.false_eq_true, true_and,
      reduceCtorEq, false_and, or_false, false_or]
    have h3 := hst.inlOne f
    have h4 := hst.seenIn f
    simp only [List.not_mem_nil, if_false, false_or, assumedInline_iff] at h3 h4
    rw [← List.count_pos_iff, h3]
    constructor
    · intro h5
      split at h5
      · rename_i h6
        obtain ⟨c, ⟨i, _, h7⟩, h8, h9⟩ := h4.mp h6
        exact ⟨h8, ⟨i, h7⟩, h9⟩
      · simp at h5
    · rintro ⟨h5, ⟨i, h6⟩, h7⟩
      obtain ⟨n, hn⟩ := hin h6
      rw [if_pos (h4.mpr ⟨n, ⟨i, hn, h6⟩, h5, h7⟩)]
      simp
  · rw [hcount _ rfl, hst.inlOne]
    split
    · simp
    · split <;> simp
  · rw [hmem]
    simp only [LogMsg.ofSym, LogMsg.ofStmt, LogMsg.ofCode, LogMsg.ofIndirect, LogMsg.ofStart, Bool.false_eq_true, true_and,
      reduceCtorEq, false_and, or_false, false_or]
    intro h3
    obtain ⟨⟨c, i, _, h4⟩, _⟩ := hst.infoWhy n h3
    refine ⟨⟨i, h4⟩, (hcs n).mp ?_⟩
    have h5 := hst.infoOne n
    have h6 := List.count_pos_iff.mpr h3
    by_contra h7
    rw [if_neg h7] at h5
    omega
  · intro h3 h4
    rw [hmem]
    simp only [LogMsg.ofSym, LogMsg.ofStmt, LogMsg.ofCode, LogMsg.ofIndirect, LogMsg.ofStart, Bool.false_eq_true, true_and,
      reduceCtorEq, false_and, or_false, false_or]
    obtain ⟨c, hc⟩ := hin h3
    rcases hst.info n ((hcs n).mpr h4) (hst.bitcast n c ⟨i, hc, h3⟩) with h5 | ⟨_, i', _, h5⟩
    · exact .inl h5
    · exact .inr ⟨i', h5⟩
  · rw [hcount _ rfl]
    have := hst.infoOne n
    split at this <;> omega

/-- In `exLog` there is one message about both pieces of inline assembly, one about both calls of the intrinsic,
and one about `ext`. If `ext` is called directly before, there is none. -/
example (search : TagSearch) :
    ((runLog id sameOrder search exLog ⟨[], none⟩ none).filter LogMsg.ofStmt =
      [.asm c!"nop" c!"main", .inlined c!"llvm.ctlz.i32", .noInfo c!"ext"]) ∧
    ((runLog id sameOrder search { exLog with
        defines := ⟨c!"f", exSig, [.directCall c!"ext"]⟩ :: exLog.defines } ⟨[], none⟩ none).filter LogMsg.ofStmt =
      [.asm c!"nop" c!"main", .inlined c!"llvm.ctlz.i32"]) := by
  rw [runLog_other rfl search linearSearch _ ⟨[], none⟩]
  refine ⟨by decide +kernel, ?_⟩
  rw [runLog_other rfl search linearSearch _ ⟨[], none⟩]
  decide +kernel

end CallStack
