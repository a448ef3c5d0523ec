import Verif.Proof.Log

/-!
Which messages a run logs.
-/

namespace CallStack

/-! ### Symbols -/

theorem mem_symsLog {demangle : Str → Str} {p : Program} (l : List (Nat × Sym)) :
    ∀ {st st' : Build}, symPass demangle p st l = .ok st' → ∀ m, m ∈ symsLog p l ↔
      ∃ e ∈ l, ∃ c, canonicalOf p.stackSizes (realNames e.2) = .ok c ∧ m ∈ symLog p (realNames e.2) c := by
  induction l with
  | nil => simp [symsLog]
  | cons e l ih =>
    intro st st' h m
    unfold symPass at h
    split at h
    · simp at h
    · rename_i st1 h1
      unfold symStep at h1
      simp only at h1
      split at h1
      · simp at h1
      · rename_i c hc
        rw [symsLog, hc]
        simp only [List.mem_append, ih h m, List.mem_cons, exists_eq_or_imp, hc, Except.ok.injEq,
          exists_eq_left']

theorem mem_symLog {p : Program} {names : List Str} {c : Str} {m : LogMsg} : m ∈ symLog p names c ↔
    (m = .noUsage c ∧ mget c p.stackSizes = none ∧ p.target.isThumb = false) ∨
    (m = .noType c ∧ symSig p names = none ∧ isOutlined c = false) := by
  have h1 : (∃ x, m ∈ x ∧ x = (if (mget c p.stackSizes).isNone && !p.target.isThumb then [LogMsg.noUsage c] else [])) ↔
      (m = .noUsage c ∧ mget c p.stackSizes = none ∧ p.target.isThumb = false) := by
    rw [exists_eq_right]
    split
    · rename_i h
      simp only [Bool.and_eq_true, Option.isNone_iff_eq_none, Bool.not_eq_true'] at h
      simp [h]
    · rename_i h
      simp only [Bool.and_eq_true, Option.isNone_iff_eq_none, Bool.not_eq_true'] at h
      simp only [List.not_mem_nil, false_iff]
      rintro ⟨_, h2⟩
      exact h h2
  rw [exists_eq_right] at h1
  unfold symLog symSig
  rw [List.mem_append, h1]
  refine or_congr Iff.rfl ?_
  cases h2 : firstDefine p.defines names with
  | some d => simp
  | none =>
    cases h3 : firstDeclared p.declares names with
    | some sig => simp
    | none =>
      simp only [true_and]
      cases h4 : isOutlined c <;> simp

/-! ### Machine code -/

theorem machineStepLog_congr {search : TagSearch} {v7 : Bool} {tags : List (Nat × Tag)} {stext : Nat}
    {text : List Nat} {st st1 : Build} {e : Nat × Sym} (h1 : st1.aliases = st.aliases)
    (h2 : st1.indices = st.indices) (h3 : st1.asmFns = st.asmFns) (h4 : st1.defined = st.defined)
    (h5 : ∀ c i, NodeOf st e c i → st1.g.localAt i = st.g.localAt i) :
    machineStepLog search v7 tags stext text st1 e = machineStepLog search v7 tags stext text st e := by
  unfold machineStepLog useThumbLog
  rw [h1, h2, h3, h4]
  split
  · rfl
  · rename_i first rest hn
    split
    · rfl
    · rename_i c hc
      simp only
      split
      · rfl
      · split
        · rfl
        · split
          · rfl
          · rename_i i hi
            rw [h5 c i ⟨first, rest, hn, hc, hi⟩]

theorem machineLoop_log {m : Nat} {st0 : Build} {search : TagSearch}
    {v7 : Bool} {tags : List (Nat × Tag)} {stext : Nat} {text : List Nat}
    (hidx : ∀ (n : Str) (k : Nat), mget n st0.indices = some k → k < m) (es : List (Nat × Sym)) :
    ∀ {st st' : Build}, MachineInv m st0 st → machineLoop search v7 tags stext text st es = .ok st' →
      es.Pairwise (fun e e' => ∀ c i c' i', NodeOf st0 e c i → NodeOf st0 e' c' i' → i ≠ i') →
      machineLoopLog search v7 tags stext text st es =
        es.flatMap (machineStepLog search v7 tags stext text st) := by
  induction es with
  | nil => intros; rfl
  | cons e es ih =>
    intro st st' inv h hp
    unfold machineLoop at h
    split at h
    · simp at h
    · rename_i st1 h1
      obtain ⟨inv1, c, i, r, hno, han, hu⟩ := machineStep_spec inv hidx h1
      rw [List.pairwise_cons] at hp
      rw [machineLoopLog, h1, List.flatMap_cons]
      simp only
      rw [ih inv1 h hp.2]
      congr 1
      refine List.flatMap_congr fun e' he' => ?_
      refine machineStepLog_congr (inv1.aliases.trans inv.aliases.symm) (inv1.indices.trans inv.indices.symm)
        (inv1.asmFns.trans inv.asmFns.symm) (inv1.defined.trans inv.defined.symm) ?_
      rintro c' i' ⟨f, rs, k1, k2, k3⟩
      rw [inv.aliases] at k2
      rw [inv.indices] at k3
      have hne : i ≠ i' := hp.1 e' he' c i c' i' hno ⟨f, rs, k1, k2, k3⟩
      have hlt : i' < st.g.nodes.length := Nat.lt_of_lt_of_le (hidx c' i' k3) inv.len
      unfold Graph.localAt
      rw [hu.other i' (Ne.symm hne) hlt]

section run

variable {demangle : Str → Str} {ord : HashOrder} {search : TagSearch} {p : Program} {elf : Elf}
  {cs ext : List Str} {st0 stIr st : Build} {g : Graph}

theorem RunFacts.mem_machineLog (h : RunFacts demangle ord search p elf cs ext st0 stIr st g)
    (once : p.NamesOnce) (m : LogMsg) : m ∈ machineLog search p elf stIr ↔
      (m = .noText ∧ p.target.isThumb = true ∧ elf.text = none) ∨
      ∃ i c address size r, cs[i]? = some c ∧ CodeOf search p elf i address size r ∧
        (m ∈ overrideLog c (mkNode c (mget c p.stackSizes) false).loc r.stack r.modifiesSp
            (stIr.asmFns.contains c) (isOutlined c) ∨
          (m = .noUsage c ∧ g.locOf i = .unknown) ∨
          (m = .untypedCall c ∧ c ∉ stIr.defined ∧ r.indirect = true)) := by
  unfold machineLog
  by_cases ht : p.target.isThumb = true
  · rw [if_pos ht]
    cases hx : elf.text with
    | none =>
      simp only [List.mem_singleton, ht, and_true]
      constructor
      · exact .inl
      · rintro (h1 | ⟨i, c, address, size, r, _, ⟨_, _, _, _, h3, _⟩, _⟩)
        · exact h1
        · rw [hx] at h3
          simp at h3
    | some t =>
      obtain ⟨stext, text⟩ := t
      have hpass := h.pass
      unfold machinePass at hpass
      rw [if_pos ht, hx] at hpass
      simp only at hpass
      have hlen := irFacts_length h.ir
      have hidx : ∀ (n : Str) (k : Nat), mget n stIr.indices = some k → k < (cs ++ ext).length :=
        fun n k hk => h.ir.ir.shape.lt hk
      have hwf : ∀ x ∈ stIr.g.edges, x.1 < (cs ++ ext).length ∧ x.2 < (cs ++ ext).length := by
        intro x hx
        have := h.ir.ir.shape.wf x hx
        refine ⟨?_, this.2⟩
        rw [List.length_append]
        omega
      have init := MachineInv.init hlen hwf h.ir.ir.shape.seen
      simp only
      rw [machineLoop_log hidx p.defined init hpass (h.nodes_distinct once), List.mem_flatMap]
      simp only [reduceCtorEq, and_false, false_or]
      -- one function
      have key : ∀ i (e : Nat × Sym) c, p.defined[i]? = some e → cs[i]? = some c →
          ∃ address size r, CodeOf search p elf i address size r ∧
          ∀ m, m ∈ machineStepLog search (p.target == .thumbv7m) (elfTags elf.symtab) stext text stIr e ↔
          (m ∈ overrideLog c (mkNode c (mget c p.stackSizes) false).loc r.stack r.modifiesSp
            (stIr.asmFns.contains c) (isOutlined c) ∨
          (m = .noUsage c ∧ g.locOf i = .unknown) ∨
          (m = .untypedCall c ∧ c ∉ stIr.defined ∧ r.indirect = true)) := by
        intro i e c he hc
        obtain ⟨c', k, r, nd, nd', h1, h2, h3, h4, h5⟩ :=
          (h.machine_facts ht hx).loc (h.nodes_distinct once) e (List.mem_of_getElem? he)
        obtain ⟨rfl, hc'⟩ := h.ir.nodeOf once he h1
        rw [hc] at hc'
        obtain rfl := Option.some.inj hc'
        rw [h.llvm_local hc] at h3
        obtain rfl := Option.some.inj h3
        refine ⟨_, _, r, ⟨ht, stext, text, _, hx, he, h2, rfl, rfl⟩, fun m => ?_⟩
        have hloc : g.locOf k = nd'.loc := by
          unfold Graph.locOf
          rw [h.node_st (List.getElem?_eq_some_iff.mp h4).1, h4]
        obtain ⟨bytes, b1, b2⟩ := h2
        obtain ⟨first, rest, n1, n2, n3⟩ := h1
        unfold machineStepLog
        rw [n1]
        simp only
        rw [n2]
        simp only
        have b1' : textSlice stext text (e.1 % 2 ^ 32)
          (symSize search (elfTags elf.symtab) (e.1 % 2 ^ 32) (e.2.size % 2 ^ 32)) = .ok bytes := b1
        rw [b1']
        simp only
        rw [b2]
        simp only
        unfold useThumbLog
        rw [n3]
        simp only
        have hl : stIr.g.localAt k = .ok (mkNode c (mget c p.stackSizes) false).loc := by
          unfold Graph.localAt
          rw [h.llvm_local hc]
        rw [hl]
        simp only
        rw [h5, hloc]
        simp only [List.mem_append]
        refine or_congr Iff.rfl (or_congr ?_ ?_)
        · split
          · rename_i hu
            simp [hu]
          · rename_i hu
            simp [hu]
        · split
          · rename_i hu
            simp only [Bool.and_eq_true, Bool.not_eq_true', List.contains_eq_mem, decide_eq_false_iff_not] at hu
            simp [hu]
          · rename_i hu
            simp only [Bool.and_eq_true, Bool.not_eq_true', List.contains_eq_mem, decide_eq_false_iff_not] at hu
            simp only [List.not_mem_nil, false_iff]
            rintro ⟨_, h7⟩
            exact hu h7
      constructor
      · rintro ⟨e, he, hm⟩
        obtain ⟨i, hi⟩ := List.getElem?_of_mem he
        obtain ⟨c, hc⟩ := h.ir.sym.idx_lt hi
        obtain ⟨address, size, r, h1, h2⟩ := key i e c hi hc
        exact ⟨i, c, address, size, r, hc, h1, (h2 m).mp hm⟩
      · rintro ⟨i, c, address, size, r, hc, h1, hm⟩
        obtain ⟨_, _, _, e, _, hi, _⟩ := id h1
        obtain ⟨address', size', r', h2, h3⟩ := key i e c hi hc
        obtain rfl := h1.unique h2
        exact ⟨e, List.mem_of_getElem? hi, (h3 m).mpr hm⟩
  · rw [if_neg ht]
    simp only [List.not_mem_nil, false_iff]
    rintro (⟨_, h1, _⟩ | ⟨i, c, address, size, r, _, ⟨h1, _⟩, _⟩) <;> exact ht h1

/-! ### The whole log -/

theorem RunFacts.definesOk (h : RunFacts demangle ord search p elf cs ext st0 stIr st g) :
    definePass p st0 p.defines = .ok stIr := by
  have := h.irOk
  unfold irGraph at this
  rw [h.ir.symOk] at this
  exact this

theorem RunFacts.log_eq (h : RunFacts demangle ord search p elf cs ext st0 stIr st g) {start : Option Str}
    {g1 : Graph} (hs : applyStart demangle st.indices start g = .ok g1) :
    runLog demangle ord search p elf start =
      symsLog p p.defined ++ ((definesLog p st0 [] p.defines).1 ++ (machineLog search p elf stIr ++
        (indirectsLog ord st ++ startLog demangle ord st.indices start ++
          if st.hasStackUsageInfo then [] else [.noFigures]))) := by
  unfold runLog
  rw [h.ir.symOk]
  simp only
  rw [h.definesOk]
  simp only
  rw [h.pass]
  simp only
  rw [← h.graph, hs]

/-! ### By kind of message -/

theorem mem_overrideLog {c : Str} {llvm : Local} {our : Option Nat} {sp asm out : Bool} {m : LogMsg} :
    m ∈ overrideLog c llvm our sp asm out ↔ ∃ n k, llvm = .exact n ∧ our = some k ∧ (k ≠ 0 ↔ sp = true) ∧
      n ≠ k ∧ ((m = .overrideAsm c n k ∧ asm = true) ∨
        (m = .overrideOutlined c n k ∧ asm = false ∧ out = true ∧ n = 0)) := by
  unfold overrideLog
  cases our with
  | none => cases llvm <;> simp
  | some k =>
    cases llvm with
    | unknown =>
      simp only [Option.any_some, reduceCtorEq, false_and, exists_false, iff_false]
      split <;> simp
    | exact n =>
      simp only [Option.any_some, Local.exact.injEq, Option.some.injEq, exists_and_left, exists_eq_left']
      by_cases hsp : (k ≠ 0 ↔ sp = true)
      · have : (decide (k ≠ 0) != sp) = false := by
          cases sp <;> simp_all
        rw [this]
        simp only [Bool.false_eq_true, if_false, hsp, true_and]
        by_cases hn : n = k
        · subst hn
          simp
        · cases asm with
          | true => simp [hn]
          | false =>
            cases out with
            | false => simp
            | true =>
              simp only [hn, Bool.false_eq_true, and_false, if_false, if_true, not_false_eq_true, true_and,
                false_or, ne_eq]
              by_cases h0 : n = 0
              · subst h0
                simp [Ne.symm hn]
              · simp [h0]
      · have : (decide (k ≠ 0) != sp) = true := by
          cases sp <;> simp_all
        rw [this]
        simp [hsp]

theorem mem_indirectStepLog {hasUntyped : Bool} {fmts : List Nat} {void : Option Str} {e : FnSig × Indirect}
    {m : LogMsg} : m ∈ indirectStepLog hasUntyped fmts void e ↔ e.2.called = true ∧
      ((m = .noCallees e.1.show ∧ isFormatter void e.1 = true ∧ fmts = []) ∨
        (m = .noCallees ((labelSig void e.1).show ++ c!"*") ∧ hasUntyped = false ∧
          (if isFormatter void e.1 then fmts else e.2.callees) = [])) := by
  unfold indirectStepLog
  cases e.2.called with
  | false => simp
  | true =>
    simp only [Bool.not_true, Bool.false_eq_true, if_false, true_and, List.mem_append]
    refine or_congr ?_ ?_
    · split
      · rename_i h
        simp only [Bool.and_eq_true, List.isEmpty_iff] at h
        simp [h]
      · rename_i h
        simp only [Bool.and_eq_true, List.isEmpty_iff] at h
        simp only [List.not_mem_nil, false_iff]
        rintro ⟨_, h2⟩
        exact h h2
    · generalize (if isFormatter void e.1 = true then fmts else e.2.callees) = l
      cases hasUntyped <;> cases l <;> simp

/-- The message belongs to the pass over the symbols. -/
def LogMsg.ofSym : LogMsg → Bool
  | .noUsage _ | .noType _ => true
  | _ => false

/-- The message belongs to the pass over the machine code. -/
def LogMsg.ofCode : LogMsg → Bool
  | .noText | .noUsage _ | .untypedCall _ | .overrideAsm _ _ _ | .overrideOutlined _ _ _ => true
  | _ => false

/-- The message belongs to the treatment of indirect calls. -/
def LogMsg.ofIndirect : LogMsg → Bool
  | .untypedSymbols | .noCallees _ => true
  | _ => false

/-- The message is about the start point. -/
def LogMsg.ofStart : LogMsg → Bool
  | .ambiguousStart _ _ | .noStart => true
  | _ => false

theorem ofIndirect_of {m : LogMsg} (h : m ∈ indirectsLog ord st) : m.ofIndirect = true := by
  unfold indirectsLog at h
  simp only [List.mem_append, List.mem_flatMap, mem_indirectStepLog] at h
  rcases h with h | ⟨e, _, _, ⟨rfl, _⟩ | ⟨rfl, _⟩⟩
  · split at h
    · simp only [List.mem_singleton] at h
      subst h
      rfl
    · simp at h
  · rfl
  · rfl

theorem ofStart_of {indices : List (Str × Nat)} {start : Option Str} {m : LogMsg}
    (h : m ∈ startLog demangle ord indices start) : m.ofStart = true := by
  unfold startLog at h
  split at h
  · simp at h
  · split at h
    · simp at h
    · simp only at h
      split at h
      · simp only [List.mem_cons, List.not_mem_nil, or_false] at h
        rcases h with rfl | rfl <;> rfl
      · split at h
        · simp only [List.mem_singleton] at h
          subst h
          rfl
        · simp at h

theorem RunFacts.mem_symsLog (h : RunFacts demangle ord search p elf cs ext st0 stIr st g) (m : LogMsg) :
    m ∈ symsLog p p.defined ↔ ∃ (i : Nat) (e : Nat × Sym) (c : Str), p.defined[i]? = some e ∧ cs[i]? = some c ∧
      ((m = .noUsage c ∧ mget c p.stackSizes = none ∧ p.target.isThumb = false) ∨
       (m = .noType c ∧ symSig p (realNames e.2) = none ∧ isOutlined c = false)) := by
  rw [CallStack.mem_symsLog p.defined h.ir.symOk]
  simp only [mem_symLog]
  constructor
  · rintro ⟨e, he, c, h1, h2⟩
    obtain ⟨i, hi⟩ := List.getElem?_of_mem he
    obtain ⟨c', hc⟩ := h.ir.sym.idx_lt hi
    have := h.ir.sym.canon i e c' hi hc
    rw [h1] at this
    obtain rfl := Except.ok.inj this
    exact ⟨i, e, c, hi, hc, h2⟩
  · rintro ⟨i, e, c, hi, hc, h2⟩
    exact ⟨e, List.mem_of_getElem? hi, c, h.ir.sym.canon i e c hi hc, h2⟩

theorem RunFacts.ofSym_of (h : RunFacts demangle ord search p elf cs ext st0 stIr st g) {m : LogMsg}
    (hm : m ∈ symsLog p p.defined) : m.ofSym = true := by
  obtain ⟨_, _, _, _, _, ⟨rfl, _⟩ | ⟨rfl, _⟩⟩ := (h.mem_symsLog m).mp hm <;> rfl

theorem RunFacts.ofCode_of (h : RunFacts demangle ord search p elf cs ext st0 stIr st g)
    (once : p.NamesOnce) {m : LogMsg} (hm : m ∈ machineLog search p elf stIr) : m.ofCode = true := by
  rcases (h.mem_machineLog once m).mp hm with ⟨rfl, _⟩ | ⟨_, _, _, _, _, _, _, h1 | ⟨rfl, _⟩ | ⟨rfl, _⟩⟩
  · rfl
  · obtain ⟨_, _, _, _, _, _, ⟨rfl, _⟩ | ⟨rfl, _⟩⟩ := mem_overrideLog.mp h1 <;> rfl
  · rfl
  · rfl

theorem RunFacts.stmtMsgs (h : RunFacts demangle ord search p elf cs ext st0 stIr st g) :
    StmtMsgs p.target.isThumb (fun c s => ∃ i, p.Principal i c ∧ p.Contains i s) st0 []
      (definesLog p st0 [] p.defines).1 stIr (definesLog p st0 [] p.defines).2 := by
  refine (definePass_msgs p.defines [] h.definesOk).congr ?_
  intro c s
  unfold OccursIn Program.Contains
  constructor
  · rintro ⟨d, hd, h1, h2⟩
    obtain ⟨i, e, h3, h4, h5⟩ := h.ir.sym.aliases_some d.name c h1
    exact ⟨i, h.ir.principal.mpr h4, d, hd, (liveAt_iff p d.name i).mpr ⟨e, h3, h5⟩, h2⟩
  · rintro ⟨i, h1, d, hd, h2, h3⟩
    exact ⟨d, hd, (h.ir.live d.name c i (h.ir.principal.mp h1)).mpr h2, h3⟩

/-- Membership in the log, by the part that may log the message. -/
theorem RunFacts.mem_log (h : RunFacts demangle ord search p elf cs ext st0 stIr st g) {start : Option Str}
    {g1 : Graph} (hs : applyStart demangle st.indices start g = .ok g1) (m : LogMsg) :
    m ∈ runLog demangle ord search p elf start ↔
      m ∈ symsLog p p.defined ∨ m ∈ (definesLog p st0 [] p.defines).1 ∨ m ∈ machineLog search p elf stIr ∨
      m ∈ indirectsLog ord st ∨ m ∈ startLog demangle ord st.indices start ∨
      (m = .noFigures ∧ st.hasStackUsageInfo = false) := by
  rw [h.log_eq hs]
  simp only [List.mem_append, or_assoc]
  cases st.hasStackUsageInfo <;> simp

/-- `RunFacts.mem_log` with each part restricted to the messages it may log. -/
theorem RunFacts.mem_log' (h : RunFacts demangle ord search p elf cs ext st0 stIr st g) (once : p.NamesOnce)
    {start : Option Str} {g1 : Graph} (hs : applyStart demangle st.indices start g = .ok g1) (m : LogMsg) :
    m ∈ runLog demangle ord search p elf start ↔
      (m.ofSym = true ∧ m ∈ symsLog p p.defined) ∨
      (m.ofStmt = true ∧ m ∈ (definesLog p st0 [] p.defines).1) ∨
      (m.ofCode = true ∧ m ∈ machineLog search p elf stIr) ∨
      (m.ofIndirect = true ∧ m ∈ indirectsLog ord st) ∨
      (m.ofStart = true ∧ m ∈ startLog demangle ord st.indices start) ∨
      (m = .noFigures ∧ st.hasStackUsageInfo = false) := by
  rw [h.mem_log hs]
  have key : ∀ {a b : Prop}, (b → a) → (b ↔ a ∧ b) := fun k => ⟨fun x => ⟨k x, x⟩, fun x => x.2⟩
  exact or_congr (key h.ofSym_of) (or_congr (key (h.stmtMsgs.only m)) (or_congr (key (h.ofCode_of once))
    (or_congr (key ofIndirect_of) (or_congr (key ofStart_of) Iff.rfl))))

end run

end CallStack
