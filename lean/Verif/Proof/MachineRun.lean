import Verif.Proof.Calls
import Mathlib.Data.List.Induction

/-!
Which function the pass over the machine code looks at, and bounds on the stack usage it computes.
-/

namespace CallStack

theorem popcount16_le (x : Nat) : popcount16 x ≤ 16 := by
  unfold popcount16
  exact Nat.le_trans (List.length_filter_le _ _) (by simp)

theorem and_lt (x m k : Nat) (h : m < 2 ^ k) : x &&& m < 2 ^ k := Nat.and_lt_two_pow x h

theorem thumbExpandImm_lt (x : Nat) : thumbExpandImm x < 2 ^ 32 := by
  unfold thumbExpandImm
  split
  · have h8 : x &&& 0xFF < 2 ^ 8 := and_lt x 0xFF 8 (by decide)
    generalize hi : x &&& 0xFF = y at h8
    have s8 : y <<< 8 < 2 ^ 32 := by rw [Nat.shiftLeft_eq]; omega
    have s16 : y <<< 16 < 2 ^ 32 := by rw [Nat.shiftLeft_eq]; omega
    have s24 : y <<< 24 < 2 ^ 32 := by rw [Nat.shiftLeft_eq]; omega
    simp only
    split
    · omega
    · exact s8
    · exact Nat.or_lt_two_pow s24 s8
    · exact Nat.or_lt_two_pow (Nat.or_lt_two_pow (Nat.or_lt_two_pow s24 s16) s8) (by omega)
  · unfold rotateRight32
    exact BitVec.isLt _

/-- `b` is at most `n` more than `a`. -/
def StackLe (a b : Option Nat) (n : Nat) : Prop :=
  ∀ y, b = some y → ∃ x, a = some x ∧ y ≤ x + n

theorem StackLe.refl (a : Option Nat) (n : Nat) : StackLe a a n := fun y h => ⟨y, h, by omega⟩

theorem StackLe.trans {a b c : Option Nat} {m n : Nat} (h : StackLe a b m) (h' : StackLe b c n) :
    StackLe a c (m + n) := by
  intro y hy
  obtain ⟨x, h1, h2⟩ := h' y hy
  obtain ⟨z, h3, h4⟩ := h x h1
  exact ⟨z, h3, by omega⟩

theorem StackLe.mono {a b : Option Nat} {m n : Nat} (h : StackLe a b m) (hn : m ≤ n) : StackLe a b n := by
  intro y hy
  obtain ⟨x, h1, h2⟩ := h y hy
  exact ⟨x, h1, by omega⟩

theorem subSp_le (st : ThumbState) {n : Nat} (h : n ≤ 2 ^ 32) :
    StackLe st.stack (st.subSp n).stack (2 ^ 32) := by
  intro y hy
  simp only [ThumbState.subSp] at hy
  obtain ⟨x, h1, h2⟩ := Option.map_eq_some_iff.mp hy
  exact ⟨x, h1, by omega⟩

theorem branch_le (st : ThumbState) (len : Nat) (off : Int) :
    StackLe st.stack (st.branch len off).stack (2 ^ 32) := by
  intro y hy
  simp only [ThumbState.branch] at hy
  split at hy
  · simp at hy
  · exact ⟨y, hy, by omega⟩

theorem step16_le (len i : Nat) (first : Half) (st : ThumbState) (a : Act16) :
    StackLe st.stack (step16 len i first st a).stack (2 ^ 32) := by
  unfold step16
  split
  · exact .refl _ _
  · exact branch_le _ _ _
  · exact branch_le _ _ _
  · exact .refl _ _
  · split
    · exact .refl _ _
    · exact .refl _ _
  · refine subSp_le _ ?_
    have := popcount16_le (((first.2 &&& 1) <<< 14) ||| first.1)
    omega
  · refine subSp_le _ ?_
    have := and_lt first.1 0x7F 7 (by decide)
    rw [Nat.shiftLeft_eq]
    omega

theorem step32_le (len i : Nat) (first second : Half) (st : ThumbState) (a : Act32) :
    StackLe st.stack (step32 len i first second st a).stack (2 ^ 32) := by
  unfold step32
  split
  · split
    · refine subSp_le _ ?_
      have := popcount16_le
        ((((second.2 >>> 6) &&& 1) <<< 14) ||| (((second.2 &&& 0x1F) <<< 8) ||| second.1))
      omega
    · exact .refl _ _
  · split
    · exact subSp_le _ (Nat.le_of_lt (thumbExpandImm_lt _))
    · exact .refl _ _
  · refine subSp_le _ ?_
    have := and_lt second.1 0xFF 8 (by decide)
    rw [Nat.shiftLeft_eq]
    omega
  · simp only
    split
    · exact .refl _ _
    · exact branch_le _ _ _
  · exact branch_le _ _ _
  · exact .refl _ _
  · split
    · refine subSp_le _ ?_
      have := and_lt second.1 0xFF 8 (by decide)
      omega
    · exact .refl _ _
  · exact .refl _ _

theorem thumbLoop_le {search : TagSearch} {address : Nat} {v7 : Bool} {tags : List (Nat × Tag)}
    {len : Nat} (hs : List Half) : ∀ (skip i : Nat) (st r : ThumbState),
      thumbLoop search address v7 tags len skip i hs st = .ok r →
      StackLe st.stack r.stack (hs.length * 2 ^ 32) := by
  induction hs using List.twoStepInduction with
  | nil =>
    intro skip i st r h
    have : thumbLoop search address v7 tags len skip i [] st = .ok st := by
      cases skip <;> rfl
    rw [this] at h
    rw [← Except.ok.inj h]
    exact .refl _ _
  | singleton a =>
    intro skip i st r h
    have hnil : ∀ s i st, thumbLoop search address v7 tags len s i [] st = .ok st := by
      intro s i st; cases s <;> rfl
    unfold thumbLoop at h
    split at h
    · rename_i heq; simp at heq
    · rename_i heq
      obtain ⟨rfl, rfl⟩ := List.cons.inj heq
      rw [hnil] at h
      rw [← Except.ok.inj h]
      exact .refl _ _
    · rename_i heq
      obtain ⟨rfl, rfl⟩ := List.cons.inj heq
      split at h
      · simp at h
      · rw [← Except.ok.inj h]; exact .refl _ _
      · rw [hnil] at h
        rw [← Except.ok.inj h]
        exact .refl _ _
      · split at h
        · rw [hnil] at h
          rw [← Except.ok.inj h]
          exact (step16_le _ _ _ _ _).mono (by simp)
        · simp at h
  | cons_cons a b hs ih1 ih2 =>
    intro skip i st r h
    have hl : (b :: hs).length * 2 ^ 32 + 2 ^ 32 = (a :: b :: hs).length * 2 ^ 32 := by
      simp only [List.length_cons]; omega
    unfold thumbLoop at h
    split at h
    · rename_i heq; simp at heq
    · rename_i heq
      obtain ⟨rfl, rfl⟩ := List.cons.inj heq
      exact (ih2 b _ _ _ _ h).mono (by omega)
    · rename_i heq
      obtain ⟨rfl, rfl⟩ := List.cons.inj heq
      split at h
      · simp at h
      · rw [← Except.ok.inj h]; exact .refl _ _
      · exact (ih2 b _ _ _ _ h).mono (by omega)
      · split at h
        · refine ((step16_le _ _ _ _ _).trans (ih2 b _ _ _ _ h)).mono (by omega)
        · simp only at h
          refine ((step32_le _ _ _ _ _ _).trans (ih1 _ _ _ _ h)).mono ?_
          simp only [List.length_cons]
          omega

theorem chunks2_length (l : List Nat) : 2 * (chunks2 l).length ≤ l.length := by
  induction l using List.twoStepInduction with
  | nil => simp [chunks2]
  | singleton a => simp [chunks2]
  | cons_cons a b l ih _ =>
    simp only [chunks2, List.length_cons]
    omega

theorem thumbAnalyze_stack {search : TagSearch} {bytes : List Nat} {address : Nat} {v7 : Bool}
    {tags : List (Nat × Tag)} {r : ThumbState} (h : thumbAnalyze search bytes address v7 tags = .ok r)
    (hb : bytes.length < 2 ^ 32) {n : Nat} (hn : r.stack = some n) : n < 2 ^ 64 := by
  obtain ⟨x, h1, h2⟩ := thumbLoop_le _ _ _ _ _ h n hn
  have := chunks2_length bytes
  simp only [ThumbState.init, Option.some.injEq] at h1
  omega

theorem textSlice_length {stext : Nat} {text : List Nat} {address size : Nat} {bytes : List Nat}
    (h : textSlice stext text address size = .ok bytes) : bytes.length ≤ text.length := by
  unfold textSlice at h
  split at h
  · simp at h
  · split at h
    · rw [← Except.ok.inj h, List.length_take, List.length_drop]
      omega
    · simp at h

theorem Analyzed.stack_lt {search : TagSearch} {v7 : Bool} {tags : List (Nat × Tag)} {stext : Nat}
    {text : List Nat} {e : Nat × Sym} {r : ThumbState} (h : Analyzed search v7 tags stext text e r)
    (ht : text.length < 2 ^ 32) {n : Nat} (hn : r.stack = some n) : n < 2 ^ 64 := by
  obtain ⟨bytes, h1, h2⟩ := h
  exact thumbAnalyze_stack h2 (Nat.lt_of_le_of_lt (textSlice_length h1) ht) hn

theorem overrideLocal_exact {llvm : Local} {stack : Option Nat} {sp asm out : Bool} {n : Nat}
    (h : overrideLocal llvm stack sp asm out = .ok (.exact n)) :
    llvm = .exact n ∨ stack = some n ∨ n = 0 := by
  unfold overrideLocal at h
  split at h
  · simp at h
  · split at h
    · rename_i m
      split at h
      · simp at h
      · rename_i m' hm
        split at h
        · simp at h
        · simp only [Except.ok.injEq, Local.exact.injEq] at h
          subst h
          unfold overrideExact at hm
          repeat' split at hm
          all_goals simp_all
    · split at h
      · simp_all
      · split at h <;> simp_all

section facts

variable {demangle : Str → Str} {ord : HashOrder} {search : TagSearch} {p : Program} {elf : Elf}
  {cs ext : List Str} {st0 stIr st : Build} {g : Graph}

/-- The pass over the machine code finds the right function. -/
theorem IrFacts.nodeOf (h : IrFacts demangle p cs ext st0 stIr) (once : p.NamesOnce) {e : Nat × Sym}
    {c : Str} {i j : Nat} (he : p.defined[j]? = some e) (hn : NodeOf stIr e c i) :
    i = j ∧ cs[j]? = some c := by
  obtain ⟨first, rest, h1, h2, h3⟩ := hn
  rw [h.ir.aliases] at h2
  obtain ⟨i', e', h4, h5, h6⟩ := h.sym.aliases_some first c h2
  have hl : p.LiveAt first j := by
    refine (liveAt_iff p first j).mpr ⟨e, he, ?_⟩
    rw [mem_realNames] at h6 ⊢
    exact ⟨by rw [h1]; exact List.mem_cons_self, h6.2⟩
  have hij := once first i' j ((liveAt_iff p first i').mpr ⟨e', h4, h6⟩) hl
  subst hij
  rw [h.ir.shape.idx] at h3
  have h7 : (cs ++ ext)[i']? = some c := by
    rw [List.getElem?_append_left (List.getElem?_eq_some_iff.mp h5).1]; exact h5
  exact ⟨h.inj h3 h7, h5⟩

theorem IrFacts.nodes_distinct (h : IrFacts demangle p cs ext st0 stIr) (once : p.NamesOnce) :
    p.defined.Pairwise (fun e e' => ∀ c i c' i', NodeOf stIr e c i → NodeOf stIr e' c' i' → i ≠ i') := by
  rw [List.pairwise_iff_getElem]
  intro a b ha hb hab c i c' i' h1 h2
  have e1 := (h.nodeOf once (List.getElem?_eq_getElem ha) h1).1
  have e2 := (h.nodeOf once (List.getElem?_eq_getElem hb) h2).1
  omega

theorem RunFacts.nodeOf (h : RunFacts demangle ord search p elf cs ext st0 stIr st g)
    (once : p.NamesOnce) {e : Nat × Sym} {c : Str} {i j : Nat} (he : p.defined[j]? = some e)
    (hn : NodeOf stIr e c i) : i = j ∧ cs[j]? = some c := h.ir.nodeOf once he hn

theorem RunFacts.nodes_distinct (h : RunFacts demangle ord search p elf cs ext st0 stIr st g)
    (once : p.NamesOnce) : p.defined.Pairwise (fun e e' => ∀ c i c' i', NodeOf stIr e c i →
      NodeOf stIr e' c' i' → i ≠ i') := h.ir.nodes_distinct once

theorem NodeOf.indices {st0 : Build} {e : Nat × Sym} {c : Str} {i : Nat} (h : NodeOf st0 e c i) :
    mget c st0.indices = some i := by
  obtain ⟨_, _, _, _, h3⟩ := h
  exact h3

/-- The local usage of a live function after the LLVM-IR pass. -/
theorem IrFacts.llvm_local (h : IrFacts demangle p cs ext st0 stIr) {i : Nat} {c : Str}
    (hc : cs[i]? = some c) : stIr.g.nodes[i]? = some (mkNode c (mget c p.stackSizes) false) := by
  rw [h.ir.shape.nodes, h.sym.nodes,
    List.getElem?_append_left (by simpa using (List.getElem?_eq_some_iff.mp hc).1), List.getElem?_map, hc]
  rfl

theorem RunFacts.llvm_local (h : RunFacts demangle ord search p elf cs ext st0 stIr st g) {i : Nat}
    {c : Str} (hc : cs[i]? = some c) :
    stIr.g.nodes[i]? = some (mkNode c (mget c p.stackSizes) false) := h.ir.llvm_local hc

/-- Inline assembly is noted for the functions that contain it. -/
theorem IrFacts.asm_iff (h : IrFacts demangle p cs ext st0 stIr) {i : Nat} {c : Str}
    (hc : cs[i]? = some c) : stIr.asmFns.contains c = true ↔ ∃ x, p.Contains i (.asm x) := by
  rw [List.contains_iff_mem, h.ir.asm]
  have hc' : (cs ++ ext)[i]? = some c := by
    rw [List.getElem?_append_left (List.getElem?_eq_some_iff.mp hc).1]; exact hc
  constructor
  · rintro ⟨k, x, h7, h8⟩
    have : (cs ++ ext)[k]? = some c := by
      rw [List.getElem?_append_left (List.getElem?_eq_some_iff.mp h8).1]; exact h8
    rw [h.inj this hc'] at h7
    exact ⟨x, h7⟩
  · rintro ⟨x, h7⟩
    exact ⟨i, x, h7, hc⟩

theorem RunFacts.node_st (h : RunFacts demangle ord search p elf cs ext st0 stIr st g) {k : Nat}
    (hk : k < st.g.nodes.length) : g.nodes[k]? = st.g.nodes[k]? := by
  obtain ⟨void, out⟩ := h.void
  obtain ⟨ns, hn⟩ := out.nodes
  rw [hn, List.getElem?_append_left hk]

/-- The pass over the machine code looked at every live function. -/
theorem RunFacts.machine_facts (h : RunFacts demangle ord search p elf cs ext st0 stIr st g)
    (ht : p.target.isThumb = true) {stext : Nat} {text : List Nat}
    (he : elf.text = some (stext, text)) :
    MachineFacts stIr search (p.target == .thumbv7m) (elfTags elf.symtab) stext text p.defined
      stIr st := by
  have hm := h.pass
  unfold machinePass at hm
  rw [if_pos ht, he] at hm
  simp only at hm
  have hidx : ∀ (n : Str) (k : Nat), mget n stIr.indices = some k → k < (cs ++ ext).length :=
    fun n k hk => h.ir.ir.shape.lt hk
  have inv : MachineInv (cs ++ ext).length stIr stIr := by
    refine MachineInv.init (irFacts_length h.ir) ?_ h.ir.ir.shape.seen
    intro x hx
    have := h.ir.ir.shape.wf x hx
    simp only [List.length_append] at this ⊢
    omega
  exact (machineLoop_spec hidx p.defined inv hm).2

/-- The kinds of nodes of the call graph. -/
theorem RunFacts.node_cases (h : RunFacts demangle ord search p elf cs ext st0 stIr st g) {k : Nat}
    {nd : Node} (hk : g.nodes[k]? = some nd) :
    (∃ c, cs[k]? = some c ∧ nd.name = c) ∨
    (cs.length ≤ k ∧ nd.loc.bytes = 0 ∧ (nd.name ∈ ext ∨ nd.name = c!"?" ∨
      ∃ void, ∃ e ∈ stIr.indirects, e.2.called = true ∧ nd = dashedNode void e)) := by
  have hlt := (List.getElem?_eq_some_iff.mp hk).1
  by_cases h0 : k < cs.length
  · left
    have hc : (cs ++ ext)[k]? = some cs[k] := by
      rw [List.getElem?_append_left h0, List.getElem?_eq_getElem h0]
    obtain ⟨nd', h1, h2, _⟩ := h.node hc
    rw [hk] at h1
    exact ⟨cs[k], List.getElem?_eq_getElem h0, by rw [Option.some.inj h1]; exact h2⟩
  · right
    refine ⟨by omega, ?_⟩
    by_cases h1 : k < (cs ++ ext).length
    · have h2 := h.ext_unknown (List.getElem?_eq_getElem h1) (by omega)
      rw [hk] at h2
      obtain rfl := Option.some.inj h2
      refine ⟨rfl, Or.inl ?_⟩
      rw [List.getElem_append_right (by omega)]
      exact List.getElem_mem _
    · obtain ⟨void, out⟩ := h.void
      by_cases h2 : k < st.g.nodes.length
      · have h3 := h.machine.new k (by omega) h2
        rw [h.node_st h2, h3] at hk
        obtain rfl := Option.some.inj hk
        exact ⟨rfl, Or.inr (Or.inl rfl)⟩
      · rcases out.new k (by omega) hlt with ⟨e, he, hc, hd⟩ | ⟨_, h3, _⟩
        · rw [hd.node] at hk
          obtain rfl := Option.some.inj hk
          rw [(ord.isPerm _ _ _).mem_iff, h.machine.indirects] at he
          exact ⟨rfl, Or.inr (Or.inr ⟨void, e, he, hc, rfl⟩)⟩
        · rw [h3] at hk
          obtain rfl := Option.some.inj hk
          exact ⟨rfl, Or.inr (Or.inl rfl)⟩

/-- Where a known local usage comes from. -/
theorem RunFacts.loc_source (h : RunFacts demangle ord search p elf cs ext st0 stIr st g)
    (once : p.NamesOnce) {k n : Nat} (hk : g.locOf k = .exact n) :
    n = 0 ∨ (∃ name, p.Reported name n) ∨
      (p.target.isThumb = true ∧ ∃ stext text, elf.text = some (stext, text) ∧ ∃ e ∈ p.defined, ∃ r,
        Analyzed search (p.target == .thumbv7m) (elfTags elf.symtab) stext text e r ∧
        r.stack = some n) := by
  by_cases ht : p.target.isThumb = true
  swap
  · rcases h.loc_reported (by simpa using ht) hk with h1 | h1
    · exact Or.inl h1
    · exact Or.inr (Or.inl h1)
  rcases h.ran with hq | hr
  · -- the pass did nothing
    obtain ⟨void, out⟩ := h.void
    unfold Graph.locOf at hk
    cases hnd : g.nodes[k]? with
    | none => rw [hnd] at hk; simp at hk
    | some nd =>
      rw [hnd] at hk
      simp only at hk
      have hlt := (List.getElem?_eq_some_iff.mp hnd).1
      by_cases h1 : k < st.g.nodes.length
      · obtain ⟨ns, hn⟩ := out.nodes
        rw [hn, List.getElem?_append_left h1, hq, h.ir.ir.shape.nodes, h.ir.sym.nodes] at hnd
        have := List.mem_of_getElem? hnd
        simp only [List.mem_append, List.mem_map] at this
        rcases this with ⟨c, _, rfl⟩ | ⟨c, _, rfl⟩
        · right; left
          refine ⟨c, ?_⟩
          unfold mkNode at hk
          unfold Program.Reported
          cases hm : mget c p.stackSizes with
          | none => rw [hm] at hk; simp at hk
          | some v =>
            rw [hm] at hk
            simp at hk
            rw [hk]
        · simp [mkNode] at hk
      · rcases out.new k (by omega) hlt with ⟨e, _, _, hd⟩ | ⟨_, h3, _⟩
        · rw [hd.node] at hnd
          have := Option.some.inj hnd
          subst this
          left
          simp [dashedNode, mkNode] at hk
          exact hk.symm
        · rw [h3] at hnd
          have := Option.some.inj hnd
          subst this
          simp [questionNode, mkNode] at hk
  · obtain ⟨stext, text, htext, f⟩ := hr.facts
    have hloc := f.loc (h.nodes_distinct once)
    obtain ⟨void, out⟩ := h.void
    unfold Graph.locOf at hk
    cases hnd : g.nodes[k]? with
    | none => rw [hnd] at hk; simp at hk
    | some nd =>
      rw [hnd] at hk
      simp only at hk
      have hlt := (List.getElem?_eq_some_iff.mp hnd).1
      by_cases h0 : k < cs.length
      · have hd : k < p.defined.length := by rw [← h.live_length]; exact h0
        obtain ⟨c, i, r, nd0, nd1, hno, han, h1, h2, h3⟩ := hloc p.defined[k] (List.getElem_mem hd)
        obtain ⟨rfl, hc⟩ := h.nodeOf once (List.getElem?_eq_getElem hd) hno
        rw [h.llvm_local hc] at h1
        have hnd1 : nd1 = nd := by
          have := h.node_st (List.getElem?_eq_some_iff.mp h2).1
          rw [hnd, h2] at this
          exact (Option.some.inj this).symm
        subst hnd1
        rw [hk, ← Option.some.inj h1] at h3
        rcases overrideLocal_exact h3 with h4 | h4 | h4
        · right; left
          refine ⟨c, ?_⟩
          unfold mkNode at h4
          unfold Program.Reported
          cases hm : mget c p.stackSizes with
          | none => rw [hm] at h4; simp at h4
          | some v =>
            rw [hm] at h4
            simp at h4
            rw [h4]
        · exact Or.inr (Or.inr ⟨ht, stext, text, htext, _, List.getElem_mem hd, r, han, h4⟩)
        · exact Or.inl h4
      · by_cases h1 : k < (cs ++ ext).length
        · have := h.ext_unknown (List.getElem?_eq_getElem h1) (by omega)
          rw [hnd] at this
          have := Option.some.inj this
          subst this
          simp [mkNode] at hk
        · by_cases h2 : k < st.g.nodes.length
          · have h3 := h.machine.new k (by omega) h2
            rw [h.node_st h2, h3] at hnd
            have := Option.some.inj hnd
            subst this
            simp [questionNode, mkNode] at hk
          · rcases out.new k (by omega) hlt with ⟨e, _, _, hd⟩ | ⟨_, h3, _⟩
            · rw [hd.node] at hnd
              have := Option.some.inj hnd
              subst this
              left
              simp [dashedNode, mkNode] at hk
              exact hk.symm
            · rw [h3] at hnd
              have := Option.some.inj hnd
              subst this
              simp [questionNode, mkNode] at hk

/-- All local usages fit into 64 bits. -/
theorem RunFacts.u64 (h : RunFacts demangle ord search p elf cs ext st0 stIr st g)
    (once : p.NamesOnce) (hu : p.SizesU64) (ht : elf.Fits32) : g.LocalsU64 := by
  intro i
  cases hl : g.locOf i with
  | unknown => simp [Local.bytes]
  | exact n =>
    simp only [Local.bytes]
    rcases h.loc_source once hl with rfl | ⟨name, hn⟩ | ⟨_, stext, text, h1, e, _, r, h2, h3⟩
    · decide
    · exact hu _ _ hn
    · exact h2.stack_lt (ht _ _ h1) h3

end facts

end CallStack
