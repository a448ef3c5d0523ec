import Verif.Proof.Live
import Verif.Proof.MachineRun
import Verif.Proof.Order
import Verif.Proof.Sigs

/-!
The graph of the live functions does not depend on the order of hash maps.
-/

namespace CallStack

/-! ### Looking up definitions -/

theorem find_perm {α : Type} {key : α → Str} {l l' : List α} (hp : l'.Perm l)
    (hn : (l.map key).Nodup) (k : Str) :
    l'.find? (fun d => decide (key d = k)) = l.find? (fun d => decide (key d = k)) := by
  have huniq : ∀ a ∈ l, ∀ b ∈ l, key a = key b → a = b := by
    intro a ha b hb hab
    exact List.inj_on_of_nodup_map hn ha hb hab
  cases h1 : l.find? (fun d => decide (key d = k)) with
  | none =>
    rw [List.find?_eq_none] at h1 ⊢
    exact fun x hx => h1 x (hp.mem_iff.mp hx)
  | some a =>
    have ha := List.mem_of_find?_eq_some h1
    have hka : key a = k := by simpa using List.find?_some h1
    cases h2 : l'.find? (fun d => decide (key d = k)) with
    | none =>
      rw [List.find?_eq_none] at h2
      exact absurd (by simpa using hka) (h2 a (hp.mem_iff.mpr ha))
    | some b =>
      have hb := hp.mem_iff.mp (List.mem_of_find?_eq_some h2)
      have hkb : key b = k := by simpa using List.find?_some h2
      rw [huniq b hb a ha (hkb.trans hka.symm)]

variable {p p' : Program}

theorem Program.Reordered.firstDefine (h : p.Reordered p') (once : p.DefinesOnce) (names : List Str) :
    firstDefine p'.defines names = CallStack.firstDefine p.defines names := by
  unfold CallStack.firstDefine getDefine
  simp only [find_perm (key := Define.name) h.defines once]

theorem Program.Reordered.firstDeclared (h : p.Reordered p') (once : p.DeclaresOnce)
    (names : List Str) :
    firstDeclared p'.declares names = CallStack.firstDeclared p.declares names := by
  unfold CallStack.firstDeclared getDeclare
  simp only [find_perm (key := Declare.name) h.declares once]

theorem Program.Reordered.registerType (h : p.Reordered p') (od : p.DefinesOnce) (oc : p.DeclaresOnce)
    (names : List Str) (canonical : Str) (idx : Nat) (st : Build) :
    registerType p' names canonical idx st = CallStack.registerType p names canonical idx st := by
  unfold CallStack.registerType
  rw [h.firstDefine od, h.firstDeclared oc]

theorem Program.Reordered.symPass (h : p.Reordered p') (od : p.DefinesOnce) (oc : p.DeclaresOnce)
    (demangle : Str → Str) (es : List (Nat × Sym)) (st : Build) :
    symPass demangle p' st es = CallStack.symPass demangle p st es := by
  have hstep : ∀ st e, symStep demangle p' st e = symStep demangle p st e := by
    intro st e
    unfold symStep
    simp only [h.registerType od oc, h.stackSizes]
  induction es generalizing st with
  | nil => rfl
  | cons e es ih =>
    unfold CallStack.symPass
    rw [hstep]
    cases symStep demangle p st e with
    | error err => rfl
    | ok st' => exact ih st'

theorem Program.Reordered.liveAt (h : p.Reordered p') (n : Str) (i : Nat) :
    p'.LiveAt n i ↔ p.LiveAt n i := by
  unfold Program.LiveAt
  rw [h.defined]

theorem Program.Reordered.contains (h : p.Reordered p') (i : Nat) (s : Stmt) :
    p'.Contains i s ↔ p.Contains i s := by
  unfold Program.Contains
  simp only [h.liveAt, h.defines.mem_iff]

theorem Program.Reordered.principal (h : p.Reordered p') (i : Nat) (n : Str) :
    p'.Principal i n ↔ p.Principal i n := by
  unfold Program.Principal Program.Reported
  rw [h.defined, h.stackSizes]

theorem Program.Reordered.namesOnce (h : p.Reordered p') (once : p.NamesOnce) : p'.NamesOnce := by
  unfold Program.NamesOnce
  simp only [h.liveAt]
  exact once

theorem Program.Reordered.orderSafe (h : p.Reordered p') (safe : p.OrderSafe) : p'.OrderSafe := by
  have hcr : ∀ s r, p'.Creates s r ↔ p.Creates s r := by
    intro s r
    unfold Program.Creates Program.NotLive
    simp only [h.liveAt, h.undefined]
  unfold Program.OrderSafe Program.NotLive
  simp only [h.contains, h.principal, h.liveAt, hcr, h.undefined]
  intro i s r hs hn
  refine safe i s r hs ?_
  cases hn with
  | memcmp => exact .memcmp
  | copy h1 h2 h3 => exact .copy (by rw [← h.target]; exact h1) h2 h3
  | fill h1 h2 h3 => exact .fill (by rw [← h.target]; exact h1) h2 h3

theorem Program.Reordered.sizesU64 (h : p.Reordered p') (hs : p.SizesU64) : p'.SizesU64 := by
  unfold Program.SizesU64 Program.Reported
  rw [h.stackSizes]
  exact hs

/-! ### One run -/

section run

variable {demangle : Str → Str} {ord : HashOrder} {search : TagSearch} {elf : Elf}
  {cs ext : List Str} {st0 stIr st : Build} {g : Graph}

/-- The type that is taken for `core::fmt::Void`. -/
def voidOf (ord : HashOrder) (st : Build) : Option Str :=
  oneTrueVoid ((ord.perm _ 0 st.indirects).filterMap (fun e => maybeVoid e.1))

/-- The LLVM-IR of function `i` names a callee `name`. -/
def IrTo (p : Program) (cs : List Str) (st0 : Build) (i : Nat) (name : Str) : Prop :=
  ∃ s, p.Contains i s ∧ MustTarget p.target.isThumb st0.aliases cs s name

/-- What the pass over the machine code computes for function `i`. -/
def CodeOf (search : TagSearch) (p : Program) (elf : Elf) (i : Nat) (address size : Nat)
    (r : ThumbState) : Prop :=
  p.target.isThumb = true ∧ ∃ stext text e, elf.text = some (stext, text) ∧ p.defined[i]? = some e ∧
    Analyzed search (p.target == .thumbv7m) (elfTags elf.symtab) stext text e r ∧
    address = e.1 % 2 ^ 32 ∧ size = sizeOf' search (elfTags elf.symtab) e

/-- The code of function `i` jumps to function `j`. -/
def CodeTo (search : TagSearch) (p : Program) (elf : Elf) (cs : List Str) (st0 : Build) (i j : Nat) :
    Prop :=
  ∃ address size r, CodeOf search p elf i address size r ∧ ∃ addr ∈ calledAddrs r address size,
    ∃ name, mget addr st0.addr2name = some name ∧ cs[j]? = some name

/-- Function `i` has no LLVM-IR and its code contains an indirect call. -/
def CodeUnknown (search : TagSearch) (p : Program) (elf : Elf) (cs : List Str) (st0 : Build)
    (i : Nat) : Prop :=
  ∃ address size r c, CodeOf search p elf i address size r ∧ cs[i]? = some c ∧
    (¬ ∃ d ∈ p.defines, mget d.name st0.aliases = some c) ∧ r.indirect = true

/-- Function `i` contains an indirect call that marks the registered signature `sig`. -/
def Marks (p : Program) (i : Nat) (sig : FnSig) : Prop :=
  ∃ sig', p.Contains i (.indirectCall sig') ∧ sig.looselyEqual sig' = true

theorem IrFacts.resolves_iff' (h : IrFacts demangle p cs ext st0 stIr) (addr j : Nat) :
    Resolves stIr addr j ↔ ∃ name, mget addr st0.addr2name = some name ∧ cs[j]? = some name := by
  unfold Resolves
  rw [h.ir.addr]
  refine exists_congr fun name => and_congr_right fun h1 => ?_
  rw [h.ir.shape.idx]
  constructor
  · intro h2
    obtain ⟨i, s, _, h4⟩ := h.sym.addr_some addr name h1
    have h5 : (cs ++ ext)[i]? = some name := by
      rw [List.getElem?_append_left (List.getElem?_eq_some_iff.mp h4).1]; exact h4
    rw [h.inj h2 h5]
    exact h4
  · intro h2
    rw [List.getElem?_append_left (List.getElem?_eq_some_iff.mp h2).1]; exact h2

/-- The edges before the fictitious nodes are added. -/
theorem RunFacts.edge_st (h : RunFacts demangle ord search p elf cs ext st0 stIr st g)
    (once : p.NamesOnce) (safe : p.OrderSafe) {i j : Nat} (he : (i, j) ∈ st.g.edges) :
    i < cs.length ∧ ((∃ name, (cs ++ ext)[j]? = some name ∧ IrTo p cs st0 i name) ∨
      CodeTo search p elf cs st0 i j ∨
      (CodeUnknown search p elf cs st0 i ∧ cs.length ≤ j)) := by
  have hir : (i, j) ∈ stIr.g.edges → i < cs.length ∧
      ∃ name, (cs ++ ext)[j]? = some name ∧ IrTo p cs st0 i name := by
    intro he
    have h1 := h.ir.ir.shape.wf _ he
    refine ⟨h1.1, _, List.getElem?_eq_getElem h1.2, ?_⟩
    obtain ⟨nd, h2, h3⟩ := (h.ir.name_at j _).mp (List.getElem?_eq_getElem h1.2)
    exact (callsName_iff h.ir safe i _).mp ⟨j, nd, he, h2, h3⟩
  rcases h.ran with hq | hr
  · rw [hq] at he
    exact ⟨(hir he).1, Or.inl (hir he).2⟩
  · obtain ⟨stext, text, hx, f⟩ := hr.facts
    rcases f.sound _ he with h1 | ⟨e, h1, c, r, h2, h3, h4⟩
    · exact ⟨(hir h1).1, Or.inl (hir h1).2⟩
    · simp only at h2 h4
      obtain ⟨k, hk⟩ := List.getElem?_of_mem h1
      obtain ⟨rfl, hc⟩ := h.ir.nodeOf once hk h2
      have hcode : CodeOf search p elf i _ _ r := ⟨hr.thumb, stext, text, e, hx, hk, h3, rfl, rfl⟩
      refine ⟨(List.getElem?_eq_some_iff.mp hc).1, Or.inr ?_⟩
      rcases h4 with ⟨addr, h5, h6⟩ | ⟨h5, h6, _, h7⟩
      · exact Or.inl ⟨_, _, r, hcode, addr, h5, (h.ir.resolves_iff' addr j).mp h6⟩
      · rw [h.ir.defined] at h5
        rw [irFacts_length h.ir, List.length_append] at h7
        exact Or.inr ⟨⟨_, _, r, c, hcode, hc, h5, h6⟩, by omega⟩

theorem RunFacts.irTo_edge (h : RunFacts demangle ord search p elf cs ext st0 stIr st g) {i : Nat}
    {name : Str} (ht : IrTo p cs st0 i name) :
    ∃ j, (cs ++ ext)[j]? = some name ∧ (i, j) ∈ g.edges := by
  obtain ⟨s, h1, h2⟩ := ht
  obtain ⟨j, h3, h4⟩ := h.ir.ir.complete i s name h1 h2
  exact ⟨j, h3, h.edges_ir h4⟩

theorem RunFacts.edges_st (h : RunFacts demangle ord search p elf cs ext st0 stIr st g)
    {x : Nat × Nat} (hx : x ∈ st.g.edges) : x ∈ g.edges := by
  obtain ⟨es, h2, _⟩ := h.out.edges
  rw [h2]
  simp [hx]

theorem RunFacts.code_edges (h : RunFacts demangle ord search p elf cs ext st0 stIr st g)
    (once : p.NamesOnce) :
    (∀ i j, CodeTo search p elf cs st0 i j → (i, j) ∈ g.edges) ∧
    (∀ i, CodeUnknown search p elf cs st0 i →
      ∃ k, cs.length ≤ k ∧ g.nodes[k]? = some questionNode ∧ (i, k) ∈ g.edges) := by
  constructor
  · rintro i j ⟨_, _, r, ⟨ht, stext, text, e, hx, he, ha, rfl, rfl⟩, addr, h1, h2⟩
    obtain ⟨c, k, r', h3, h4, h5, _⟩ := (h.machine_facts ht hx).complete e (List.mem_of_getElem? he)
    obtain ⟨rfl, _⟩ := h.ir.nodeOf once he h3
    rw [ha.unique h4] at h1
    obtain ⟨j', h6, h7⟩ := h5 addr h1
    have h8 := (h.ir.resolves_iff' addr j').mp h6
    obtain ⟨n1, a1, a2⟩ := h2
    obtain ⟨n2, b1, b2⟩ := h8
    rw [a1] at b1
    obtain rfl := Option.some.inj b1
    have : j = j' := by
      refine h.ir.inj (name := n1) ?_ ?_
      · rw [List.getElem?_append_left (List.getElem?_eq_some_iff.mp a2).1]; exact a2
      · rw [List.getElem?_append_left (List.getElem?_eq_some_iff.mp b2).1]; exact b2
    rw [this]
    exact h.edges_st h7
  · rintro i ⟨_, _, r, c, ⟨ht, stext, text, e, hx, he, ha, rfl, rfl⟩, h1, h2, h3⟩
    obtain ⟨c', k, r', h4, h5, _, h6⟩ :=
      (h.machine_facts ht hx).complete e (List.mem_of_getElem? he)
    obtain ⟨rfl, hc⟩ := h.ir.nodeOf once he h4
    rw [h1] at hc
    obtain rfl := Option.some.inj hc
    rw [ha.unique h5] at h3
    rw [← h.ir.defined] at h2
    obtain ⟨q, h7, h8, h9⟩ := h6 h2 h3
    have hlt := (List.getElem?_eq_some_iff.mp h8).1
    rw [irFacts_length h.ir, List.length_append] at h7
    exact ⟨q, by omega, by rw [h.node_st hlt]; exact h8, h.edges_st h9⟩

/-- A fictitious node. -/
def RunFacts.Fict (ord : HashOrder) (st : Build) (e : FnSig × Indirect) (g : Graph) (k : Nat) : Prop :=
  e ∈ st.indirects ∧ DashedFor st.hasUntypedSymbols st.fmts (voidOf ord st) e g k

/-- The edges of the final graph. -/
theorem RunFacts.edge_split (h : RunFacts demangle ord search p elf cs ext st0 stIr st g)
    {a b : Nat} (hab : (a, b) ∈ g.edges) :
    (a, b) ∈ st.g.edges ∨ ∃ e k, RunFacts.Fict ord st e g k ∧ st.g.nodes.length ≤ k ∧
      (k = a ∨ k = b) := by
  obtain ⟨es, h1, h2⟩ := h.out.edges
  have hmem : ∀ e, e ∈ ord.perm _ 1 st.indirects ↔ e ∈ st.indirects :=
    fun e => (ord.isPerm _ _ _).mem_iff
  have hab' := hab
  rw [h1, List.mem_append] at hab
  rcases hab with hab | hab
  · exact Or.inl hab
  · right
    obtain ⟨h3, h4, h5⟩ := h2 _ hab
    simp only at h3 h4 h5
    rcases h3 with h3 | h3
    · rcases h.out.new a h3 h4 with ⟨e, he, hc, hd⟩ | ⟨_, _, hno, _⟩
      · exact ⟨e, a, ⟨(hmem e).mp he, hd⟩, h3, Or.inl rfl⟩
      · exact absurd hab' (hno b)
    · rcases h.out.new b h3 h5 with ⟨e, he, hc, hd⟩ | ⟨_, _, _, k', _, hk', ⟨e, he, hc, hd⟩, hp⟩
      · exact ⟨e, b, ⟨(hmem e).mp he, hd⟩, h3, Or.inr rfl⟩
      · exact ⟨e, k', ⟨(hmem e).mp he, hd⟩, hk', Or.inl (hp a hab').symm⟩

theorem RunFacts.callers_live (h : RunFacts demangle ord search p elf cs ext st0 stIr st g)
    {e : FnSig × Indirect} (he : e ∈ st.indirects) (i : Nat) :
    i ∈ e.2.callers ↔ Marks p i e.1 := by
  rw [h.machine.indirects] at he
  exact h.ir.ir.callers e he i

theorem RunFacts.marks_live (h : RunFacts demangle ord search p elf cs ext st0 stIr st g) {i : Nat}
    {sig : FnSig} (hm : Marks p i sig) : i < cs.length := by
  obtain ⟨_, h1, _⟩ := hm
  exact h.ir.ir.callerReal i _ h1

theorem RunFacts.callees_live (h : RunFacts demangle ord search p elf cs ext st0 stIr st g)
    {e : FnSig × Indirect} (he : e ∈ st.indirects) {void : Option Str} {j : Nat}
    (hj : j ∈ dashedCallees st.fmts void e) : j < cs.length := by
  unfold dashedCallees at hj
  split at hj
  · rw [h.machine.fmts, h.ir.ir.fmts] at hj
    obtain ⟨e', _, h1, _⟩ := (h.ir.sym.fmts j).mp hj
    have := (List.getElem?_eq_some_iff.mp h1).1
    rw [← h.ir.sym.len] at this
    exact this
  · rw [h.machine.indirects] at he
    obtain ⟨s, h1, _⟩ := (callees_iff h.ir he j).mp hj
    have := (List.getElem?_eq_some_iff.mp h1).1
    rw [← h.ir.sym.len] at this
    exact this

/-- Calls of nodes that are no live functions come from fictitious nodes. -/
theorem RunFacts.from_fict (h : RunFacts demangle ord search p elf cs ext st0 stIr st g)
    (once : p.NamesOnce) (safe : p.OrderSafe) {a b : Nat} (ha : cs.length ≤ a)
    (hab : (a, b) ∈ g.edges) : ∃ e, RunFacts.Fict ord st e g a := by
  rcases h.edge_split hab with h1 | ⟨e, k, h1, _, rfl | rfl⟩
  · have := (h.edge_st once safe h1).1
    omega
  · exact ⟨e, h1⟩
  · have := h.marks_live ((h.callers_live h1.1 a).mp ((h1.2.pred a).mp hab))
    omega

theorem RunFacts.liveGraph (h : RunFacts demangle ord search p elf cs ext st0 stIr st g)
    (once : p.NamesOnce) (safe : p.OrderSafe) : LiveGraph cs.length g.Calls g.locOf := by
  constructor
  · intro a ha
    unfold Graph.locOf
    cases hn : g.nodes[a]? with
    | none => rfl
    | some nd =>
      rcases h.node_cases hn with ⟨c, h1, _⟩ | ⟨_, h2, _⟩
      · have := (List.getElem?_eq_some_iff.mp h1).1
        omega
      · exact h2
  · intro a b c ha hb hab hbc
    obtain ⟨e, h1⟩ := h.from_fict once safe ha hab
    obtain ⟨e', h2⟩ := h.from_fict once safe hb hbc
    rcases (h1.2.succ b).mp hab with h3 | ⟨h3, rfl⟩
    · have := h.callees_live h1.1 h3
      omega
    · have k1 := h1.2.extern h3
      have k2 := h2.2.node
      rw [k1] at k2
      have := congrArg Node.dashed (Option.some.inj k2)
      simp [questionNode, dashedNode, mkNode] at this

theorem RunFacts.fict (h : RunFacts demangle ord search p elf cs ext st0 stIr st g)
    {e : FnSig × Indirect} (he : e ∈ st.indirects) {i : Nat} (hi : i ∈ e.2.callers) :
    ∃ k, cs.length ≤ k ∧ RunFacts.Fict ord st e g k := by
  have hc : e.2.called = true := by
    have he' := he
    rw [h.machine.indirects] at he'
    exact (h.ir.ir.called e he').mpr (List.ne_nil_of_mem hi)
  obtain ⟨k, h1, h2⟩ := h.out.called e ((ord.isPerm _ _ _).mem_iff.mpr he) hc
  have := h.len.1
  rw [List.length_append] at this
  exact ⟨k, by omega, he, h2⟩

/-- The calls between live functions. -/
theorem RunFacts.hop_iff (h : RunFacts demangle ord search p elf cs ext st0 stIr st g)
    (once : p.NamesOnce) (safe : p.OrderSafe) {i j : Nat} (hi : i < cs.length) (hj : j < cs.length) :
    Hop g.Calls cs.length i j ↔
      (∃ name, cs[j]? = some name ∧ IrTo p cs st0 i name) ∨ CodeTo search p elf cs st0 i j ∨
      ∃ e ∈ st.indirects, Marks p i e.1 ∧ j ∈ dashedCallees st.fmts (voidOf ord st) e := by
  have hlen := h.len.1
  rw [List.length_append] at hlen
  constructor
  · rintro (h1 | ⟨d, hd, h1, h2⟩)
    · rcases h.edge_split h1 with h2 | ⟨_, k, _, h2, rfl | rfl⟩
      · rcases (h.edge_st once safe h2).2 with ⟨name, h3, h4⟩ | h3 | ⟨_, h3⟩
        · rw [List.getElem?_append_left hj] at h3
          exact Or.inl ⟨name, h3, h4⟩
        · exact Or.inr (Or.inl h3)
        · omega
      · omega
      · omega
    · obtain ⟨e, h3⟩ := h.from_fict once safe hd h2
      refine Or.inr (Or.inr ⟨e, h3.1, (h.callers_live h3.1 i).mp ((h3.2.pred i).mp h1), ?_⟩)
      rcases (h3.2.succ j).mp h2 with h4 | ⟨_, h4⟩
      · exact h4
      · omega
  · rintro (⟨name, h1, h2⟩ | h1 | ⟨e, h1, h2, h3⟩)
    · obtain ⟨j', h3, h4⟩ := h.irTo_edge h2
      have : (cs ++ ext)[j]? = some name := by
        rw [List.getElem?_append_left hj]; exact h1
      rw [h.ir.inj h3 this] at h4
      exact Or.inl h4
    · exact Or.inl ((h.code_edges once).1 i j h1)
    · have hic := (h.callers_live h1 i).mpr h2
      obtain ⟨k, h4, h5⟩ := h.fict h1 hic
      exact Or.inr ⟨k, h4, (h5.2.pred i).mpr hic, (h5.2.succ j).mpr (Or.inl h3)⟩

theorem RunFacts.locOf_fict (h : RunFacts.Fict ord st e g k) : (g.locOf k).Known := by
  unfold Graph.locOf
  rw [h.2.node]
  trivial

/-- The calls of live functions that get to an unknown node. -/
theorem RunFacts.unknown_iff (h : RunFacts demangle ord search p elf cs ext st0 stIr st g)
    (once : p.NamesOnce) (safe : p.OrderSafe) {i : Nat} (hi : i < cs.length) :
    UnknownHop g.Calls g.locOf cs.length i ↔
      (∃ name, name ∉ cs ∧ IrTo p cs st0 i name) ∨ CodeUnknown search p elf cs st0 i ∨
      (st.hasUntypedSymbols = true ∧ ∃ e ∈ st.indirects, Marks p i e.1) := by
  have hlen := h.len.1
  rw [List.length_append] at hlen
  constructor
  · rintro ⟨d, hd, h1, h2⟩
    rcases h.edge_split h1 with h3 | ⟨e, k, h3, h4, rfl | rfl⟩
    · rcases (h.edge_st once safe h3).2 with ⟨name, h4, h5⟩ | ⟨_, _, _, _, _, _, _, _, h4⟩ | ⟨h4, _⟩
      · refine Or.inl ⟨name, fun hm => ?_, h5⟩
        obtain ⟨d', hd'⟩ := List.getElem?_of_mem hm
        have hlt := (List.getElem?_eq_some_iff.mp hd').1
        have : (cs ++ ext)[d']? = some name := by
          rw [List.getElem?_append_left hlt]; exact hd'
        have := h.ir.inj h4 this
        omega
      · have := (List.getElem?_eq_some_iff.mp h4).1
        omega
      · exact Or.inr (Or.inl h4)
    · omega
    · refine Or.inr (Or.inr ⟨?_, e, h3.1, (h.callers_live h3.1 i).mp ((h3.2.pred i).mp h1)⟩)
      rcases h2 with h2 | ⟨d', hd', h5, _⟩
      · exact absurd (RunFacts.locOf_fict h3) h2
      · rcases (h3.2.succ d').mp h5 with h6 | ⟨h6, _⟩
        · have := h.callees_live h3.1 h6
          omega
        · exact h6
  · rintro (⟨name, h1, h2⟩ | h1 | ⟨h1, e, h2, h3⟩)
    · obtain ⟨d, h3, h4⟩ := h.irTo_edge h2
      have hd : cs.length ≤ d := by
        by_contra hd
        rw [List.getElem?_append_left (by omega)] at h3
        exact h1 (List.mem_of_getElem? h3)
      refine ⟨d, hd, h4, Or.inl ?_⟩
      unfold Graph.locOf
      rw [h.ext_unknown h3 hd]
      exact fun h => h
    · obtain ⟨k, h2, h3, h4⟩ := (h.code_edges once).2 i h1
      refine ⟨k, h2, h4, Or.inl ?_⟩
      unfold Graph.locOf
      rw [h3]
      exact fun h => h
    · have hic := (h.callers_live h2 i).mpr h3
      obtain ⟨k, h4, h5⟩ := h.fict h2 hic
      refine ⟨k, h4, (h5.2.pred i).mpr hic, Or.inr ⟨k + 1, by omega, (h5.2.succ _).mpr (Or.inr ⟨h1, rfl⟩), ?_⟩⟩
      unfold Graph.locOf
      rw [h5.2.extern h1]
      exact fun h => h

/-- The local usage of a live function. -/
theorem RunFacts.loc_of (h : RunFacts demangle ord search p elf cs ext st0 stIr st g)
    (once : p.NamesOnce) {i : Nat} {c : Str} (hc : cs[i]? = some c) :
    ∃ asm : Bool, (asm = true ↔ ∃ x, p.Contains i (.asm x)) ∧
      ((∃ address size r, CodeOf search p elf i address size r ∧
        overrideLocal (mkNode c (mget c p.stackSizes) false).loc r.stack r.modifiesSp asm
          (isOutlined c) = .ok (g.locOf i)) ∨
      (¬ (p.target.isThumb = true ∧ ∃ t, elf.text = some t) ∧
        g.locOf i = (mkNode c (mget c p.stackSizes) false).loc)) := by
  refine ⟨stIr.asmFns.contains c, h.ir.asm_iff hc, ?_⟩
  by_cases ht : p.target.isThumb = true ∧ ∃ t, elf.text = some t
  · left
    obtain ⟨ht, ⟨stext, text⟩, hx⟩ := ht
    have hi := (List.getElem?_eq_some_iff.mp hc).1
    rw [h.live_length] at hi
    have he := List.getElem?_eq_getElem hi
    obtain ⟨c', k, r, nd, nd', h1, h2, h3, h4, h5⟩ :=
      (h.machine_facts ht hx).loc (h.nodes_distinct once) _ (List.getElem_mem hi)
    obtain ⟨rfl, hc'⟩ := h.ir.nodeOf once he h1
    rw [hc] at hc'
    obtain rfl := Option.some.inj hc'
    rw [h.llvm_local hc] at h3
    rw [← Option.some.inj h3] at h5
    refine ⟨_, _, r, ⟨ht, stext, text, _, hx, he, h2, rfl, rfl⟩, ?_⟩
    unfold Graph.locOf
    rw [h.node_st (List.getElem?_eq_some_iff.mp h4).1, h4]
    exact h5
  · right
    refine ⟨ht, ?_⟩
    have hq : st = stIr := by
      rcases h.ran with hq | hr
      · exact hq
      · obtain ⟨stext, text, hx, _⟩ := hr.facts
        exact absurd ⟨hr.thumb, _, hx⟩ ht
    have hnd := h.llvm_local hc
    have hlt := (List.getElem?_eq_some_iff.mp hnd).1
    rw [← hq] at hlt hnd
    rw [← h.node_st hlt] at hnd
    unfold Graph.locOf
    rw [hnd]

end run

/-! ### Two runs -/

theorem CodeOf.unique {search : TagSearch} {p : Program} {elf : Elf} {i a s a' s' : Nat}
    {r r' : ThumbState} (h : CodeOf search p elf i a s r) (h' : CodeOf search p elf i a' s' r') :
    r = r' := by
  obtain ⟨_, stext, text, e, h1, h2, h3, _⟩ := h
  obtain ⟨_, stext', text', e', h1', h2', h3', _⟩ := h'
  rw [h1] at h1'
  rw [h2] at h2'
  obtain ⟨rfl, rfl⟩ := Prod.mk.inj (Option.some.inj h1')
  obtain rfl := Option.some.inj h2'
  exact h3.unique h3'

theorem oneTrueVoid_perm {l l' : List Str} (hp : l'.Perm l)
    (one : ∀ v ∈ l, ∀ v' ∈ l, c!"core::fmt::Void" <+: v → c!"core::fmt::Void" <+: v' → v = v') :
    oneTrueVoid l' = oneTrueVoid l := by
  have hc : l'.contains c!"fmt::Void" = l.contains c!"fmt::Void" := by
    rw [Bool.eq_iff_iff, List.contains_iff_mem, List.contains_iff_mem, hp.mem_iff]
  have hf : l'.find? (fun v => startsWith v c!"core::fmt::Void") =
      l.find? (fun v => startsWith v c!"core::fmt::Void") := by
    cases h1 : l.find? (fun v => startsWith v c!"core::fmt::Void") with
    | none =>
      rw [List.find?_eq_none] at h1 ⊢
      exact fun x hx => h1 x (hp.mem_iff.mp hx)
    | some a =>
      have ha := List.mem_of_find?_eq_some h1
      have hka := List.find?_some h1
      cases h2 : l'.find? (fun v => startsWith v c!"core::fmt::Void") with
      | none =>
        rw [List.find?_eq_none] at h2
        exact absurd hka (h2 a (hp.mem_iff.mpr ha))
      | some b =>
        have hb := hp.mem_iff.mp (List.mem_of_find?_eq_some h2)
        have hkb := List.find?_some h2
        rw [startsWith_iff] at hka hkb
        rw [one b hb a ha hkb hka]
  unfold oneTrueVoid
  rw [hc, hf]
  split
  · rfl
  · split
    · rfl
    · cases l with
      | nil => rw [List.perm_nil.mp hp]
      | cons v l =>
        cases l with
        | nil => rw [List.perm_singleton.mp hp]
        | cons w l =>
          have := hp.length_eq
          match l' with
          | [] => rfl
          | [_] => simp at this
          | _ :: _ :: _ => rfl

section runs

variable {demangle : Str → Str} {ord ord' : HashOrder} {search : TagSearch} {elf : Elf}
  {cs cs' ext ext' : List Str} {st0 st0' stIr stIr' st st' : Build} {g g' : Graph}

theorem Program.Reordered.symOk (hr : p.Reordered p') (od : p.DefinesOnce) (oc : p.DeclaresOnce)
    (h : IrFacts demangle p cs ext st0 stIr) (h' : IrFacts demangle p' cs' ext' st0' stIr') :
    st0' = st0 ∧ cs' = cs := by
  constructor
  · have e1 := h.symOk
    have e2 := h'.symOk
    rw [hr.symPass od oc, hr.defined, e1] at e2
    exact (Except.ok.inj e2).symm
  · apply List.ext_getElem?
    intro i
    apply Option.ext
    intro c
    rw [← h'.principal, ← h.principal, hr.principal]

theorem Program.Reordered.marks (hr : p.Reordered p') (i : Nat) (sig : FnSig) :
    Marks p' i sig ↔ Marks p i sig := by
  unfold Marks
  simp only [hr.contains]

theorem Program.Reordered.irTo (hr : p.Reordered p') (i : Nat) (name : Str) :
    IrTo p' cs st0 i name ↔ IrTo p cs st0 i name := by
  unfold IrTo
  simp only [hr.contains, hr.target]

theorem Program.Reordered.codeOf (hr : p.Reordered p') : CodeOf search p' elf = CodeOf search p elf := by
  unfold CodeOf
  rw [hr.target, hr.defined]

theorem Program.Reordered.codeTo (hr : p.Reordered p') (i j : Nat) :
    CodeTo search p' elf cs st0 i j ↔ CodeTo search p elf cs st0 i j := by
  unfold CodeTo
  rw [hr.codeOf]

theorem Program.Reordered.codeUnknown (hr : p.Reordered p') (i : Nat) :
    CodeUnknown search p' elf cs st0 i ↔ CodeUnknown search p elf cs st0 i := by
  unfold CodeUnknown
  rw [hr.codeOf]
  simp only [hr.defines.mem_iff]

/-- Registered signatures and their callees. -/
theorem RunFacts.sigs_map (h : RunFacts demangle ord search p elf cs ext st0 stIr st g) :
    st.indirects.map (fun e => (e.1, e.2.callees)) = st0.indirects.map (fun e => (e.1, e.2.callees)) := by
  rw [h.machine.indirects]
  exact h.ir.ir.sigs

theorem RunFacts.same_entry (h : RunFacts demangle ord search p elf cs ext st0 stIr st g)
    (h' : RunFacts demangle ord' search p' elf cs' ext' st0 stIr' st' g') {e : FnSig × Indirect}
    (he : e ∈ st.indirects) : ∃ e' ∈ st'.indirects, e'.1 = e.1 ∧ e'.2.callees = e.2.callees := by
  have := List.mem_map_of_mem (f := fun e => (e.1, e.2.callees)) he
  rw [h.sigs_map, ← h'.sigs_map] at this
  obtain ⟨e', h1, h2⟩ := List.mem_map.mp this
  simp only [Prod.mk.injEq] at h2
  exact ⟨e', h1, h2⟩

theorem maybeVoid_iff (sig : FnSig) (v : Str) : maybeVoid sig = some v ↔ sig.Formats v := by
  obtain ⟨inputs, output⟩ := sig
  unfold maybeVoid FnSig.Formats
  constructor
  · intro h
    split at h
    · rename_i r f o h1 h2
      split at h
      · rename_i hc
        simp only [Bool.and_eq_true, beq_iff_eq] at hc
        split at h
        · simp only [Option.some.injEq] at h
          subst h
          simp only at h1 h2
          rw [h1, h2, hc.1, hc.2]
          exact ⟨rfl, rfl⟩
        · simp at h
      · simp at h
    · simp at h
  · rintro ⟨h1, h2⟩
    simp only at h1 h2
    subst h1 h2
    simp

theorem RunFacts.void_one (h : RunFacts demangle ord search p elf cs ext st0 stIr st g)
    (one : p.OneVoid) : ∀ v ∈ (ord.perm _ 0 st.indirects).filterMap (fun e => maybeVoid e.1),
      ∀ v' ∈ (ord.perm _ 0 st.indirects).filterMap (fun e => maybeVoid e.1),
      c!"core::fmt::Void" <+: v → c!"core::fmt::Void" <+: v' → v = v' := by
  have key : ∀ v ∈ (ord.perm _ 0 st.indirects).filterMap (fun e => maybeVoid e.1),
      ∃ j sig, (p.DefinedSig j sig ∨ p.DeclaredSig j sig) ∧ sig.Formats v := by
    intro v hv
    obtain ⟨e, he, h1⟩ := List.mem_filterMap.mp hv
    rw [(ord.isPerm _ _ _).mem_iff] at he
    rw [h.machine.indirects] at he
    obtain ⟨i0, h3, h4⟩ := indirect_mem h.ir he
    have h5 := (h.ir.sym.fresh _ h3).2.2
    rw [h4] at h5
    obtain ⟨j, hj⟩ := List.exists_mem_of_ne_nil _ h5
    obtain ⟨s, h6, h7⟩ := (callees_iff h.ir he j).mp hj
    exact ⟨j, e.1, (symSig_some h6 h7).imp id (·.2), (maybeVoid_iff _ _).mp h1⟩
  intro v hv v' hv' p1 p2
  obtain ⟨j, sig, a1, a2⟩ := key v hv
  obtain ⟨j', sig', b1, b2⟩ := key v' hv'
  exact one j j' sig sig' v v' a1 b1 a2 b2 p1 p2

theorem RunFacts.void_eq (h : RunFacts demangle ord search p elf cs ext st0 stIr st g)
    (h' : RunFacts demangle ord' search p' elf cs' ext' st0 stIr' st' g') (one : p.OneVoid) :
    voidOf ord' st' = voidOf ord st := by
  unfold voidOf
  refine oneTrueVoid_perm ?_ (h.void_one one)
  have hm : ∀ (l : List (FnSig × Indirect)), l.filterMap (fun e => maybeVoid e.1) =
      (l.map (fun e => (e.1, e.2.callees))).filterMap (fun e => maybeVoid e.1) := by
    intro l
    rw [List.filterMap_map]
    rfl
  refine (((ord'.isPerm _ _ _).filterMap _).trans ?_).trans ((ord.isPerm _ _ _).filterMap _).symm
  rw [hm, h'.sigs_map, ← h.sigs_map, ← hm]

/-- The live functions of both runs. -/
theorem RunFacts.same (hr : p.Reordered p') (once : p.NamesOnce) (od : p.DefinesOnce)
    (oc : p.DeclaresOnce) (safe : p.OrderSafe) (one : p.OneVoid)
    (h : RunFacts demangle ord search p elf cs ext st0 stIr st g)
    (h' : RunFacts demangle ord' search p' elf cs' ext' st0' stIr' st' g') :
    LiveSame cs.length g.Calls g.locOf g'.Calls g'.locOf := by
  obtain ⟨e1, e2⟩ := hr.symOk od oc h.ir h'.ir
  subst e1 e2
  have once' := hr.namesOnce once
  have safe' := hr.orderSafe safe
  have hv := h.void_eq h' one
  have hfm : st'.fmts = st.fmts := by
    rw [h'.machine.fmts, h'.ir.ir.fmts, h.machine.fmts, h.ir.ir.fmts]
  have hun : st'.hasUntypedSymbols = st.hasUntypedSymbols := by
    rw [h'.machine.untyped, h'.ir.ir.untyped, h.machine.untyped, h.ir.ir.untyped]
  refine ⟨h.liveGraph once safe, h'.liveGraph once' safe', ?_, ?_, ?_⟩
  · intro i j hi hj
    rw [h.hop_iff once safe hi hj, h'.hop_iff once' safe' hi hj]
    simp only [hr.irTo, hr.codeTo, hr.marks, hv, hfm]
    refine or_congr Iff.rfl (or_congr Iff.rfl ⟨?_, ?_⟩)
    · rintro ⟨e, k1, k2, k3⟩
      obtain ⟨e', l1, l2, l3⟩ := h.same_entry h' k1
      refine ⟨e', l1, l2 ▸ k2, ?_⟩
      unfold dashedCallees at k3 ⊢
      rw [l2, l3]
      exact k3
    · rintro ⟨e, k1, k2, k3⟩
      obtain ⟨e', l1, l2, l3⟩ := h'.same_entry h k1
      refine ⟨e', l1, l2 ▸ k2, ?_⟩
      unfold dashedCallees at k3 ⊢
      rw [l2, l3]
      exact k3
  · intro i hi
    rw [h.unknown_iff once safe hi, h'.unknown_iff once' safe' hi]
    simp only [hr.irTo, hr.codeUnknown, hr.marks, hun]
    refine or_congr Iff.rfl (or_congr Iff.rfl (and_congr Iff.rfl ⟨?_, ?_⟩))
    · rintro ⟨e, k1, k2⟩
      obtain ⟨e', l1, l2, _⟩ := h.same_entry h' k1
      exact ⟨e', l1, l2 ▸ k2⟩
    · rintro ⟨e, k1, k2⟩
      obtain ⟨e', l1, l2, _⟩ := h'.same_entry h k1
      exact ⟨e', l1, l2 ▸ k2⟩
  · intro i hi
    have hc := List.getElem?_eq_getElem hi
    obtain ⟨asm, a1, a2⟩ := h.loc_of once hc
    obtain ⟨asm', b1, b2⟩ := h'.loc_of once' hc
    simp only [hr.contains] at b1
    have : asm' = asm := by rw [Bool.eq_iff_iff, b1, a1]
    subst this
    rw [hr.codeOf, hr.stackSizes, hr.target] at b2
    rcases a2 with ⟨_, _, r, a3, a4⟩ | ⟨a3, a4⟩ <;> rcases b2 with ⟨_, _, r', b3, b4⟩ | ⟨b3, b4⟩
    · rw [a3.unique b3, b4] at a4
      exact (Except.ok.inj a4).symm
    · obtain ⟨k1, _, _, _, k2, _⟩ := a3
      exact absurd ⟨k1, _, k2⟩ b3
    · obtain ⟨k1, _, _, _, k2, _⟩ := b3
      exact absurd ⟨k1, _, k2⟩ a3
    · rw [a4, b4]

/-- A chain that does not fit into 64 bits is there in both runs. -/
theorem LiveSame.not_overflows {n : Nat} {g g' g1 : Graph}
    (h : LiveSame n g.Calls g.locOf g'.Calls g'.locOf) (hn : n ≤ g.nodes.length)
    (done : ∀ v < g.nodes.length, Done g g1 v) : ¬ Overflows g' := by
  rintro ⟨v, _, k, hk, ⟨us, hc, rfl⟩, _⟩
  rw [← h.right.weight_filter us] at hk
  have hp := hc.2.filter (fun u => decide (u < n))
  have hlive : ∀ u ∈ us.filter (fun u => decide (u < n)), u < n := fun u hu => by
    simpa using (List.mem_filter.mp hu).2
  generalize us.filter (fun u => decide (u < n)) = ws at hk hp hlive
  cases ws with
  | nil => simp [weight] at hk
  | cons u ws =>
    have hu := hlive u List.mem_cons_self
    have hg : GroupChain g'.Calls u (u :: ws) := by
      refine ⟨fun w hw => ?_, hp⟩
      rcases List.mem_cons.mp hw with rfl | hw
      · exact .refl _
      · exact ((List.pairwise_cons.mp hp).1 w hw).1
    obtain ⟨us', k1, k2⟩ := h.symm.chain hu hg
    obtain ⟨m, _, hb, hm⟩ := done u (by omega)
    have := hm.1.2 us' k1
    omega

theorem RunFacts.fict_node (h : RunFacts demangle ord search p elf cs ext st0 stIr st g) {k : Nat}
    {nd : Node} (hk : g.nodes[k]? = some nd) :
    nd.name ∈ cs ++ ext ∨ nd.name = c!"?" ∨
      ∃ e ∈ st.indirects, e.2.callers ≠ [] ∧ nd = dashedNode (voidOf ord st) e := by
  have hlt := (List.getElem?_eq_some_iff.mp hk).1
  by_cases h1 : k < (cs ++ ext).length
  · obtain ⟨nd', h2, h3, _⟩ := h.node (List.getElem?_eq_getElem h1)
    rw [hk] at h2
    rw [Option.some.inj h2, h3]
    exact Or.inl (List.getElem_mem _)
  · by_cases h2 : k < st.g.nodes.length
    · have h3 := h.machine.new k (by omega) h2
      rw [h.node_st h2, h3] at hk
      obtain rfl := Option.some.inj hk
      exact Or.inr (Or.inl rfl)
    · rcases h.out.new k (by omega) hlt with ⟨e, he, hc, hd⟩ | ⟨_, h3, _⟩
      · rw [hd.node] at hk
        obtain rfl := Option.some.inj hk
        rw [(ord.isPerm _ _ _).mem_iff] at he
        have he' := he
        rw [h.machine.indirects] at he'
        exact Or.inr (Or.inr ⟨e, he, (h.ir.ir.called e he').mp hc, rfl⟩)
      · rw [h3] at hk
        obtain rfl := Option.some.inj hk
        exact Or.inr (Or.inl rfl)

/-- Both runs show the same names. -/
theorem RunFacts.same_names (hr : p.Reordered p') (od : p.DefinesOnce)
    (oc : p.DeclaresOnce) (one : p.OneVoid)
    (h : RunFacts demangle ord search p elf cs ext st0 stIr st g)
    (h' : RunFacts demangle ord' search p' elf cs' ext' st0' stIr' st' g') {nd' : Node}
    (hn : nd' ∈ g'.nodes) : nd'.name = c!"?" ∨ ∃ nd ∈ g.nodes, nd.name = nd'.name := by
  obtain ⟨e1, e2⟩ := hr.symOk od oc h.ir h'.ir
  subst e1 e2
  have hv := h.void_eq h' one
  obtain ⟨k, hk⟩ := List.getElem?_of_mem hn
  have node : ∀ c ∈ cs' ++ ext, ∃ nd ∈ g.nodes, nd.name = c := by
    intro c hc
    obtain ⟨j, hj⟩ := List.getElem?_of_mem hc
    obtain ⟨nd, h1, h2, _⟩ := h.node hj
    exact ⟨nd, List.mem_of_getElem? h1, h2⟩
  rcases h'.fict_node hk with h1 | h1 | ⟨e, he, h1, h2⟩
  · right
    apply node
    rcases List.mem_append.mp h1 with h1 | h1
    · exact List.mem_append_left _ h1
    · obtain ⟨i, s, h2, h3⟩ := h'.ir.ir.extWhy _ h1
      have ht : IrTo p cs' st0' i nd'.name := by
        refine ⟨s, (hr.contains _ _).mp h2, ?_⟩
        rcases h3 with rfl | ⟨rfl, h4, h5, _, h6⟩
        · rfl
        · refine Or.inr ⟨?_, fun hh => h6 hh.1, Or.inr ⟨h5, rfl⟩⟩
          rw [← hr.target]
          exact h4
      obtain ⟨j, h4, _⟩ := h.irTo_edge ht
      exact List.mem_of_getElem? h4
  · exact Or.inl h1
  · right
    obtain ⟨i, hi⟩ := List.exists_mem_of_ne_nil _ h1
    obtain ⟨e', l1, l2, _⟩ := h'.same_entry h he
    have hm := (hr.marks _ _).mp ((h'.callers_live he i).mp hi)
    rw [← l2] at hm
    obtain ⟨j, _, h4⟩ := h.fict l1 ((h.callers_live l1 i).mpr hm)
    refine ⟨_, List.mem_of_getElem? h4.2.node, ?_⟩
    rw [h2, hv]
    unfold dashedNode
    rw [l2]

end runs

end CallStack
