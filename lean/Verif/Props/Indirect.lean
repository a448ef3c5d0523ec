import Verif.Spec.Code
import Verif.Proof.Sigs
import Verif.Props.Types
import Verif.Props.Build

/-!
Properties C36-C38: indirect calls (main.rs:514-542, 753-758, 955-1065).
-/

namespace CallStack

/-! ### Example programs -/

def exBinSig : FnSig := ⟨[.integer 32], some (.integer 32)⟩

/-- Pointer taking signatures: typed and opaque. -/
def exPtrSig : FnSig := ⟨[.pointer (.integer 8)], none⟩
def exOpaqueSig : FnSig := ⟨[.opaquePointer], none⟩

/-- `main` calls through `i32 (i32)*` and through `void (ptr)*`; `f` and `g` have the first type, `h` the
second with a typed pointer, `asm` is only declared. -/
def exIndirect : Program :=
  { target := .other
    defined := [(8, ⟨[c!"main"], 4⟩), (16, ⟨[c!"f"], 8⟩), (24, ⟨[c!"g"], 8⟩), (32, ⟨[c!"h"], 8⟩),
      (40, ⟨[c!"asm"], 8⟩)]
    undefined := []
    stackSizes := [(c!"main", 8), (c!"f", 16), (c!"g", 24), (c!"h", 32), (c!"asm", 40)]
    defines := [⟨c!"main", exSig, [.indirectCall exBinSig, .indirectCall exOpaqueSig]⟩,
      ⟨c!"f", exBinSig, []⟩, ⟨c!"g", exBinSig, []⟩, ⟨c!"h", exPtrSig, []⟩]
    declares := [⟨c!"asm", some exOpaqueSig⟩] }

/-! ### C36 -/

/-- **C36** An indirect call reaches every live function with a compatible type through a dashed node.
Partial: a function with definitions of several types is only considered under the first one
(`C36_second_type_dropped`), and a function that is only declared must not have the type of a formatting
function (`C36_declared_formatter_dropped`). -/
theorem C36_indirect_complete_partial {demangle : Str → Str} {ord : HashOrder} {search : TagSearch}
    {p : Program} {elf : Elf} {st : Build} {g : Graph} (once : p.NamesOnce)
    (declares : p.DeclaresOnce) (h : callGraph demangle ord search p elf = .ok (st, g)) {i j : Nat}
    {sig sig' : FnSig} (hc : p.Contains i (.indirectCall sig)) (ht : p.TypedAs j sig')
    (hs : sig'.Compatible sig) (hf : sig'.FmtShape → p.DefinedSig j sig') :
    ∃ k nd, g.nodes[k]? = some nd ∧ nd.dashed = true ∧ nd.loc = .exact 0 ∧ g.Calls i k ∧ g.Calls k j := by
  obtain ⟨cs, ext, st0, stIr, r⟩ := callGraph_facts once h
  obtain ⟨e, he, h1⟩ := symSig_typed declares ht
  obtain ⟨void, k, e', h2, h3, h4, h5⟩ := r.dashed hc he h1 ((C39_signatures _ _).mpr hs)
  refine ⟨k, _, h5.node, rfl, rfl, (h5.pred i).mpr h4, (h5.succ j).mpr (Or.inl ?_)⟩
  unfold dashedCallees
  split
  · rename_i hfm
    have hshape := isFormatter_fmt hfm
    rw [h2] at hshape
    refine (r.fmt j).mpr ⟨e, ?_⟩
    have hd := hf hshape
    cases hfd : firstDefine p.defines (realNames e.2) with
    | none => exact absurd hd ((firstDefine_none he).mp hfd sig')
    | some d =>
      refine ⟨d, he, rfl, ?_⟩
      rcases ht with ⟨_, h6⟩ | ⟨h6, _⟩
      · rw [h6 _ (firstDefine_some he hfd)]; exact hshape
      · exact absurd hd (h6 _)
  · exact h3

example (search : TagSearch) : ∃ st g,
    callGraph id sameOrder search exIndirect ⟨[], none⟩ = .ok (st, g) ∧
    g.nodes.map (·.name) = [c!"main", c!"f", c!"g", c!"h", c!"asm", c!"i32 (i32)*", c!"void (i8*)*",
      c!"void (ptr)*"] ∧
    g.edges = [(0, 5), (5, 1), (5, 2), (0, 6), (6, 3), (0, 7), (7, 4)] :=
  callGraph_eval rfl search _ (fun _ g => _ ∧ g.edges = _) (by decide +kernel)

example : exIndirect.NamesOnce ∧ exIndirect.DeclaresOnce ∧ exIndirect.TypedAs 4 exOpaqueSig ∧
    exIndirect.TypedAs 3 exPtrSig ∧ exPtrSig.Compatible exOpaqueSig := by
  have nd : ∀ (j : Nat) (n : Str) (a : Nat) (s : Sym), exIndirect.defined[j]? = some (a, s) →
      n ∉ s.names → ¬ exIndirect.LiveAt n j := by
    rintro j n a s h1 h2 ⟨a', s', h3, h4, _⟩
    rw [h1] at h3
    simp only [Option.some.injEq, Prod.mk.injEq] at h3
    obtain ⟨_, rfl⟩ := h3
    exact h2 h4
  refine ⟨namesOnce_of (by decide), by unfold Program.DeclaresOnce; decide, ?_, ?_, ?_⟩
  · right
    refine ⟨?_, ⟨_, List.mem_cons_self, mem_live rfl List.mem_cons_self rfl, rfl⟩, ?_⟩
    · rintro sig ⟨d, h1, h2, _⟩
      simp only [exIndirect, List.mem_cons, List.not_mem_nil, or_false] at h1
      rcases h1 with rfl | rfl | rfl | rfl <;> exact nd 4 _ _ _ rfl (by decide) h2
    · rintro sig ⟨d, h1, h2, h3⟩
      simp only [exIndirect, List.mem_cons, List.not_mem_nil, or_false] at h1
      subst h1
      exact (Option.some.inj h3).symm
  · left
    refine ⟨⟨⟨c!"h", exPtrSig, []⟩, by simp [exIndirect], mem_live rfl List.mem_cons_self rfl, rfl⟩, ?_⟩
    rintro sig ⟨d, h1, h2, h3⟩
    simp only [exIndirect, List.mem_cons, List.not_mem_nil, or_false] at h1
    rcases h1 with rfl | rfl | rfl | rfl
    · exact absurd h2 (nd 3 _ _ _ rfl (by decide))
    · exact absurd h2 (nd 3 _ _ _ rfl (by decide))
    · exact absurd h2 (nd 3 _ _ _ rfl (by decide))
    · exact h3.symm
  · exact ⟨.cons (Or.inr ⟨Or.inr ⟨_, rfl⟩, Or.inl rfl, Or.inr rfl⟩) .nil, .void⟩

/-- Two functions with different types were folded into one address; `main` calls the second type. -/
def exFolded : Program :=
  { target := .other
    defined := [(8, ⟨[c!"main"], 4⟩), (16, ⟨[c!"f", c!"g"], 8⟩)]
    undefined := []
    stackSizes := [(c!"main", 8), (c!"f", 16), (c!"g", 16)]
    defines := [⟨c!"main", exSig, [.indirectCall exPtrSig]⟩, ⟨c!"f", exBinSig, []⟩,
      ⟨c!"g", exPtrSig, []⟩]
    declares := [] }

/-- **C36** is false in general: the second type of a folded function is ignored, and the caller gets an
exact max that is too small. -/
theorem C36_second_type_dropped (search : TagSearch) :
    exFolded.NamesOnce ∧ exFolded.DeclaresOnce ∧ exFolded.Contains 0 (.indirectCall exPtrSig) ∧
    exFolded.DefinedSig 1 exPtrSig ∧
    ∃ (g' : Graph) (cycles : List (List Nat)),
      finalGraph id sameOrder search exFolded ⟨[], none⟩ none = .ok (g', cycles) ∧
      (∀ k, ¬ g'.Calls 0 k) ∧ g'.maxOf? 0 = some (.exact 8) := by
  refine ⟨namesOnce_of (by decide), by unfold Program.DeclaresOnce; decide, ?_, ?_, ?_⟩
  · exact ⟨_, List.mem_cons_self, mem_live rfl List.mem_cons_self rfl, by simp⟩
  · exact ⟨⟨c!"g", exPtrSig, []⟩, by simp [exFolded], mem_live rfl (by simp) rfl, rfl⟩
  · obtain ⟨g, cs, h1, h2, h3⟩ := finalGraph_eval (p := exFolded) rfl search ⟨[], none⟩ none
      (fun g _ => g.edges = [] ∧ g.maxOf? 0 = some (.exact 8)) (by decide +kernel)
    refine ⟨g, cs, h1, fun k => ?_, h3⟩
    unfold Graph.Calls
    rw [h2]
    simp

def exFmtSig (t : Ty) : FnSig :=
  ⟨[.pointer t, .pointer (.alias c!"core::fmt::Formatter")], some (.integer 1)⟩

/-- `main` calls a formatting function; the only one is declared, not defined, in the LLVM-IR. -/
def exFormatter : Program :=
  { target := .other
    defined := [(8, ⟨[c!"main"], 4⟩), (16, ⟨[c!"f"], 8⟩)]
    undefined := []
    stackSizes := [(c!"main", 8), (c!"f", 16)]
    defines := [⟨c!"main", exSig, [.indirectCall (exFmtSig (.alias c!"core::fmt::Void"))]⟩]
    declares := [⟨c!"f", some (exFmtSig (.alias c!"core::fmt::Void"))⟩] }

/-- **C36** is false in general: formatting functions that are only declared are dropped. -/
theorem C36_declared_formatter_dropped (search : TagSearch) :
    exFormatter.NamesOnce ∧ exFormatter.DeclaresOnce ∧
    exFormatter.Contains 0 (.indirectCall (exFmtSig (.alias c!"core::fmt::Void"))) ∧
    exFormatter.TypedAs 1 (exFmtSig (.alias c!"core::fmt::Void")) ∧
    ∃ (g' : Graph) (cycles : List (List Nat)),
      finalGraph id sameOrder search exFormatter ⟨[], none⟩ none = .ok (g', cycles) ∧
      ¬ Reach g'.Calls 0 1 ∧ g'.maxOf? 0 = some (.exact 8) := by
  refine ⟨namesOnce_of (by decide), by unfold Program.DeclaresOnce; decide, ?_, ?_, ?_⟩
  · exact ⟨_, List.mem_cons_self, mem_live rfl List.mem_cons_self rfl, by simp⟩
  · right
    refine ⟨?_, ⟨_, List.mem_cons_self, mem_live rfl List.mem_cons_self rfl, rfl⟩, ?_⟩
    · rintro sig ⟨d, h1, ⟨a, s, h2, h3, _⟩, _⟩
      simp only [exFormatter, List.mem_cons, List.not_mem_nil, or_false] at h1
      subst h1
      simp only [exFormatter, List.getElem?_cons_succ, List.getElem?_cons_zero, Option.some.injEq,
        Prod.mk.injEq] at h2
      obtain ⟨_, rfl⟩ := h2
      revert h3
      decide
    · rintro sig ⟨d, h1, _, h3⟩
      simp only [exFormatter, List.mem_cons, List.not_mem_nil, or_false] at h1
      subst h1
      exact (Option.some.inj h3).symm
  · obtain ⟨g, cs, h1, h2, h3⟩ := finalGraph_eval (p := exFormatter) rfl search ⟨[], none⟩ none
      (fun g _ => g.edges = [(0, 2)] ∧ g.maxOf? 0 = some (.exact 8)) (by decide +kernel)
    refine ⟨g, cs, h1, fun hr => ?_, h3⟩
    have key : ∀ a b, Reach g.Calls a b → a ≠ 1 → b ≠ 1 := by
      intro a b h
      induction h with
      | refl => exact id
      | step h _ ih =>
        intro _
        apply ih
        unfold Graph.Calls at h
        rw [h2] at h
        simp at h
        omega
    exact key 0 1 hr (by simp) rfl

/-! ### C37 -/

/-- **C37** Every dashed node has local usage 0 and stands for one signature `sig`: it is labelled with it,
it is called exactly by the functions that contain an indirect call with a compatible signature (and there
is one), and it calls only live functions of type `sig`, formatting functions (if `sig` is the type of
one), or the node `?`. The latter happens only if some symbol is untyped. -/
theorem C37_dashed_nodes {demangle : Str → Str} {ord : HashOrder} {search : TagSearch}
    {p : Program} {elf : Elf} {st : Build} {g : Graph} (once : p.NamesOnce)
    (declares : p.DeclaresOnce) (h : callGraph demangle ord search p elf = .ok (st, g)) {k : Nat}
    {nd : Node} (hk : g.nodes[k]? = some nd) (hd : nd.dashed = true) :
    nd.loc = .exact 0 ∧ ∃ sig : FnSig,
      (nd.name = sig.show ++ c!"*" ∨ (sig.FmtShape ∧ nd.name = fmtLabel)) ∧
      (∃ i, g.Calls i k) ∧
      (∀ i, g.Calls i k ↔ ∃ sig', p.Contains i (.indirectCall sig') ∧ sig.Compatible sig') ∧
      ∀ j, g.Calls k j →
        p.DefinedSig j sig ∨ ((∀ sig', ¬ p.DefinedSig j sig') ∧ p.DeclaredSig j sig) ∨
        (sig.FmtShape ∧ ∃ sig', p.DefinedSig j sig' ∧ sig'.FmtShape) ∨
        (g.nodes[j]? = some (mkNode c!"?" none false) ∧ ∃ j', p.Untyped j') := by
  obtain ⟨cs, ext, st0, stIr, r⟩ := callGraph_facts once h
  obtain ⟨void, e, h1, h2, h3⟩ := r.of_dashed hk hd
  have hnd : nd = dashedNode void e := by
    have := h3.node
    rw [hk] at this
    exact Option.some.inj this
  subst hnd
  refine ⟨rfl, e.1, ?_, ?_, ?_, ?_⟩
  · unfold dashedNode labelSig
    simp only [mkNode]
    split
    · rename_i hf
      simp only [Bool.and_eq_true] at hf
      have hs := isFormatter_fmt hf.1
      refine Or.inr ⟨hs, ?_⟩
      obtain ⟨⟨t, hi⟩, ho⟩ := hs
      rw [hi, ho]
      rfl
    · exact Or.inl rfl
  · have := (r.ir.ir.called e h1).mp h2
    obtain ⟨i, hi⟩ := List.exists_mem_of_ne_nil _ this
    exact ⟨i, (h3.pred i).mpr hi⟩
  · intro i
    unfold Graph.Calls
    rw [h3.pred i, r.ir.ir.callers e h1 i]
    simp only [C39_signatures]
  · intro j hj
    rcases (h3.succ j).mp hj with hj | ⟨hu, rfl⟩
    · unfold dashedCallees at hj
      split at hj
      · rename_i hf
        obtain ⟨e', d, h4, h5, h6⟩ := (r.fmt j).mp hj
        exact Or.inr (Or.inr (Or.inl ⟨isFormatter_fmt hf, d.sig, firstDefine_some h4 h5, h6⟩))
      · obtain ⟨s, h4, h5⟩ := (callees_iff r.ir h1 j).mp hj
        rcases symSig_some h4 h5 with h6 | h6
        · exact Or.inl h6
        · exact Or.inr (Or.inl h6)
    · refine Or.inr (Or.inr (Or.inr ⟨h3.extern hu, ?_⟩))
      obtain ⟨j', n, h4, _⟩ := (r.untyped declares).mp hu
      exact ⟨j', h4⟩

/-- A dashed node for formatting functions: `f` and `g` format different types. -/
example (search : TagSearch) : ∃ st g,
    callGraph id sameOrder search
      { exFormatter with
        defined := [(8, ⟨[c!"main"], 4⟩), (16, ⟨[c!"f"], 8⟩), (24, ⟨[c!"g"], 8⟩)]
        defines := [⟨c!"main", exSig, [.indirectCall (exFmtSig (.alias c!"core::fmt::Void"))]⟩,
          ⟨c!"f", exFmtSig (.alias c!"core::fmt::Void"), []⟩, ⟨c!"g", exFmtSig (.integer 8), []⟩]
        declares := [] } ⟨[], none⟩ = .ok (st, g) ∧
    g.nodes.map (·.name) = [c!"main", c!"f", c!"g", fmtLabel] ∧
    g.edges = [(0, 3), (3, 1), (3, 2)] :=
  callGraph_eval rfl search _ (fun _ g => _ ∧ g.edges = _) (by decide +kernel)

/-! ### C38 -/

/-- **C38** If some live function has no type and is not an outlined one, every indirect call that is
represented in the graph may also call an unknown function, so that its max is not exact. Partial: some
live function must have a compatible type; see `C38_unmatched_call_dropped`. -/
theorem C38_untyped_edge_partial {demangle : Str → Str} {ord : HashOrder} {search : TagSearch}
    {p : Program} {elf : Elf} {st : Build} {g : Graph} (once : p.NamesOnce)
    (declares : p.DeclaresOnce) (h : callGraph demangle ord search p elf = .ok (st, g)) {i j j' : Nat}
    {sig sig' : FnSig} {n : Str} (hu : p.Untyped j') (hn : p.Principal j' n) (ho : ¬ OutlinedName n)
    (hc : p.Contains i (.indirectCall sig)) (ht : p.TypedAs j sig') (hs : sig'.Compatible sig) :
    ∃ k q, g.Calls i k ∧ g.Calls k q ∧ g.nodes[q]? = some (mkNode c!"?" none false) := by
  obtain ⟨cs, ext, st0, stIr, r⟩ := callGraph_facts once h
  obtain ⟨e, he, h1⟩ := symSig_typed declares ht
  obtain ⟨void, k, e', h2, h3, h4, h5⟩ := r.dashed hc he h1 ((C39_signatures _ _).mpr hs)
  have ho' : isOutlined n = false := by
    rw [← Bool.not_eq_true, isOutlined_iff]; exact ho
  have hut := (r.untyped declares).mpr ⟨j', n, hu, hn, ho'⟩
  exact ⟨k, k + 1, (h5.pred i).mpr h4, (h5.succ _).mpr (Or.inr ⟨hut, rfl⟩), h5.extern hut⟩

/-- **C38** Neither such a function nor any of its transitive callers is printed with an exact max. -/
theorem C38_untyped_inexact_partial {demangle : Str → Str} {ord : HashOrder} {search : TagSearch}
    {p : Program} {elf : Elf} {g' : Graph} {cycles : List (List Nat)} (once : p.NamesOnce)
    (declares : p.DeclaresOnce)
    (sizes : p.SizesU64) (fits : elf.Fits32)
    (h : finalGraph demangle ord search p elf none = .ok (g', cycles)) {i j j' v : Nat}
    {sig sig' : FnSig} {n : Str} (hu : p.Untyped j') (hn : p.Principal j' n) (ho : ¬ OutlinedName n)
    (hc : p.Contains i (.indirectCall sig)) (ht : p.TypedAs j sig') (hs : sig'.Compatible sig)
    (hv : Reach g'.Calls v i) (m : Nat) : g'.maxOf? v ≠ some (.exact m) := by
  obtain ⟨st, g, h1, h2⟩ := finalGraph_facts h
  obtain ⟨k, q, h3, h4, h5⟩ := C38_untyped_edge_partial once declares h1 hu hn ho hc ht hs
  obtain ⟨cs, ext, st0, stIr, r⟩ := callGraph_facts once h1
  have hcalls := (h2.calls r.wf (r.u64 once sizes fits)).1
  refine h2.inexact r (r.u64 once sizes fits) (u := q) ?_ ?_ m
  · rw [hcalls] at hv ⊢
    exact hv.trans (.step h3 (.step h4 (.refl _)))
  · unfold Graph.locOf
    rw [h5]
    rfl

/-- `main` performs an indirect call; the type of `asm` is unknown. -/
def exUntyped (sig : FnSig) : Program :=
  { target := .other
    defined := [(8, ⟨[c!"main"], 4⟩), (16, ⟨[c!"f"], 8⟩), (24, ⟨[c!"asm"], 8⟩)]
    undefined := []
    stackSizes := [(c!"main", 8), (c!"f", 16)]
    defines := [⟨c!"main", exSig, [.indirectCall sig]⟩, ⟨c!"f", exBinSig, []⟩]
    declares := [] }

theorem exUntyped_untyped (sig : FnSig) : (exUntyped sig).Untyped 2 := by
  refine ⟨⟨c!"asm", mem_live rfl List.mem_cons_self rfl⟩, fun s => ⟨?_, ?_⟩⟩
  · rintro ⟨d, h1, ⟨a, s, h2, h3, _⟩, _⟩
    simp only [exUntyped, List.mem_cons, List.not_mem_nil, or_false] at h1
    simp only [exUntyped, List.getElem?_cons_succ, List.getElem?_cons_zero, Option.some.injEq,
        Prod.mk.injEq] at h2
    obtain ⟨_, rfl⟩ := h2
    revert h3
    rcases h1 with rfl | rfl <;> simp
  · rintro ⟨d, h1, _⟩
    simp [exUntyped] at h1

/-- The call may go to `asm`: `main` gets `max >= 24`. -/
example (search : TagSearch) : ∃ g' cycles,
    finalGraph id sameOrder search (exUntyped exBinSig) ⟨[], none⟩ none = .ok (g', cycles) ∧
    g'.maxOf? 0 = some (.lowerBound 24) :=
  finalGraph_eval rfl search _ none (fun g _ => g.maxOf? 0 = _) (by decide +kernel)

/-- **C38** is false in general: if no live function has a compatible type the indirect call is dropped,
although it may go to the untyped function, and `main` gets an exact max. -/
theorem C38_unmatched_call_dropped (search : TagSearch) :
    (exUntyped exPtrSig).NamesOnce ∧ (exUntyped exPtrSig).Untyped 2 ∧
    (exUntyped exPtrSig).Contains 0 (.indirectCall exPtrSig) ∧
    ∃ (g' : Graph) (cycles : List (List Nat)),
      finalGraph id sameOrder search (exUntyped exPtrSig) ⟨[], none⟩ none = .ok (g', cycles) ∧
      g'.maxOf? 0 = some (.exact 8) :=
  ⟨namesOnce_of (by decide), exUntyped_untyped _,
    ⟨_, List.mem_cons_self, mem_live rfl List.mem_cons_self rfl, by simp⟩,
    finalGraph_eval rfl search _ none (fun g _ => g.maxOf? 0 = _) (by decide +kernel)⟩

end CallStack
