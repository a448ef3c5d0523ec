import Verif.Proof.Figures
import Verif.Props.Shown
import Verif.Props.IndirectExact

/-!
Property C85: the figures, exactly (main.rs:380-1290).
-/

namespace CallStack

/-- The figures of a run without a start point, for the type that was chosen. -/
theorem RunFacts.figures {demangle : Str → Str} {ord : HashOrder} {search : TagSearch} {p : Program}
    {elf : Elf} {g' : Graph} {cycles : List (List Nat)} {cs ext : List Str} {st0 stIr st : Build} {g : Graph}
    (once : p.NamesOnce) (defs : p.DefinesOnce)
    (decls : p.DeclaresOnce) (addressed : p.Addressed) (safe : p.OrderSafe) (sizes : p.SizesU64)
    (fits : elf.Fits32) (h : finalGraph demangle ord search p elf none = .ok (g', cycles))
    (h1 : callGraph demangle ord search p elf = .ok (st, g)) (h2 : FinalFacts st.hasStackUsageInfo g g' cycles)
    (r : RunFacts demangle ord search p elf cs ext st0 stIr st g) :
    p.Chosen (voidOf ord st) ∧ ∀ i < p.defined.length,
      p.LocalIs search elf i (g'.locOf i) ∧
      ((∃ m, g'.maxOf? i = some m) ↔ ∃ j k, p.Frame j k) ∧
      ∀ m, g'.maxOf? i = some m →
        Heaviest (p.MayCall search elf (voidOf ord st)) g'.locOf i m.bytes ∧
        (m.IsExact ↔ ∀ u, Reach (p.MayCall search elf (voidOf ord st)) i u →
          (g'.locOf u).Known ∧ ¬ p.MayLeave search elf u ∧
          (Recursive (p.MayCall search elf (voidOf ord st)) u → (g'.locOf u).bytes = 0)) := by
  have hu := r.u64 once sizes fits
  obtain ⟨g1, ha, he, hloc, hmx⟩ := h2.analysis
  have hE := r.mayCall_iff once defs decls addressed safe
  have hlive := r.liveGraph once safe
  have hsame := analyzeMax_edges r.wf hu ha
  have hl : g'.locOf = g.locOf := by
    funext i
    rw [hloc, hsame.locOf]
  refine ⟨r.chosen defs decls, fun i hi => ?_⟩
  have hi' : i < cs.length := by rw [r.live_length]; exact hi
  have hlt : i < g'.nodes.length := by
    obtain ⟨st', ga, gb, a1, a2, a3, _⟩ := finalGraph_steps h
    rw [h1] at a1
    simp only [Except.ok.injEq, Prod.mk.injEq] at a1
    obtain ⟨rfl, rfl⟩ := a1
    rw [← (shortenNodes_iff.mp a3).length_eq, (analyzeMax_edges r.wf hu a2).length]
    obtain ⟨nd, h3, _⟩ := r.node (List.getElem?_append_left (l₂ := ext) hi' ▸ List.getElem?_eq_getElem hi')
    exact (List.getElem?_eq_some_iff.mp h3).1
  have hshown := C82_shown_iff sizes fits h hlt
  refine ⟨hl ▸ r.localIs once hi', hshown, fun m hm => ?_⟩
  have hinfo : st.hasStackUsageInfo = true := r.info_iff.mpr (hshown.mp ⟨m, hm⟩)
  rw [hinfo] at ha
  rw [hmx] at hm
  obtain ⟨⟨h3, h4⟩, _⟩ := analyzeMax_maxSpec r.wf hu ha hm
  rw [hsame.calls, hsame.locOf] at h3 h4
  rw [hl, ← hE]
  refine ⟨hlive.heaviest hi' h3, h4.trans ((hlive.bounded_iff hi').trans ?_)⟩
  refine forall_congr' fun u => imp_congr_right fun hr => ?_
  rw [r.mayLeave_iff once defs decls safe (LiveHop.lt hi' hr)]
  exact and_congr_right fun _ => and_comm

/-- **C85** The figures of a run without a start point are determined by the program: the local usage of each
live function is the one of `LocalIs`; a maximum is shown exactly if the compiler reports some frame; it is the
weight of the heaviest chain of recursion groups along possible calls between live functions; and it is exact
exactly if everything that can be reached is known, stays in the executable, and does not use stack in recursion.
The names of functions, hash orders and the shape of the graph play no role beyond that. -/
theorem C85_figures {demangle : Str → Str} {ord : HashOrder} {search : TagSearch} {p : Program}
    {elf : Elf} {g' : Graph} {cycles : List (List Nat)} (once : p.NamesOnce) (defs : p.DefinesOnce)
    (decls : p.DeclaresOnce) (addressed : p.Addressed) (safe : p.OrderSafe) (sizes : p.SizesU64)
    (fits : elf.Fits32) (h : finalGraph demangle ord search p elf none = .ok (g', cycles)) :
    ∃ chosen, p.Chosen chosen ∧ ∀ i < p.defined.length,
      p.LocalIs search elf i (g'.locOf i) ∧
      ((∃ m, g'.maxOf? i = some m) ↔ ∃ j k, p.Frame j k) ∧
      ∀ m, g'.maxOf? i = some m →
        Heaviest (p.MayCall search elf chosen) g'.locOf i m.bytes ∧
        (m.IsExact ↔ ∀ u, Reach (p.MayCall search elf chosen) i u →
          (g'.locOf u).Known ∧ ¬ p.MayLeave search elf u ∧
          (Recursive (p.MayCall search elf chosen) u → (g'.locOf u).bytes = 0)) := by
  obtain ⟨st, g, h1, h2⟩ := finalGraph_facts h
  obtain ⟨cs, ext, st0, stIr, r⟩ := callGraph_facts once h1
  exact ⟨_, RunFacts.figures once defs decls addressed safe sizes fits h h1 h2 r⟩

/-- The hypotheses are met by the program of `exFormatters`. If the type of `g` stands for any type then `main`
may call both formatting functions, through either call of that type, and `g` is the heavier one. -/
example (search : TagSearch) :
    (exFormatters c!"S" c!"core::fmt::Void.1").NamesOnce ∧
    (exFormatters c!"S" c!"core::fmt::Void.1").DefinesOnce ∧
    (exFormatters c!"S" c!"core::fmt::Void.1").DeclaresOnce ∧
    (exFormatters c!"S" c!"core::fmt::Void.1").Addressed ∧
    (exFormatters c!"S" c!"core::fmt::Void.1").OrderSafe ∧
    (exFormatters c!"S" c!"core::fmt::Void.1").SizesU64 ∧
    (∃ g cs, finalGraph id sameOrder search (exFormatters c!"S" c!"core::fmt::Void.1") ⟨[], none⟩ none =
        .ok (g, cs) ∧ g.locOf 0 = .exact 8 ∧ g.maxOf? 0 = some (.exact 32)) ∧
    (exFormatters c!"S" c!"core::fmt::Void.1").MayCall search ⟨[], none⟩ (some c!"core::fmt::Void.1") 0 1 ∧
    (exFormatters c!"S" c!"core::fmt::Void.1").MayCall search ⟨[], none⟩ (some c!"core::fmt::Void.1") 0 2 := by
  have hdef : ∀ {i x}, (exFormatters c!"S" c!"core::fmt::Void.1").Contains i x → ∃ sig, x = .indirectCall sig := by
    rintro i x ⟨d, h1, _, h2⟩
    simp only [exFormatters, List.mem_cons, List.not_mem_nil, or_false] at h1
    rcases h1 with rfl | rfl | rfl
    · simp only [List.mem_cons, List.not_mem_nil, or_false] at h2
      rcases h2 with rfl | rfl <;> exact ⟨_, rfl⟩
    · simp at h2
    · simp at h2
  have hmain : ∀ sig, (sig = exFmtSig (.alias c!"S") ∨ sig = exFmtSig (.alias c!"core::fmt::Void.1")) →
      (exFormatters c!"S" c!"core::fmt::Void.1").Contains 0 (.indirectCall sig) := by
    intro sig hs
    refine ⟨_, List.mem_cons_self, ⟨_, _, rfl, List.mem_cons_self, by rw [← isTag_iff]; decide⟩, ?_⟩
    rcases hs with rfl | rfl <;> simp
  have hfmt : FormatsChosen (some c!"core::fmt::Void.1") (exFmtSig (.alias c!"core::fmt::Void.1")) := by
    rw [← isFormatter_iff]; decide
  have hd1 : (exFormatters c!"S" c!"core::fmt::Void.1").FirstDefined 1 (exFmtSig (.alias c!"S")) :=
    ⟨_, _, [], [], ⟨c!"f", exFmtSig (.alias c!"S"), []⟩, rfl, rfl, by rw [← isTag_iff]; decide,
      by simp [exFormatters], rfl, by simp⟩
  have hd2 : (exFormatters c!"S" c!"core::fmt::Void.1").FirstDefined 2
      (exFmtSig (.alias c!"core::fmt::Void.1")) :=
    ⟨_, _, [], [], ⟨c!"g", exFmtSig (.alias c!"core::fmt::Void.1"), []⟩, rfl, rfl,
      by rw [← isTag_iff]; decide, by simp [exFormatters], rfl, by simp⟩
  have hcall : (exFormatters c!"S" c!"core::fmt::Void.1").MayCallType 0
      (exFmtSig (.alias c!"core::fmt::Void.1")) :=
    ⟨⟨2, .inl hd2⟩, _, hmain _ (.inr rfl), (C39_signatures _ _).mp (by decide)⟩
  refine ⟨namesOnce_of (by decide), by unfold Program.DefinesOnce; decide,
    by unfold Program.DeclaresOnce; decide, by unfold Program.Addressed; decide, ?_, ?_,
    finalGraph_eval rfl search _ none (fun g _ => g.locOf 0 = _ ∧ g.maxOf? 0 = _) (by decide +kernel),
    .inr (.inr ⟨_, hcall, .inr ⟨hfmt, _, hd1, ?_⟩⟩), .inr (.inr ⟨_, hcall, .inr ⟨hfmt, _, hd2, ?_⟩⟩)⟩
  · refine orderSafe_of ⟨fun r _ => .inr ⟨fun i h => ?_, fun _ i h => ?_⟩, .inr fun i h => ?_⟩ <;>
      · obtain ⟨_, h⟩ := hdef h
        simp at h
  · intro n k hk
    have := mget_mem hk
    simp only [exFormatters, List.mem_cons, List.not_mem_nil, or_false, Prod.mk.injEq] at this
    omega
  · exact ⟨⟨_, rfl⟩, rfl⟩
  · exact ⟨⟨_, rfl⟩, rfl⟩

/-- In the program of `exThumb` the call of `f` is seen in the LLVM-IR and in the machine code; `f` may leave the
executable because its machine code contains an indirect call. -/
example : exThumb.MayCall linearSearch exThumbElf none 0 1 ∧ exThumb.CodeCalls linearSearch exThumbElf 0 1 ∧
    exThumb.MayLeave linearSearch exThumbElf 1 ∧
    exThumb.LocalIs linearSearch exThumbElf 0 (.exact 8) := by
  have h1 : exThumb.Decoded linearSearch exThumbElf 1 264 4 ⟨[], [], true, false, some 0⟩ :=
    decoded_iff.mpr ⟨_, _, _, _, rfl, rfl, rfl, by decide +kernel, by decide, by decide, by decide +kernel⟩
  have h0 : exThumb.Decoded linearSearch exThumbElf 0 256 8 ⟨[8], [], false, true, some 8⟩ :=
    decoded_iff.mpr ⟨_, _, _, _, rfl, rfl, rfl, by decide +kernel, by decide, by decide, by decide +kernel⟩
  have hc : exThumb.CodeCalls linearSearch exThumbElf 0 1 :=
    ⟨rfl, 256, 8, ⟨[8], [], false, true, some 8⟩, 264, h0, Or.inl ⟨8, by simp, by decide⟩, _, rfl⟩
  refine ⟨.inr (.inl hc), hc, .inr (.inl ⟨rfl, ?_, _, _, _, h1, rfl⟩), ?_⟩
  · intro d hd
    simp only [exThumb, List.mem_singleton] at hd
    subst hd
    rintro ⟨a, s, h1, h2, _⟩
    simp only [exThumb, List.getElem?_cons_succ, List.getElem?_cons_zero, Option.some.injEq,
      Prod.mk.injEq] at h1
    rw [← h1.2] at h2
    revert h2
    decide
  · have hf : exThumb.Frame 0 8 :=
      ⟨_, _, [], _, [], rfl, rfl, by rw [← isTag_iff]; decide, rfl, by simp⟩
    refine .code (llvm := some 8) (name := c!"main") rfl h0 hf ?_ (.agree 8 (by decide))
    exact ⟨_, _, [], [], rfl, rfl, by rw [← isTag_iff]; decide, .inl ⟨⟨8, rfl⟩, by simp⟩⟩

end CallStack
