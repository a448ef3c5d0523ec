import Verif.Props.SharedGaps
import Verif.Props.SharedFigures
import Verif.Props.LogEnd
import Verif.Props.LogText

/-!
Property C122, continued: messages about indirect calls, the lines that are printed, and why a maximum is only a lower
bound, if several functions may have the same names.
-/

namespace CallStack

section run

variable {demangle : Str → Str} {ord : HashOrder} {search : TagSearch} {p : Program} {elf : Elf}

/-- **C122** The tool says that an indirect call may reach nothing under the conditions of C92. -/
theorem C122_no_callees {start : Option Str} {out : Graph × List (List Nat)} (alike : p.NamesAlike)
    (defs : p.DefinesOnce) (decls : p.DeclaresOnce)
    (h : finalGraph demangle ord search p elf start = .ok out) :
    ∃ chosen, p.Chosen chosen ∧ ∀ t, .noCallees t ∈ runLog demangle ord search p elf start ↔
      ∃ sig, p.Called sig ∧ (∃ j, p.TakenAs j sig) ∧ FormatsChosen chosen sig ∧
        (¬ ∃ j s, p.FirstDefined j s ∧ s.FmtShape) ∧
        (t = sig.show ∨ (¬ p.SomeUntyped ∧ LabelOf chosen sig t)) := by
  obtain ⟨st, g, g1, h1, h2⟩ := finalGraph_start h
  obtain ⟨cs, st0, stIr, f⟩ := callGraph_shared h1
  refine ⟨voidOf ord st, f.chosen defs decls, fun t => ?_⟩
  rw [f.mem_log h1 h2]
  simp only [LogMsg.ofSym, LogMsg.ofStmt, LogMsg.ofCode, LogMsg.ofIndirect, LogMsg.ofStart, Bool.false_eq_true, true_and,
    reduceCtorEq, false_and, or_false, false_or]
  have hun : st.hasUntypedSymbols = false ↔ ¬ p.SomeUntyped := by
    rw [← Bool.not_eq_true, f.untyped decls]
    rfl
  have reg : ∀ sig, (∃ i0, (sig, i0) ∈ st.indirects) ↔ ∃ j, p.TakenAs j sig := by
    intro sig
    rw [f.machine.indirects]
    exact f.registered defs decls sig
  have hcalled : ∀ e ∈ st.indirects, e.2.called = true ↔ p.Called e.1 := by
    intro e he
    have he' : e ∈ stIr.indirects := by rw [← f.machine.indirects]; exact he
    unfold Program.Called
    constructor
    · intro h
      have hne := (EdgeStep.defines p.defines f.definesOk).called (fun e0 h0 h3 => by
        rw [(f.sym.fresh e0 h0).1] at h3
        simp at h3) e he' h
      obtain ⟨i, hi⟩ := List.exists_mem_of_ne_nil _ hne
      obtain ⟨i', s, _, h1, h2⟩ := (f.callers_iff alike he' i).mp hi
      exact ⟨i', s, h1, h2⟩
    · rintro ⟨i, s, h2, h3⟩
      obtain ⟨d, hd, ⟨ai, si, hi, hni⟩, hs⟩ := id h2
      obtain ⟨ci, hci, _⟩ := f.canon_at hi
      obtain ⟨m, hm, hlm⟩ := f.lookup alike hi hci
      exact (f.marked d hd ci m s (f.alias alike hi hci hni) hm hs _ he' ((C39_signatures _ _).mpr h3)).1
  have hempty : ∀ e ∈ st.indirects, dashedCallees st.fmts (voidOf ord st) e = [] ↔
      FormatsChosen (voidOf ord st) e.1 ∧ ¬ ∃ j s, p.FirstDefined j s ∧ s.FmtShape := by
    intro e he
    have hcand := f.candidate_iff defs decls (f.machine.indirects ▸ he)
    rw [List.eq_nil_iff_forall_not_mem]
    simp only [hcand, Program.Candidate, not_or, not_and, not_exists]
    obtain ⟨j, hj⟩ := (reg e.1).mp ⟨_, he⟩
    constructor
    · intro h3
      by_cases hf : FormatsChosen (voidOf ord st) e.1
      · exact ⟨hf, fun j s => (h3 j).2 hf s⟩
      · exact absurd hj ((h3 j).1 hf)
    · rintro ⟨hf, h3⟩ j
      exact ⟨fun h4 => absurd hf h4, fun _ => h3 j⟩
  unfold indirectsLog
  simp only [List.mem_append, List.mem_flatMap, mem_indirectStepLog, LogMsg.noCallees.injEq]
  have hno : LogMsg.noCallees t ∉ (if st.hasUntypedSymbols = true then [LogMsg.untypedSymbols] else []) := by
    split <;> simp
  simp only [hno, false_or, (ord.isPerm _ _ _).mem_iff]
  constructor
  · rintro ⟨e, h3, h4, h5⟩
    refine ⟨e.1, (hcalled e h3).mp h4, (reg e.1).mp ⟨_, h3⟩, ?_⟩
    rcases h5 with ⟨rfl, h5, h6⟩ | ⟨rfl, h5, h6⟩
    · have : dashedCallees st.fmts (voidOf ord st) e = [] := by
        unfold dashedCallees voidOf
        rw [if_pos h5, h6]
      obtain ⟨h7, h8⟩ := (hempty e h3).mp this
      exact ⟨h7, h8, .inl rfl⟩
    · obtain ⟨h7, h8⟩ := (hempty e h3).mp h6
      exact ⟨h7, h8, .inr ⟨hun.mp h5, labelOf_dashed _ e⟩⟩
  · rintro ⟨sig, h3, h4, h5, h6, h7⟩
    obtain ⟨i0, h8⟩ := (reg sig).mpr h4
    have h9 := (hempty _ h8).mpr ⟨h5, h6⟩
    refine ⟨_, h8, (hcalled _ h8).mpr h3, ?_⟩
    rcases h7 with rfl | ⟨h7, h10⟩
    · refine .inl ⟨rfl, (isFormatter_iff _ _).mpr h5, ?_⟩
      unfold dashedCallees at h9
      rw [if_pos ((isFormatter_iff _ _).mpr h5)] at h9
      exact h9
    · refine .inr ⟨?_, hun.mpr h7, h9⟩
      have h11 := labelOf_dashed (voidOf ord st) (sig, i0)
      change t = (dashedNode (voidOf ord st) (sig, i0)).name
      unfold LabelOf at h10 h11
      by_cases hc : FormatsChosen (voidOf ord st) sig ∧ voidOf ord st ≠ some c!"fmt::Void"
      · rw [h10.1 hc, h11.1 hc]
      · rw [h10.2 hc, h11.2 hc]


/-- As for `exNoCallees`, if there is another function `f`. -/
example (search : TagSearch) :
    runLog id sameOrder search { exNoCallees with defined := exNoCallees.defined ++ [(24, ⟨[c!"f"], 8⟩)] }
      ⟨[], none⟩ none =
      [.noCallees c!"i1 (%\"core::fmt::Void\"*, %\"core::fmt::Formatter\"*)", .noCallees fmtLabel] := by
  rw [runLog_other rfl search linearSearch _ ⟨[], none⟩]
  decide +kernel

/-- **C122** What a reader of the warnings learns, as C108. -/
theorem C122_lines {debug : List Str → Str} {start : Option Str} {out : Graph × List (List Nat)} (alike : p.NamesAlike)
    (decls : p.DeclaresOnce) (h : finalGraph demangle ord search p elf start = .ok out) :
    let lines := runLogText debug demangle ord search p elf start
    (∀ n, c!"no stack usage information for `" ++ n ++ c!"`" ∈ lines ↔
      (p.target.isThumb = false ∧ ∃ i, p.Principal i n ∧ ∀ k, ¬ p.Frame i k) ∨
      (p.target.isThumb = true ∧ ∃ i m, p.Principal i n ∧ p.LastOf i m ∧
        p.LocalAfter search elf m (i + 1) .unknown)) ∧
    (∀ n, c!"no type information for `" ++ n ++ c!"`" ∈ lines ↔
      ∃ i, p.Principal i n ∧ p.Untyped i ∧ ¬ OutlinedName n) ∧
    (∀ n, c!"`" ++ n ++ c!"` performs an indirect function call and there's no type information about the operation"
        ∈ lines ↔ ∃ i, p.Principal i n ∧ p.CodeLeaves search elf i) ∧
    (∀ n k k', c!"LLVM reported that `" ++ n ++ c!"` uses " ++ showNat k ++
        c!" bytes of stack but our analysis reported " ++ showNat k' ++
        c!" bytes; overriding LLVM's result (function uses inline assembly)" ∈ lines ↔
      p.target.isThumb = true ∧ ∃ i m, p.Principal i n ∧ p.LastOf i m ∧ p.LocalAfter search elf m i (.exact k) ∧
        p.LocalAfter search elf m (i + 1) (.exact k') ∧ k ≠ k' ∧ ∃ x, p.Contains i (.asm x)) ∧
    (c!".text section not found" ∈ lines ↔ p.TextMissing elf) := by
  obtain ⟨a1, a2, a3, _, a5⟩ := C122_gaps alike decls h
  obtain ⟨b1, _⟩ := C122_overrides alike h
  intro lines
  refine ⟨fun n => ?_, fun n => ?_, fun n => ?_, fun n k k' => ?_, ?_⟩
  · rw [← a1]
    exact mem_runLogText (m := .noUsage n) (by simp) (by simp)
  · rw [← a3]
    exact mem_runLogText (m := .noType n) (by simp) (by simp)
  · rw [← a5]
    exact mem_runLogText (m := .untypedCall n) (by simp) (by simp)
  · rw [← b1]
    exact mem_runLogText (m := .overrideAsm n k k') (by simp) (by simp)
  · rw [← a2]
    exact mem_runLogText (m := .noText) (by simp) (by simp)

/-- What the tool prints about `exBlamed`. -/
example : runLogText (fun _ => []) id sameOrder linearSearch exBlamed exTwinsElf none =
    [c!"assuming that asm!(\"nop\") does *not* use the stack in `f`",
      c!"LLVM reported that `f` uses 8 bytes of stack but our analysis reported 64 bytes; overriding LLVM's result (function uses inline assembly)"] := by
  decide +kernel

/-- **C122** As C108, the tool reports an error, as opposed to a warning, exactly if the code section is missing where it is
needed, or there is no figure at all, or the start point names no function or several, or an indirect call of a
formatting function can reach nothing. -/
theorem C122_errors {start : Option Str} {out : Graph × List (List Nat)} (alike : p.NamesAlike) (defs : p.DefinesOnce)
    (decls : p.DeclaresOnce) (h : finalGraph demangle ord search p elf start = .ok out) :
    ∃ chosen, p.Chosen chosen ∧ ((∃ m ∈ runLog demangle ord search p elf start, m.isError = true) ↔
      p.TextMissing elf ∨ (∀ i k, ¬ p.Frame i k) ∨
      (∃ s, start = some s ∧ ((∀ n, ¬ p.Starts demangle s n) ∨ ¬ p.Shown s ∧ ∃ n n', n ≠ n' ∧ p.Shown n ∧
        StartMatches demangle s n ∧ p.Shown n' ∧ StartMatches demangle s n')) ∨
      ∃ sig, p.Called sig ∧ (∃ j, p.TakenAs j sig) ∧ FormatsChosen chosen sig ∧
        ¬ ∃ j s, p.FirstDefined j s ∧ s.FmtShape) := by
  obtain ⟨_, a2, _⟩ := C122_gaps alike decls h
  obtain ⟨d1, d2, d3⟩ := C90_start_announced h
  have e1 := C91_no_figures h
  obtain ⟨chosen, hc, f1⟩ := C122_no_callees alike defs decls h
  refine ⟨chosen, hc, ?_⟩
  constructor
  · rintro ⟨m, hm, he⟩
    cases m with
    | noText => exact .inl (a2.mp hm)
    | noFigures => exact .inr (.inl (e1.mp hm))
    | noStart =>
      obtain ⟨s, hs, h1⟩ := d1.mp hm
      exact .inr (.inr (.inl ⟨s, hs, .inl h1⟩))
    | ambiguousStart s hits =>
      obtain ⟨hs, h1, h2, h3, h4⟩ := d2 s hits hm
      match hits, h2, h3, h4 with
      | n :: n' :: _, h2, _, h4 =>
        refine .inr (.inr (.inl ⟨s, hs, .inr ⟨h1, n, n', ?_, ?_⟩⟩))
        · rintro rfl
          simp at h2
        · obtain ⟨x1, x2⟩ := (h4 n).mp (by simp)
          obtain ⟨x3, x4⟩ := (h4 n').mp (by simp)
          exact ⟨x1, x2, x3, x4⟩
    | noCallees t =>
      obtain ⟨sig, h1, h2, h3, h4, _⟩ := (f1 t).mp hm
      exact .inr (.inr (.inr ⟨sig, h1, h2, h3, h4⟩))
    | _ => simp [LogMsg.isError] at he
  · rintro (h1 | h1 | ⟨s, hs, h1 | ⟨h1, n, n', hn, h2, h3, h4, h5⟩⟩ | ⟨sig, h1, h2, h3, h4⟩)
    · exact ⟨_, a2.mpr h1, rfl⟩
    · exact ⟨_, e1.mpr h1, rfl⟩
    · exact ⟨_, d1.mpr ⟨s, hs, h1⟩, rfl⟩
    · obtain ⟨hits, hh⟩ := d3 s n n' hs h1 h2 h3 h4 h5 hn
      exact ⟨_, hh, rfl⟩
    · exact ⟨_, (f1 sig.show).mpr ⟨sig, h1, h2, h3, h4, .inl rfl⟩, rfl⟩

/-- Two functions of the same name without a code section: an error. -/
example : exBlamed.NamesAlike ∧ exBlamed.DefinesOnce ∧ exBlamed.DeclaresOnce ∧
    (∃ out, finalGraph id sameOrder linearSearch exBlamed ⟨[], none⟩ none = .ok out) ∧
    exBlamed.TextMissing ⟨[], none⟩ ∧
    (runLog id sameOrder linearSearch exBlamed ⟨[], none⟩ none).filter LogMsg.isError = [.noText] :=
  ⟨C122_figure_misattributed.1, by unfold Program.DefinesOnce; decide, by unfold Program.DeclaresOnce; decide,
    ⟨_, rfl⟩, ⟨rfl, rfl⟩, by decide +kernel⟩

/-- At a node that stands for no name there is the figure of the compiler. -/
theorem Program.LocalShared.hidden {m : Nat} {l : Local} (h : p.LocalShared search elf m l)
    (hno : ∀ k, ¬ p.LastOf k m) : ∃ llvm, p.FrameOpt m llvm ∧ l = figureLocal llvm := by
  cases h with
  | compiler _ h1 => exact ⟨_, h1, rfl⟩
  | code _ _ h1 =>
    generalize p.defined.length = k at h1
    induction h1 with
    | compiler h1 => exact ⟨_, h1, rfl⟩
    | code _ h2 _ _ _ _ => exact absurd h2 (hno _)
    | other _ _ ih => exact ih

/-- **C122** If a maximum is only a lower bound then a message says why, about a function that is reached or one of the
same names, or there is one of three reasons that are not announced: such a function calls one that is not in the
executable, other than only through a bitcast; a function that is reached uses stack in recursion; or a function that
is reached is hidden by a later one of its names and the compiler has no figure for it. Partial: that there is always a
message is not true, see `C89_silent` and `C122_hidden_silent`. -/
theorem C122_lower_bounds_explained_partial {g' : Graph} {cycles : List (List Nat)} (alike : p.NamesAlike)
    (defs : p.DefinesOnce) (decls : p.DeclaresOnce) (addressed : p.Addressed) (safe : p.OrderSafe)
    (sizes : p.SizesU64) (fits : elf.Fits32)
    (h : finalGraph demangle ord search p elf none = .ok (g', cycles)) :
    ∃ chosen, p.Chosen chosen ∧ ∀ i < p.defined.length, ∀ m, g'.maxOf? i = some m → ¬ m.IsExact →
      ∃ u, Reach (p.MayCallShared search elf chosen) i u ∧
        ((∃ k, p.LastOf k u ∧
          (p.Announced (runLog demangle ord search p elf none) k ∨ p.LeavesSilently k)) ∨
         (Recursive (p.MayCallShared search elf chosen) u ∧ (g'.locOf u).bytes ≠ 0) ∨
         ((∀ k, ¬ p.LastOf k u) ∧ ∀ k, ¬ p.Frame u k)) := by
  obtain ⟨chosen, h1, h2⟩ := C119_figures alike defs decls addressed safe sizes fits h
  obtain ⟨_, g2, _, g4, g5⟩ := C122_gaps alike decls h
  obtain ⟨_, _, _, _, b1, b2, _⟩ := C122_assumptions alike h
  obtain ⟨st, g, _, c1, c2⟩ := finalGraph_start h
  obtain ⟨cs, st0, stIr, f⟩ := callGraph_shared c1
  have hname : ∀ u < p.defined.length, ∃ n, p.Principal u n := by
    intro u hu
    rw [← f.sym.len] at hu
    exact ⟨_, f.principal.mpr (List.getElem?_eq_getElem hu)⟩
  have hdef : ∀ {k u}, p.LastOf k u → k < p.defined.length := by
    rintro k u ⟨_, _, _, _, h3, _⟩
    exact (List.getElem?_eq_some_iff.mp h3).1
  refine ⟨chosen, h1, fun i hi m hm hne => ?_⟩
  rw [((h2 i hi).2.2 m hm).2] at hne
  by_contra h4
  refine hne (fun u hu => ?_)
  have hlt : u < p.defined.length := by
    clear h4 hne hm
    induction hu with
    | refl => exact hi
    | step h5 _ ih => exact ih h5.lt
  refine ⟨?_, ?_, ?_⟩
  · cases hk : g'.locOf u with
    | exact k => simp [Local.Known]
    | unknown =>
      have hl := ((h2 u hlt).1 .unknown).mpr hk
      exfalso
      by_cases hlast : p.LastOf u u
      · obtain ⟨n, hn⟩ := hname u hlt
        refine h4 ⟨u, hu, .inl ⟨u, hlast, .inl ?_⟩⟩
        rcases C122_unknown_announced_partial alike decls h hlast hn hl with h5 | h5
        · exact .inl ⟨n, hn, .inl h5⟩
        · refine .inr (.inl ⟨h5, fun k hf => ?_⟩)
          have h6 := ((h2 u hlt).1 (.exact k)).mp (.compiler (llvm := some k) (.inr (g2.mp h5).2) hf)
          rw [hk] at h6
          simp at h6
      · have hno : ∀ k, ¬ p.LastOf k u := by
          rintro k ⟨a, s, b, t, h5, h6, h7, h8⟩
          exact hlast ⟨b, t, b, t, h6, h6, rfl, fun k' c u' h9 h10 h11 => h8 k' c u' h9 h10 (h11.trans h7)⟩
        obtain ⟨llvm, h5, h6⟩ := hl.hidden hno
        cases llvm with
        | some k => cases h6
        | none => exact h4 ⟨u, hu, .inr (.inr ⟨hno, h5⟩)⟩
  · rintro ⟨k, hk, ⟨s, h6, h7⟩ | h6 | ⟨h6, h7⟩⟩
    · cases h7 with
      | @bitcast a h7 =>
        rcases b2 k a h6 h7 with h8 | ⟨i', h8⟩
        · exact h4 ⟨u, hu, .inl ⟨k, hk, .inl (.inr (.inr (.inr ⟨a, h6, h8⟩)))⟩⟩
        · exact h4 ⟨u, hu, .inl ⟨k, hk, .inr (.inr ⟨a, h6, h7, i', h8⟩)⟩⟩
      | @direct x a b c => exact h4 ⟨u, hu, .inl ⟨k, hk, .inr (.inl ⟨x, h6, a, b, c⟩)⟩⟩
    · obtain ⟨n, hn⟩ := hname k (hdef hk)
      exact h4 ⟨u, hu, .inl ⟨k, hk, .inl (.inl ⟨n, hn, .inr ((g5 n).mpr ⟨k, hn, h6⟩)⟩)⟩⟩
    · exact h4 ⟨u, hu, .inl ⟨k, hk, .inl (.inr (.inr (.inl ⟨g4.mpr h7, h6⟩)))⟩⟩
  · intro h6
    by_contra h7
    exact h4 ⟨u, hu, .inr (.inl ⟨h6, h7⟩)⟩

end run

end CallStack
