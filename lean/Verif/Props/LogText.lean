import Verif.Proof.LogText
import Verif.Props.Log
import Verif.Props.LogEnd

/-!
Property C108: the texts of the messages.
-/

namespace CallStack

/-- The names in the message that are followed by more text have no backquote. -/
def LogMsg.Plain : LogMsg → Prop
  | .asm _ name => '`' ∉ name
  | .ambiguousStart start _ => '`' ∉ start
  | _ => True

/-- **C108** Different messages have different texts: kind, names and numbers can be read off. `debug` is how the
standard library prints a list of names; different lists are printed differently. -/
theorem C108_texts_differ {debug : List Str → Str} (hd : ∀ l l', debug l = debug l' → l = l') {m m' : LogMsg}
    (h1 : m.Plain) (h2 : m'.Plain) (h : m.text debug = m'.text debug) : m = m' := by
  rcases text_eq h with h' | ⟨e, n, e', n', rfl, rfl⟩ | ⟨s, l, s', l', rfl, rfl⟩
  · exact h'
  · obtain ⟨rfl, rfl⟩ := asm_inj h1 h2 h
    rfl
  · obtain ⟨rfl, h'⟩ := ambiguous_inj h1 h2 h
    rw [hd _ _ h']

/-- The text of a message that is not about inline assembly or the start point appears only if the message was
logged. -/
theorem mem_runLogText {debug : List Str → Str} {demangle : Str → Str} {ord : HashOrder} {search : TagSearch}
    {p : Program} {elf : Elf} {start : Option Str} {m : LogMsg} (h1 : ∀ e n, m ≠ .asm e n)
    (h2 : ∀ s l, m ≠ .ambiguousStart s l) :
    m.text debug ∈ runLogText debug demangle ord search p elf start ↔ m ∈ runLog demangle ord search p elf start := by
  unfold runLogText
  constructor
  · intro h
    obtain ⟨m', hm, he⟩ := List.mem_map.mp h
    rcases text_eq he with rfl | ⟨_, _, e, n, _, rfl⟩ | ⟨_, _, s, l, _, rfl⟩
    · exact hm
    · exact absurd rfl (h1 _ _)
    · exact absurd rfl (h2 _ _)
  · exact List.mem_map_of_mem

/-- **C108** What a reader of the warnings learns: the line about a function of unknown stack usage, about a
function without type, about an indirect call in machine code, about an overridden figure, and the lines about the
whole program are printed exactly under the conditions of C86, C87 and C91. No name needs to be of a special form. -/
theorem C108_lines_mean {debug : List Str → Str} {demangle : Str → Str} {ord : HashOrder} {search : TagSearch}
    {p : Program} {elf : Elf} {start : Option Str} {out : Graph × List (List Nat)} (once : p.NamesOnce)
    (decls : p.DeclaresOnce) (h : finalGraph demangle ord search p elf start = .ok out) :
    let lines := runLogText debug demangle ord search p elf start
    (∀ n, c!"no stack usage information for `" ++ n ++ c!"`" ∈ lines ↔
      ∃ i, p.Principal i n ∧ p.LocalIs search elf i .unknown ∧ ¬ p.TextMissing elf) ∧
    (∀ n, c!"no type information for `" ++ n ++ c!"`" ∈ lines ↔
      ∃ i, p.Principal i n ∧ p.Untyped i ∧ ¬ OutlinedName n) ∧
    (∀ n, c!"`" ++ n ++ c!"` performs an indirect function call and there's no type information about the operation"
        ∈ lines ↔ ∃ i, p.Principal i n ∧ p.CodeLeaves search elf i) ∧
    (∀ n k k', c!"LLVM reported that `" ++ n ++ c!"` uses " ++ showNat k ++
        c!" bytes of stack but our analysis reported " ++ showNat k' ++
        c!" bytes; overriding LLVM's result (function uses inline assembly)" ∈ lines ↔
      ∃ i, p.Principal i n ∧ p.Frame i k ∧ p.LocalIs search elf i (.exact k') ∧ k ≠ k' ∧
        ∃ x, p.Contains i (.asm x)) ∧
    (c!".text section not found" ∈ lines ↔ p.TextMissing elf) ∧
    (c!"The graph has zero stack usage information; skipping max stack usage analysis" ∈ lines ↔
      ∀ i k, ¬ p.Frame i k) ∧
    (c!"start point not found; the graph will not be filtered" ∈ lines ↔
      ∃ s, start = some s ∧ ∀ n, ¬ p.Starts demangle s n) := by
  obtain ⟨a1, a2, a3, _, a5⟩ := C86_gaps_announced once decls h
  obtain ⟨b1, _⟩ := C87_overrides_announced once h
  obtain ⟨d1, _⟩ := C90_start_announced h
  have e1 := C91_no_figures h
  intro lines
  refine ⟨fun n => ?_, fun n => ?_, fun n => ?_, fun n k k' => ?_, ?_, ?_, ?_⟩
  · rw [← a1]
    exact mem_runLogText (m := .noUsage n) (by simp) (by simp)
  · rw [← a3]
    exact mem_runLogText (m := .noType n) (by simp) (by simp)
  · rw [← a5]
    exact mem_runLogText (m := .untypedCall n) (by simp) (by simp)
  · rw [← b1]
    exact mem_runLogText (m := .overrideAsm n k k') (by simp) (by simp)
  · rw [← a2]
    exact mem_runLogText (m := .noText) (by simp) (by simp)
  · rw [← e1]
    exact mem_runLogText (m := .noFigures) (by simp) (by simp)
  · rw [← d1]
    exact mem_runLogText (m := .noStart) (by simp) (by simp)

/-- **C108** The tool reports an error, as opposed to a warning, exactly if the code section is missing where it is
needed, or there is no figure at all, or the start point names no function or several, or an indirect call of a
formatting function can reach nothing. -/
theorem C108_errors {demangle : Str → Str} {ord : HashOrder} {search : TagSearch} {p : Program} {elf : Elf}
    {start : Option Str} {out : Graph × List (List Nat)} (once : p.NamesOnce) (defs : p.DefinesOnce)
    (decls : p.DeclaresOnce) (h : finalGraph demangle ord search p elf start = .ok out) :
    ∃ chosen, p.Chosen chosen ∧ ((∃ m ∈ runLog demangle ord search p elf start, m.isError = true) ↔
      p.TextMissing elf ∨ (∀ i k, ¬ p.Frame i k) ∨
      (∃ s, start = some s ∧ ((∀ n, ¬ p.Starts demangle s n) ∨ ¬ p.Shown s ∧ ∃ n n', n ≠ n' ∧ p.Shown n ∧
        StartMatches demangle s n ∧ p.Shown n' ∧ StartMatches demangle s n')) ∨
      ∃ sig, p.Called sig ∧ (∃ j, p.TakenAs j sig) ∧ FormatsChosen chosen sig ∧
        ¬ ∃ j s, p.FirstDefined j s ∧ s.FmtShape) := by
  obtain ⟨_, a2, _⟩ := C86_gaps_announced once decls h
  obtain ⟨d1, d2, d3⟩ := C90_start_announced h
  have e1 := C91_no_figures h
  obtain ⟨chosen, hc, f1⟩ := C92_no_callees once defs decls h
  refine ⟨chosen, hc, ?_⟩
  constructor
  · rintro ⟨m, hm, he⟩
    cases m with
    | noText => exact .inl (a2.mp hm)
    | noFigures => exact .inr (.inl (e1.mp hm))
    | noStart =>
      obtain ⟨s, hs, h1⟩ := d1.mp hm
      exact .inr (.inr (.inl ⟨s, hs, .inl h1⟩))
    | ambiguousStart s hits =>
      obtain ⟨hs, h1, h2, h3, h4⟩ := d2 s hits hm
      match hits, h2, h3, h4 with
      | n :: n' :: _, h2, _, h4 =>
        refine .inr (.inr (.inl ⟨s, hs, .inr ⟨h1, n, n', ?_, ?_⟩⟩))
        · rintro rfl
          simp at h2
        · obtain ⟨x1, x2⟩ := (h4 n).mp (by simp)
          obtain ⟨x3, x4⟩ := (h4 n').mp (by simp)
          exact ⟨x1, x2, x3, x4⟩
    | noCallees t =>
      obtain ⟨sig, h1, h2, h3, h4, _⟩ := (f1 t).mp hm
      exact .inr (.inr (.inr ⟨sig, h1, h2, h3, h4⟩))
    | _ => simp [LogMsg.isError] at he
  · rintro (h1 | h1 | ⟨s, hs, h1 | ⟨h1, n, n', hn, h2, h3, h4, h5⟩⟩ | ⟨sig, h1, h2, h3, h4⟩)
    · exact ⟨_, a2.mpr h1, rfl⟩
    · exact ⟨_, e1.mpr h1, rfl⟩
    · exact ⟨_, d1.mpr ⟨s, hs, h1⟩, rfl⟩
    · obtain ⟨hits, hh⟩ := d3 s n n' hs h1 h2 h3 h4 h5 hn
      exact ⟨_, hh, rfl⟩
    · exact ⟨_, (f1 sig.show).mpr ⟨sig, h1, h2, h3, h4, .inl rfl⟩, rfl⟩

/-- The lines of a run: assembly without a call changes the figure of `main`, the outlined function is measured. -/
example (debug : List Str → Str) : runLogText debug id sameOrder linearSearch exOverride exOverrideElf none =
    [c!"assuming that asm!(\"push {r7, lr}\") does *not* use the stack in `main`",
      c!"LLVM reported that `main` uses 0 bytes of stack but our analysis reported 8 bytes; overriding LLVM's result (function uses inline assembly)",
      c!"LLVM reported that `OUTLINED_FUNCTION_0` uses 0 bytes of stack but our analysis reported 8 bytes; overriding LLVM's result (function was produced by LLVM's function outlining pass)"] := by
  have h : runLog id sameOrder linearSearch exOverride exOverrideElf none =
      [.asm c!"push {r7, lr}" c!"main", .overrideAsm c!"main" 0 8,
        .overrideOutlined c!"OUTLINED_FUNCTION_0" 0 8] := by decide +kernel
  unfold runLogText
  rw [h]
  rfl

/-- A backquote in the name of a function matters: these are different messages with the same text. -/
example (debug : List Str → Str) :
    (LogMsg.asm c!"a\") does *not* use the stack in `b" c!"c").text debug =
      (LogMsg.asm c!"a" c!"b\") does *not* use the stack in `c").text debug ∧
    (LogMsg.asm c!"a\") does *not* use the stack in `b" c!"c") ≠
      .asm c!"a" c!"b\") does *not* use the stack in `c" := by
  exact ⟨rfl, by decide⟩

end CallStack
