import Verif.Proof.AnyReport
import Verif.Props.SharedReport
import Verif.Props.AnyAbort

/-!
Property C130: what the tool says when it aborts, whatever the names of the functions.
-/

namespace CallStack

section

variable {demangle : Str → Str} {ord : HashOrder} {search : TagSearch} {p : Program} {elf : Elf}
  {start : Option Str} {format : OutputFormat}

/-- **C130** Whatever the tool says when it aborts is the case, with no assumption on the names of the functions, if a
message about machine code is read as one about the function that this code counts for. -/
theorem C130_says_what_is (sizes : p.SizesU64) (fits : elf.Fits32) {rep : Report}
    (h : runReport demangle ord search p elf start format = .error rep) :
    p.SaysNode demangle ord search elf start rep.kind rep.text :=
  runReport_tells .same (fun _ _ h1 h2 => machineReport_any h1 h2) sizes fits h

/-- Where a figure at a node comes from. -/
theorem Program.LocalNodeAfter.origin {m k n : Nat} {l : Local} (h : p.LocalNodeAfter search elf m k l) (hl : l = .exact n) :
    p.Frame m n ∨ ∃ j < k, ∃ c, p.CodeFor j c m ∧ ∃ address size r, p.Decoded search elf j address size r ∧
      (r.stack = some n ∨ (r.stack = none ∧ r.modifiesSp = false ∧ n = 0)) := by
  induction h generalizing n with
  | @compiler llvm hf =>
    cases llvm with
    | none => cases hl
    | some k =>
      cases hl
      exact .inl hf
  | @code k known address size r c l h1 h2 h3 h5 ih =>
    have old : ∀ a, known = some a → a = n → p.Frame m n ∨ ∃ j < k + 1, ∃ c, p.CodeFor j c m ∧
        ∃ address size r,
        p.Decoded search elf j address size r ∧
        (r.stack = some n ∨ (r.stack = none ∧ r.modifiesSp = false ∧ n = 0)) := by
      rintro a rfl rfl
      rcases ih rfl with h | ⟨j, hj, h⟩
      · exact .inl h
      · exact .inr ⟨j, by omega, h⟩
    have new : r.stack = some n ∨ (r.stack = none ∧ r.modifiesSp = false ∧ n = 0) → p.Frame m n ∨ ∃ j < k + 1,
        ∃ c, p.CodeFor j c m ∧ ∃ address size r, p.Decoded search elf j address size r ∧
        (r.stack = some n ∨ (r.stack = none ∧ r.modifiesSp = false ∧ n = 0)) :=
      fun h => .inr ⟨k, by omega, c, h2, address, size, r, h3, h⟩
    generalize hst : r.stack = stack at h5 new
    subst hl
    generalize hk : known = kn at h5
    cases h5 with
    | ours k hsp => exact new (.inl rfl)
    | zero hsp => exact new (.inr ⟨rfl, by simpa using hsp, rfl⟩)
    | only n _ => exact old n hk rfl
    | agree n _ => exact old n hk rfl
    | asm n k _ _ _ => exact new (.inl rfl)
    | outlinedZero k _ _ _ _ => exact new (.inl rfl)
    | outlined n k _ _ _ _ _ _ => exact old n hk rfl
  | @other k l h1 h2 ih =>
    rcases ih hl with h | ⟨j, hj, h⟩
    · exact .inl h
    · exact .inr ⟨j, by omega, h⟩

/-- **C130** When the tool says that the figure of LLVM doesn't match, the number does not go with the code of some live
function that counts for the one named; it is LLVM's figure for the latter, or was found in code that is before that in
the executable and counts for it as well. -/
theorem C130_figure_origin (sizes : p.SizesU64) (fits : elf.Fits32) {rep : Report}
    (h : runReport demangle ord search p elf start format = .error rep)
    (hk : rep.kind = .llvmVsOurs ∨ rep.kind = .llvmVsSp) :
    ∃ i m address size r name figure n, p.Decoded search elf i address size r ∧ p.CodeFor i name m ∧
      IsDecimal figure n ∧ ((∃ k, r.stack = some k ∧ n ≠ k) ∨ ¬ (n ≠ 0 ↔ r.modifiesSp = true)) ∧
      rep.text = some (c!"BUG: LLVM reported that `" ++ name ++ c!"` uses " ++ figure ++
        c!" bytes of stack but this doesn't match our analysis") ∧
      (p.Frame m n ∨ ∃ j < i, ∃ c, p.CodeFor j c m ∧ ∃ address size r, p.Decoded search elf j address size r ∧
        (r.stack = some n ∨ (r.stack = none ∧ r.modifiesSp = false ∧ n = 0))) := by
  have hs := C130_says_what_is sizes fits h
  generalize rep.kind = kind at hs hk
  generalize ht : rep.text = text at hs
  cases hs with
  | same h1 h2 _ _ => exact absurd hk (by simp [h1, h2])
  | stackVsSp => simp at hk
  | llvmVsOurs i m address size n k r name figure _ h2 h3 h5 h6 h7 _ _ h9 =>
    exact ⟨i, m, address, size, r, name, figure, n, h2, h3, h9, .inl ⟨k, h6, h7⟩, rfl, h5.origin rfl⟩
  | llvmVsSp i m address size n r name figure _ h2 h3 h5 h6 _ h7 =>
    exact ⟨i, m, address, size, r, name, figure, n, h2, h3, h7, .inr h6, rfl, h5.origin rfl⟩

end

/-- **C130** The message can name a function that is fine: here LLVM reports 64 bytes for `right` and its code uses 64
bytes, but the code of `left`, which counts for it, uses 8. -/
theorem C130_wrong_name :
    (exAsmHomonyms c!"swap").Principal 1 c!"right" ∧ (exAsmHomonyms c!"swap").Frame 1 64 ∧
    (exAsmHomonyms c!"swap").CodeFigure linearSearch exAsmTwinsElf 1 64 ∧
    saidBy (exAsmHomonyms c!"swap") exAsmTwinsElf =
      some c!"BUG: LLVM reported that `right` uses 64 bytes of stack but this doesn't match our analysis" := by
  have h := C129_homonyms_abort.1 (1, 64) (by simp)
  refine ⟨?_, h.1, h.2, by decide +kernel⟩
  refine ⟨_, _, [c!"swap"], [], rfl, rfl, by rw [← isTag_iff]; decide, .inl ⟨⟨64, rfl⟩, ?_⟩⟩
  refine fun n hn => .inr fun k hk => ?_
  rw [List.mem_singleton.mp hn] at hk
  cases hk

/-- The hypotheses of `C130_figure_origin` hold for it. -/
example : (exAsmHomonyms c!"swap").SizesU64 ∧ exAsmTwinsElf.Fits32 := by
  refine ⟨?_, by unfold Elf.Fits32; simp [exAsmTwinsElf]⟩
  intro n k hn
  simp only [Program.Reported, exAsmHomonyms, mget] at hn
  split_ifs at hn <;> simp only [Option.some.injEq] at hn <;> omega

end CallStack
