import Verif.Proof.SharedReport
import Verif.Props.SharedAbort
import Verif.Props.Report

/-!
Property C124: what the tool says when it aborts, if several functions may have the same names.
-/

namespace CallStack

section

variable {demangle : Str → Str} {ord : HashOrder} {search : TagSearch} {p : Program} {elf : Elf}
  {start : Option Str} {format : OutputFormat}

/-- **C124** Whatever the tool says when it aborts is the case, but for the origin of a figure that does not match. -/
theorem C124_says_what_is (alike : p.NamesAlike) (sizes : p.SizesU64) (fits : elf.Fits32) {rep : Report}
    (h : runReport demangle ord search p elf start format = .error rep) :
    p.SaysShared demangle ord search elf start rep.kind rep.text :=
  runReport_tells (fun h1 h2 _ h => .same h1 h2 h) (fun _ _ h1 h2 => machineReport_tells alike h1 h2) sizes fits h

/-- **C124** Where no machine code is analysed, whatever the tool says when it aborts is the case, whatever the names of
the functions are. -/
theorem C124_without_code (hx : p.target.isThumb = false ∨ elf.text = none) (sizes : p.SizesU64) (fits : elf.Fits32)
    {rep : Report} (h : runReport demangle ord search p elf start format = .error rep) :
    p.Says demangle ord search elf start rep.kind rep.text := by
  have hs : p.SaysShared demangle ord search elf start rep.kind rep.text := by
    refine runReport_tells (fun h1 h2 _ h => .same h1 h2 h) (fun stIr rep _ hm => ?_) sizes fits h
    unfold machineReport at hm
    rcases hx with hx | hx
    · rw [hx] at hm
      cases hm
    · rw [hx] at hm
      split at hm <;> cases hm
  have no : ∀ i address size r, p.target.isThumb = true → ¬ p.Decoded search elf i address size r := by
    intro i address size r ht hd
    obtain ⟨_, _, _, _, _, h2, _⟩ := decoded_iff.mp hd
    rcases hx with hx | hx
    · rw [hx] at ht
      cases ht
    · rw [hx] at h2
      cases h2
  generalize rep.kind = kind at hs
  generalize rep.text = text at hs
  cases hs with
  | same _ _ h => exact h
  | llvmVsOurs i _ address size _ _ r _ _ ht hd => exact absurd hd (no _ _ _ _ ht)
  | llvmVsSp i _ address size _ r _ _ ht hd => exact absurd hd (no _ _ _ _ ht)

/-- Where a figure at a node comes from. -/
theorem Program.LocalAfter.origin {m k n : Nat} {l : Local} (h : p.LocalAfter search elf m k l) (hl : l = .exact n) :
    p.Frame m n ∨ ∃ j < k, p.LastOf j m ∧ ∃ address size r, p.Decoded search elf j address size r ∧
      (r.stack = some n ∨ (r.stack = none ∧ r.modifiesSp = false ∧ n = 0)) := by
  induction h generalizing n with
  | @compiler llvm hf =>
    cases llvm with
    | none => cases hl
    | some k =>
      cases hl
      exact .inl hf
  | @code k known address size r name l h1 h2 h3 h4 h5 ih =>
    have old : ∀ a, known = some a → a = n → p.Frame m n ∨ ∃ j < k + 1, p.LastOf j m ∧ ∃ address size r,
        p.Decoded search elf j address size r ∧
        (r.stack = some n ∨ (r.stack = none ∧ r.modifiesSp = false ∧ n = 0)) := by
      rintro a rfl rfl
      rcases ih rfl with h | ⟨j, hj, h⟩
      · exact .inl h
      · exact .inr ⟨j, by omega, h⟩
    have new : r.stack = some n ∨ (r.stack = none ∧ r.modifiesSp = false ∧ n = 0) → p.Frame m n ∨ ∃ j < k + 1,
        p.LastOf j m ∧ ∃ address size r, p.Decoded search elf j address size r ∧
        (r.stack = some n ∨ (r.stack = none ∧ r.modifiesSp = false ∧ n = 0)) :=
      fun h => .inr ⟨k, by omega, h2, address, size, r, h3, h⟩
    generalize hst : r.stack = stack at h5 new
    subst hl
    generalize hk : known = kn at h5
    cases h5 with
    | ours k hsp => exact new (.inl rfl)
    | zero hsp => exact new (.inr ⟨rfl, by simpa using hsp, rfl⟩)
    | only n _ => exact old n hk rfl
    | agree n _ => exact old n hk rfl
    | asm n k _ _ _ => exact new (.inl rfl)
    | outlinedZero k _ _ _ _ => exact new (.inl rfl)
    | outlined n k _ _ _ _ _ _ => exact old n hk rfl
  | @other k l h1 h2 ih =>
    rcases ih hl with h | ⟨j, hj, h⟩
    · exact .inl h
    · exact .inr ⟨j, by omega, h⟩

/-- **C124** When the tool says that the figure of LLVM doesn't match, the function that it names is live and its code
does not go with the number; but the number may be another's: it is LLVM's figure for the names of the function, or was
found in the code of a function with the same names that is before it in the executable. -/
theorem C124_figure_origin (alike : p.NamesAlike) (sizes : p.SizesU64) (fits : elf.Fits32) {rep : Report}
    (h : runReport demangle ord search p elf start format = .error rep)
    (hk : rep.kind = .llvmVsOurs ∨ rep.kind = .llvmVsSp) :
    ∃ i m address size r name figure n, p.Decoded search elf i address size r ∧ p.Principal i name ∧ p.LastOf i m ∧
      IsDecimal figure n ∧ ((∃ k, r.stack = some k ∧ n ≠ k) ∨ ¬ (n ≠ 0 ↔ r.modifiesSp = true)) ∧
      rep.text = some (c!"BUG: LLVM reported that `" ++ name ++ c!"` uses " ++ figure ++
        c!" bytes of stack but this doesn't match our analysis") ∧
      (p.Frame i n ∨ ∃ j < i, p.LastOf j m ∧ ∃ address size r, p.Decoded search elf j address size r ∧
        (r.stack = some n ∨ (r.stack = none ∧ r.modifiesSp = false ∧ n = 0))) := by
  have hs := C124_says_what_is alike sizes fits h
  have same : ∀ {i m n}, p.LastOf i m → p.Frame m n → p.Frame i n := by
    rintro i m n ⟨a, s, b, t, e1, e2, e3, _⟩ ⟨b', t', pre, k, post, f2, f⟩
    rw [e2] at f2
    cases f2
    refine ⟨a, s, pre, k, post, e1, ?_⟩
    simpa only [Sym.Named, e3] using f
  generalize rep.kind = kind at hs hk
  generalize ht : rep.text = text at hs
  cases hs with
  | same h1 h2 _ => exact absurd hk (by simp [h1, h2])
  | llvmVsOurs i m address size n k r name figure _ h2 h3 h4 h5 h6 h7 _ _ h9 =>
    exact ⟨i, m, address, size, r, name, figure, n, h2, h3, h4, h9, .inl ⟨k, h6, h7⟩, rfl,
      (h5.origin rfl).imp_left (same h4)⟩
  | llvmVsSp i m address size n r name figure _ h2 h3 h4 h5 h6 _ h7 =>
    exact ⟨i, m, address, size, r, name, figure, n, h2, h3, h4, h7, .inr h6, rfl,
      (h5.origin rfl).imp_left (same h4)⟩

end

/-- **C124** The two functions `helper` of assembly files, for which LLVM reports nothing: the tool says that LLVM
reported 8 bytes, which are those of the other function. -/
theorem C124_llvm_misquoted :
    (exAsmTwins c!"helper").NamesAlike ∧ (exAsmTwins c!"helper").stackSizes = [] ∧
    saidBy (exAsmTwins c!"helper") exAsmTwinsElf =
      some c!"BUG: LLVM reported that `helper` uses 8 bytes of stack but this doesn't match our analysis" :=
  ⟨C121_twins_abort.1, rfl, by decide +kernel⟩

/-- The hypotheses of `C124_figure_origin` hold for it. -/
example : (exAsmTwins c!"helper").SizesU64 ∧ exAsmTwinsElf.Fits32 := by
  refine ⟨?_, by unfold Elf.Fits32; simp [exAsmTwinsElf]⟩
  intro n k hn
  simp [Program.Reported, exAsmTwins, mget] at hn

end CallStack
