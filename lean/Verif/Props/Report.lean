import Verif.Proof.ReportEnd

/-!
Property C114: what the tool says when it aborts.
-/

namespace CallStack

section

variable {demangle : Str → Str} {ord : HashOrder} {search : TagSearch} {p : Program} {elf : Elf}
  {start : Option Str} {format : OutputFormat}

/-- **C114** The model with messages is the model without: it ends with the same text, or aborts for the same
reason. -/
theorem C114_same_runs :
    (∀ text, runReport demangle ord search p elf start format = .ok text ↔
      runText demangle ord search p elf start format = .ok text) ∧
    ∀ e, runText demangle ord search p elf start format = .error e ↔
      ∃ rep, runReport demangle ord search p elf start format = .error rep ∧ rep.kind = e := by
  rw [← erase_run]
  cases runReport demangle ord search p elf start format with
  | ok t => simp [erase]
  | error rep => simp [erase]

/-- **C114** Whatever the tool says when it aborts is the case. -/
theorem C114_says_what_is (once : p.NamesOnce) (sizes : p.SizesU64) (fits : elf.Fits32) {rep : Report}
    (h : runReport demangle ord search p elf start format = .error rep) :
    p.Says demangle ord search elf start rep.kind rep.text :=
  runReport_says once sizes fits h

/-- **C114** When the tool says that the figure of the compiler doesn't match, the function that it names is live, the
number is the figure that the compiler reports for it, and either another figure is found in its code or it does not
go with whether the code modifies SP. -/
theorem C114_compiler_figure (once : p.NamesOnce) (sizes : p.SizesU64) (fits : elf.Fits32) {rep : Report}
    (h : runReport demangle ord search p elf start format = .error rep)
    (hk : rep.kind = .llvmVsOurs ∨ rep.kind = .llvmVsSp) :
    ∃ i address size r name figure n, p.Decoded search elf i address size r ∧ p.Principal i name ∧ p.Frame i n ∧
      IsDecimal figure n ∧ ((∃ k, r.stack = some k ∧ n ≠ k) ∨ ¬ (n ≠ 0 ↔ r.modifiesSp = true)) ∧
      rep.text = some (c!"BUG: LLVM reported that `" ++ name ++ c!"` uses " ++ figure ++
        c!" bytes of stack but this doesn't match our analysis") := by
  have hs := C114_says_what_is once sizes fits h
  generalize rep.kind = kind at hs hk
  generalize ht : rep.text = text at hs
  cases hs with
  | llvmVsOurs i address size n k r name figure _ h2 h3 h4 h5 h6 _ _ h9 =>
    exact ⟨i, address, size, r, name, figure, n, h2, h3, h4, h9, .inl ⟨k, h5, h6⟩, rfl⟩
  | llvmVsSp i address size n r name figure _ h2 h3 h4 h5 _ h7 =>
    exact ⟨i, address, size, r, name, figure, n, h2, h3, h4, h7, .inr h5, rfl⟩
  | _ => simp at hk

/-- **C114** The tool never claims that a function uses stack and does not modify SP: the figure in this message is
always 0. -/
theorem C114_never_not (once : p.NamesOnce) (sizes : p.SizesU64) (fits : elf.Fits32) {rep : Report}
    (h : runReport demangle ord search p elf start format = .error rep) (hk : rep.kind = .stackVsSp) :
    ∃ i name, p.Principal i name ∧ rep.text = some (c!"BUG: our analysis reported that `" ++ name ++
      c!"` both uses 0 bytes of stack and it does modify SP") := by
  have hs := C114_says_what_is once sizes fits h
  rw [hk] at hs
  generalize ht : rep.text = text at hs
  cases hs with
  | stackVsSp i address size r name _ _ h3 _ _ => exact ⟨i, name, h3, rfl⟩

end

/-- What a run says when it aborts, with `none` for a run with output and for a message of the standard library. -/
def saidBy (p : Program) (elf : Elf) : Option Str :=
  match runReport id sameOrder linearSearch p elf none .dot with
  | .error rep => rep.text
  | .ok _ => none

/-- **C114** What is said for the functions of `C74_reasons`, and for two calls. -/
theorem C114_texts :
    -- one data region follows another; the address is padded to ten characters
    saidBy (oneFn [c!"f"] []) (oneElf [(256, c!"$d"), (258, c!"$d")] [0x70, 0x47, 0x70, 0x47]) =
      some c!"BUG: expected a thumb tag at      0x102 but found another data tag" ∧
    -- the second half of an instruction is missing
    saidBy (oneFn [c!"f"] []) (oneElf [] [0x70, 0x47, 0x00, 0xF0]) = some c!"BUG: unknown instruction f000" ∧
    -- BKPT at the end of a function is valid code
    saidBy (oneFn [c!"f"] []) (oneElf [] [0x70, 0x47, 0x01, 0xBE]) = some c!"BUG: unknown instruction be01" ∧
    -- `sub sp, #0`
    saidBy (oneFn [c!"f"] []) (oneElf [] [0x80, 0xB0, 0x70, 0x47]) =
      some c!"BUG: our analysis reported that `f` both uses 0 bytes of stack and it does modify SP" ∧
    -- another figure is found in the code
    saidBy (oneFn [c!"f"] [(c!"f", 8)]) (oneElf [] [0x70, 0x47, 0x70, 0x47]) =
      some c!"BUG: LLVM reported that `f` uses 8 bytes of stack but this doesn't match our analysis" ∧
    -- no figure is found in the code, which is `b` to itself and does not touch SP: the text is the same
    saidBy (oneFn [c!"f"] [(c!"f", 8)]) (oneElf [] [0x00, 0xBF, 0xFD, 0xE7]) =
      some c!"BUG: LLVM reported that `f` uses 8 bytes of stack but this doesn't match our analysis" ∧
    -- a jump to the end of the function, where no function starts
    saidBy (oneFn [c!"f"] []) (oneElf [] [0x00, 0xE0, 0x70, 0x47]) = some c!"BUG? no symbol at address 260" ∧
    -- a call of a function that the symbol table does not mention
    saidBy { oneFn [c!"f"] [] with defines := [⟨c!"f", ⟨[], none⟩, [.directCall c!"g"]⟩] } (oneElf [] []) =
      some c!"BUG: callee `g` is unknown" ∧
    -- the same for an intrinsic on another target
    saidBy { oneFn [c!"f"] [] with target := .other
                                   defines := [⟨c!"f", ⟨[], none⟩, [.directCall c!"llvm.new"]⟩] } (oneElf [] []) =
      some c!"BUG: unhandled llvm intrinsic: llvm.new" := by
  decide +kernel

/-- The hypotheses hold for the functions of `C114_texts`. -/
example : (oneFn [c!"f"] [(c!"f", 8)]).NamesOnce ∧ (oneFn [c!"f"] [(c!"f", 8)]).SizesU64 ∧
    (oneElf [] [0x70, 0x47, 0x70, 0x47]).Fits32 := by
  refine ⟨?_, ?_, ?_⟩
  · rintro n i j ⟨a, s, h1, _⟩ ⟨b, t, h2, _⟩
    have e1 := (List.getElem?_eq_some_iff.mp h1).1
    have e2 := (List.getElem?_eq_some_iff.mp h2).1
    simp only [oneFn, List.length_cons, List.length_nil] at e1 e2
    omega
  · intro n k hn
    simp only [Program.Reported, oneFn, mget] at hn
    split_ifs at hn <;> simp only [Option.some.injEq] at hn
    omega
  · unfold Elf.Fits32
    simp [oneElf]

end CallStack
