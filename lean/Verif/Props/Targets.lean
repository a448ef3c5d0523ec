import Verif.Props.Driver
import Verif.Props.EndToEnd

/-!
Property C97: for which targets the machine code is analysed (src/main.rs:353-361).
-/

namespace CallStack

/-- The target triples whose machine code the tool can decode: ARMv6-M, and ARMv7-M with and without DSP and
floating point. -/
inductive MachineTriple : Target → Str → Prop where
  | v6m : MachineTriple .thumbv6m c!"thumbv6m-none-eabi"
  | v7m : MachineTriple .thumbv7m c!"thumbv7m-none-eabi"
  | v7em : MachineTriple .thumbv7m c!"thumbv7em-none-eabi"
  | v7emHf : MachineTriple .thumbv7m c!"thumbv7em-none-eabihf"

/-- The program is built as Thumb code: the name of the target begins with `thumb`. -/
def ThumbTriple (t : Str) : Prop := ∃ rest, t = c!"thumb" ++ rest

/-- **C97** The program is analysed as code of ARMv6-M or ARMv7-M exactly for the four targets; for every other
target the machine code is not looked at and addresses are left as they are. -/
theorem C97_machine_targets {u : CharClass} {ord : HashOrder} {inp : Inputs} {p : Program} {t : Str}
    (h : loadProgram u ord inp = .ok p) (hb : BuiltFor inp.config inp.flag inp.host t)
    (hs : inp.config = none ∨ inp.flag = none ∨ inp.config = inp.flag) :
    (∀ tgt, tgt ≠ .other → (p.target = tgt ↔ MachineTriple tgt t)) ∧
    (p.target = .other ↔ ∀ tgt, ¬ MachineTriple tgt t) ∧
    ((∀ tgt, ¬ MachineTriple tgt t) → p.defined = inp.defined ∧
      ∀ demangle search elf elf' start format, runText demangle ord search p elf start format =
        runText demangle ord search p elf' start format) := by
  have ht : p.target = targetOf t ∧ p.defined = clearThumb (targetOf t).isThumb inp.defined := by
    rw [← C71_same_target_partial hb hs]
    unfold loadProgram at h
    split at h
    · cases h
    · cases h
    · split at h
      · cases h
      · cases h
      · simp only [Except.ok.injEq] at h
        subst h
        exact ⟨rfl, rfl⟩
  have key : ∀ tgt, tgt ≠ .other → (targetOf t = tgt ↔ MachineTriple tgt t) := by
    intro tgt hne
    constructor
    · intro he
      unfold targetOf at he
      split at he
      · next h1 => subst he h1; exact .v6m
      · split at he
        · next h1 =>
          subst he
          rcases h1 with rfl | rfl | rfl
          · exact .v7m
          · exact .v7em
          · exact .v7emHf
        · exact absurd he.symm hne
    · rintro (_ | _ | _ | _) <;> decide
  have other : targetOf t = .other ↔ ∀ tgt, ¬ MachineTriple tgt t := by
    constructor
    · rintro he tgt hm
      have hne : tgt ≠ .other := by rintro rfl; cases hm
      exact hne (((key tgt hne).mpr hm).symm.trans he)
    · intro hno
      by_contra hne
      exact hno _ ((key _ hne).mp rfl)
  rw [ht.1]
  refine ⟨key, other, fun hno => ⟨?_, ?_⟩⟩
  · rw [ht.2, other.mpr hno]
    rfl
  · intro demangle search elf elf' start format
    have hf : p.target.isThumb = false := by rw [ht.1, other.mpr hno]; rfl
    unfold runText
    rw [finalGraph_other hf search search elf elf']

/-- **C97** For the four targets the machine code is analysed. Missing: other Thumb targets, see
`C97_other_thumb`. -/
theorem C97_thumb_analysed_partial {u : CharClass} {ord : HashOrder} {inp : Inputs} {p : Program} {t : Str}
    {tgt : Target} (h : loadProgram u ord inp = .ok p) (hb : BuiltFor inp.config inp.flag inp.host t)
    (hs : inp.config = none ∨ inp.flag = none ∨ inp.config = inp.flag) (ht : MachineTriple tgt t) :
    ThumbTriple t ∧ p.target.isThumb = true ∧ (p.target = .thumbv7m ↔ t ≠ c!"thumbv6m-none-eabi") := by
  have hne : tgt ≠ .other := by rintro rfl; cases ht
  have h1 := ((C97_machine_targets h hb hs).1 tgt hne).mpr ht
  rw [h1]
  cases ht
  · exact ⟨⟨_, rfl⟩, rfl, by decide⟩
  · exact ⟨⟨_, rfl⟩, rfl, by decide⟩
  · exact ⟨⟨_, rfl⟩, rfl, by decide⟩
  · exact ⟨⟨_, rfl⟩, rfl, by decide⟩

/-- The program of `exEndElf` for a given target: `main` calls `f`, and `f` ends with a jump to `g` that is not in
the LLVM-IR. The addresses in the symbol table have the Thumb bit set. -/
def exV8m (target : Str) : Inputs where
  config := some target
  flag := none
  host := c!"x86_64-unknown-linux-gnu"
  ll := exFn c!"main" c!"f" ++ c!"\n\ndefine void @f() {\n  ret void\n}\n\ndefine void @g() {\n  ret void\n}\n"
  builtinsLl := c!"; ModuleID\n"
  objSizes := [(c!"main", 8), (c!"f", 0), (c!"g", 16)]
  archive := []
  defined := [(257, ⟨[c!"main"], 8⟩), (265, ⟨[c!"f"], 2⟩), (267, ⟨[c!"g"], 4⟩)]
  undefined := []

/-- The figure printed for the first function. -/
def exFirstMax (target : Str) : Option (Option Max) :=
  match loadProgram exClass sameOrder (exV8m target) with
  | .error _ => none
  | .ok p => (finalGraph id sameOrder linearSearch p exEndElf none).toOption.map (fun x => x.1.maxOf? 0)

/-- **C97 is false**: `thumbv8m.main-none-eabi` and its relatives are Thumb targets that the tool takes for ones without
Thumb code. Calls and jumps that are only in the machine code are overlooked, and `main` is shown with
`max = 8`; the same program for ARMv7-M has `max = 24`. -/
theorem C97_other_thumb :
    (∀ t ∈ [c!"thumbv8m.base-none-eabi", c!"thumbv8m.main-none-eabi", c!"thumbv8m.main-none-eabihf"],
      ThumbTriple t ∧ (∀ tgt, ¬ MachineTriple tgt t) ∧ exFirstMax t = some (some (.exact 8))) ∧
    exFirstMax c!"thumbv7m-none-eabi" = some (some (.exact 24)) := by
  have hno : ∀ t ∈ [c!"thumbv8m.base-none-eabi", c!"thumbv8m.main-none-eabi", c!"thumbv8m.main-none-eabihf"],
      ∀ tgt, ¬ MachineTriple tgt t := by
    rintro t ht tgt (_ | _ | _ | _) <;> revert ht <;> decide
  refine ⟨fun t ht => ⟨?_, hno t ht, ?_⟩, by decide +kernel⟩
  all_goals
    simp only [List.mem_cons, List.not_mem_nil, or_false] at ht
    rcases ht with rfl | rfl | rfl
  · exact ⟨_, rfl⟩
  · exact ⟨_, rfl⟩
  · exact ⟨_, rfl⟩
  all_goals decide +kernel

/-- The example is loaded for ARMv7-M and for ARMv8-M. -/
example : (loadProgram exClass sameOrder (exV8m c!"thumbv7em-none-eabihf")).toOption.map
      (fun p => (p.target, p.defined.map (·.1))) = some (.thumbv7m, [256, 264, 266]) ∧
    (loadProgram exClass sameOrder (exV8m c!"thumbv8m.main-none-eabi")).toOption.map
      (fun p => (p.target, p.defined.map (·.1))) = some (.other, [257, 265, 267]) := by decide +kernel

end CallStack
