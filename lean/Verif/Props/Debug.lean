import Verif.Proof.Debug
import Verif.Props.Loaded

/-!
Property C118: debug assertions.
-/

namespace CallStack

variable {demangle : Str → Str} {ord : HashOrder} {search : TagSearch} {p : Program} {elf : Elf}

/-- **C118** If no two symbols have the same address, a build with debug assertions does the same as one without: the
same output, and the same aborts. -/
theorem C118_same (distinct : (p.defined.map (·.1)).Nodup) (start : Option Str) (format : OutputFormat) :
    (∀ t, runTextD demangle ord search p elf start format = .ok t ↔
      runText demangle ord search p elf start format = .ok t) ∧
    ∀ e, runTextD demangle ord search p elf start format = .error e ↔
      ∃ e', e = .other e' ∧ runText demangle ord search p elf start format = .error e' := by
  have h : runTextD demangle ord search p elf start format =
      plainly (runText demangle ord search p elf start format) := by
    unfold runTextD runText
    rw [finalGraphD_same distinct]
    cases finalGraph demangle ord search p elf start with
    | error e => rfl
    | ok x => cases format <;> rfl
  rw [h]
  cases runText demangle ord search p elf start format with
  | error e =>
    refine ⟨by simp [plainly], fun e' => ⟨fun h => ⟨e, ?_, rfl⟩, ?_⟩⟩
    · simpa [plainly] using h.symm
    · rintro ⟨e'', rfl, h⟩
      simpa [plainly] using h
  | ok t => simp [plainly]

/-- **C118** Whatever the tool loads, its debug assertions hold. -/
theorem C118_assertions_hold {u : CharClass} {w : World} {cl : Cli} {file host stderr : Str}
    {config : Option Str} {inp : Inputs} (typed : w.Typed) (hi : w.Inputs cl file host config stderr inp)
    (hp : loadProgram u ord inp = .ok p) (start : Option Str) (format : OutputFormat) :
    runTextD demangle ord search p elf start format ≠ .error .sameAddress ∧
    runTextD demangle ord search p elf start format ≠ .error .visitedTwice := by
  have ha := (C100_loaded typed hi hp).1
  have distinct : (p.defined.map (·.1)).Nodup := by
    unfold List.Nodup
    rw [List.pairwise_map]
    exact List.Pairwise.imp (fun h => Nat.ne_of_lt h) ha
  have h := (C118_same (demangle := demangle) (ord := ord) (search := search) (elf := elf) distinct start format).2
  constructor
  · intro h1
    obtain ⟨_, h2, _⟩ := (h _).mp h1
    cases h2
  · intro h1
    obtain ⟨_, h2, _⟩ := (h _).mp h1
    cases h2

/-- **C118** The assertion on addresses fails exactly if two symbols have the same address; runs that abort in the pass
over the symbols are left out. -/
theorem C118_addresses {st : Build} (hs : symPass demangle p Build.empty p.defined = .ok st) (start : Option Str)
    (format : OutputFormat) :
    runTextD demangle ord search p elf start format = .error .sameAddress ↔ ¬ (p.defined.map (·.1)).Nodup := by
  constructor
  · intro h hnd
    obtain ⟨_, h2, _⟩ := ((C118_same hnd start format).2 _).mp h
    cases h2
  · intro h
    unfold runTextD finalGraphD callGraphD
    rw [symPassD_twice p.defined (SymInv.empty demangle p) (by simp) (by simpa using h) hs]

/-- `main` and `f`, which it calls, at these addresses. -/
def exAddresses (a b : Nat) : Program :=
  { target := .other
    defined := [(a, ⟨[c!"main"], 4⟩), (b, ⟨[c!"f"], 8⟩)]
    undefined := []
    stackSizes := [(c!"main", 8), (c!"f", 16)]
    defines := [⟨c!"main", exSig, [.directCall c!"f"]⟩, ⟨c!"f", exBinSig, []⟩]
    declares := [] }

/-- At different addresses the assertions hold and the graph is printed, at the same address one of them fails. -/
example : ((exAddresses 8 16).defined.map (·.1)).Nodup ∧
    ((finalGraphD id sameOrder linearSearch (exAddresses 8 16) ⟨[], none⟩ none).toOption.map (·.1.maxOf? 0)) =
      some (some (.exact 24)) ∧
    ¬ ((exAddresses 8 8).defined.map (·.1)).Nodup ∧
    runTextD id sameOrder linearSearch (exAddresses 8 8) ⟨[], none⟩ none .dot = .error .sameAddress := by
  decide +kernel

/-- The other assertion can fail for wrong orders of visits. -/
example : (topoLoopD ⟨[mkNode c!"f" (some 8) false], []⟩ [0, 0]) = .error .visitedTwice := by decide +kernel

end CallStack
