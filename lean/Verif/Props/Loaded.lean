import Verif.Spec.Tool
import Verif.Proof.Loaded
import Verif.Props.Driver

/-!
Property C100: the assumptions that hold of every loaded program.
-/

namespace CallStack

/-- **C100** Whatever is loaded meets the assumptions about programs that the theorems about the analysis make, other
than those about names: the addresses of live functions increase, each name has at most one definition and one
declaration, and sizes are 64 bit numbers. -/
theorem C100_loaded {u : CharClass} {ord : HashOrder} {w : World} {cl : Cli} {file host stderr : Str}
    {config : Option Str} {inp : Inputs} {p : Program} (typed : w.Typed)
    (hi : w.Inputs cl file host config stderr inp) (hp : loadProgram u ord inp = .ok p) :
    p.Addressed ∧ p.DefinesOnce ∧ p.DeclaresOnce ∧ p.SizesU64 := by
  obtain ⟨items, builtins, h1, h2, defines, declares, _⟩ := C65_merged hp
  refine ⟨?_, defines, declares, ?_⟩
  · have hp' := hp
    unfold loadProgram at hp'
    rw [h1, h2] at hp'
    simp only [Except.ok.injEq] at hp'
    subst hp'
    exact clearThumb_sorted (typed.symbols _ _ hi.symbols)
  · intro n k hk
    obtain ⟨l, hl⟩ := archiveSizes_exists inp.archive
    obtain ⟨pre, post, e, _⟩ := (C72_sizes hp hl n k).mp hk
    have hmem : (n, k) ∈ inp.objSizes ++ l := by rw [e]; simp
    obtain ⟨_, _, _, _, _, _, hobj⟩ := hi.app
    obtain ⟨_, _, _, _, _, har⟩ := hi.builtins
    rcases List.mem_append.mp hmem with h | h
    · exact typed.object _ _ hobj _ h
    · have : ∀ (a : List (Option Str × List (Str × Nat))) l, ArchiveSizes a l → ∀ x ∈ l, ∃ m ∈ a, x ∈ m.2 := by
        intro a l h
        induction h with
        | nil => simp
        | @object e es l _ _ ih =>
          intro x hx
          rcases List.mem_append.mp hx with hx | hx
          · exact ⟨e, List.mem_cons_self, hx⟩
          · obtain ⟨m, h1, h2⟩ := ih x hx
            exact ⟨m, List.mem_cons_of_mem _ h1, h2⟩
        | other _ _ ih =>
          intro x hx
          obtain ⟨m, h1, h2⟩ := ih x hx
          exact ⟨m, List.mem_cons_of_mem _ h1, h2⟩
      obtain ⟨m, h3, h4⟩ := this _ _ hl _ h
      exact typed.archive _ _ har m h3 _ h4

/-- A project with one binary `app`, whose build announces the files of compiler_builtins. -/
def exWorld (code : Option Int) (stderr : Str) : World where
  wrapperVar := false
  argv := []
  compiler _ _ := none
  toolchain := some (some c!"2b603f95a48f10f931a61dd208fe3e5ffd64e491", c!"h")
  optOut := none
  cli := .ok { args := { bin := some c!"app", target := some c!"x" }, format := .top }
  config := some none
  cfg _ := some c!"target_os=\"none\"\n"
  settable f := f == c!"src/main.rs"
  srcExists := true
  walkSrc := []
  walkRoot := []
  cargo argv := if argv.take 5 = [c!"rustc", c!"--target", c!"x", c!"--bin", c!"app"] then
    some (code, stderr) else none
  executable := true
  entries := some [(c!"app-1.ll", 3), (c!"app-2.ll", 5)]
  appText f := if f = c!"app-2.ll" then some exInputs.ll else none
  builtinsText f := if f = c!"/b.ll" then some exInputs.builtinsLl else none
  object f := f == c!"app-2.o"
  objSizes f := if f = c!"app-2.o" then some exInputs.objSizes else none
  archive f := if f = c!"/b.rlib" then some exInputs.archive else none
  symbols := some (exInputs.defined, exInputs.undefined)
  elf := ⟨[], none⟩

theorem exWorld_typed (code : Option Int) (stderr : Str) : (exWorld code stderr).Typed := by
  refine ⟨?_, ?_, ?_⟩
  · intro defined undefined h
    simp only [exWorld, Option.some.injEq, Prod.mk.injEq] at h
    rw [← h.1]
    decide
  · intro path l h
    simp only [exWorld] at h
    split at h
    · simp only [Option.some.injEq] at h
      subst h
      decide
    · cases h
  · intro path l h
    simp only [exWorld] at h
    split at h
    · simp only [Option.some.injEq] at h
      subst h
      decide
    · cases h

/-- The hypotheses are met, and they are needed: from a symbol table that is not sorted by address, or with sizes
beyond 64 bits, another program is loaded. -/
example (stderr : Str) : (exWorld (some 0) stderr).Typed ∧ exLoaded.Addressed ∧ exLoaded.SizesU64 ∧
    (∃ p, loadProgram exClass sameOrder { exInputs with defined := [(16, ⟨[c!"f"], 8⟩), (8, ⟨[c!"main"], 4⟩)] } = .ok p ∧
      ¬ p.Addressed) ∧
    ∃ p, loadProgram exClass sameOrder { exInputs with objSizes := [(c!"main", 2 ^ 64)] } = .ok p ∧ ¬ p.SizesU64 := by
  refine ⟨exWorld_typed _ _, by unfold Program.Addressed; decide, ?_,
    ⟨{ exLoaded with defined := [(16, ⟨[c!"f"], 8⟩), (8, ⟨[c!"main"], 4⟩)] }, by decide +kernel, by
      unfold Program.Addressed; decide⟩,
    ⟨{ exLoaded with stackSizes := [(c!"main", 2 ^ 64), (c!"memcpy", 32)] }, by decide +kernel, fun h => ?_⟩⟩
  · intro n k hk
    have := mget_mem hk
    simp only [exLoaded, List.mem_cons, List.not_mem_nil, or_false, Prod.mk.injEq] at this
    omega
  · exact absurd (h c!"main" (2 ^ 64) rfl) (by decide)

end CallStack
