import Verif.Proof.Release
import Verif.Props.Total

/-!
Property C95: the fixed width arithmetic of the code, with and without overflow checks.
-/

namespace CallStack

/-- **C95** No addition, subtraction or multiplication of the machine code pass leaves its type, for every
program, every executable and every state of the graph: with the machine words of the code and with
unbounded numbers the pass yields the same or aborts in both cases. -/
theorem C95_machine_words {m : Overflow} {elf : Elf} (placed : elf.Placed m) (search : TagSearch)
    (p : Program) (st : Build) :
    (machinePassW m search p elf st).toOption = (machinePass search p elf st).toOption :=
  machinePassW_eq placed st

/-- **C95** A build with overflow checks prints what unbounded numbers yield, or aborts in both cases: for every
program, whatever its figures are. -/
theorem C95_checked {demangle : Str → Str} {ord : HashOrder} {search : TagSearch} {p : Program} {elf : Elf}
    (placed : elf.Placed .checked) (start : Option Str) (format : OutputFormat) :
    (runTextW .checked demangle ord search p elf start format).toOption =
      (runText demangle ord search p elf start format).toOption :=
  runTextW_checked placed start format

/-- **C95** If a build with overflow checks prints something, then so does a release build: the same text. -/
theorem C95_release {demangle : Str → Str} {ord : HashOrder} {search : TagSearch} {p : Program} {elf : Elf}
    (placed : elf.Placed .checked) {start : Option Str} {format : OutputFormat} {text : Str}
    (h : runTextW .checked demangle ord search p elf start format = .ok text) :
    runTextW .wraps demangle ord search p elf start format = .ok text := by
  have h1 := C95_checked (demangle := demangle) (ord := ord) (search := search) (p := p) placed start format
  rw [h] at h1
  have h2 : runText demangle ord search p elf start format = .ok text := by
    cases hr : runText demangle ord search p elf start format with
    | error e => rw [hr] at h1; cases h1
    | ok t => rw [hr] at h1; cases h1; rfl
  have placed' : elf.Placed .wraps := fun stext text ht => by
    obtain ⟨a, b, _⟩ := placed stext text ht
    exact ⟨a, b, fun hm => by cases hm⟩
  have h3 := runTextW_follows (demangle := demangle) (ord := ord) (search := search) (p := p) placed' start format
    (by rw [h2]; intro he; cases he)
  rw [h2] at h3
  cases hr : runTextW .wraps demangle ord search p elf start format with
  | error e => rw [hr] at h3; cases h3
  | ok t => rw [hr] at h3; cases h3; rfl

/-- **C95** The build profile of the tool makes no difference: whether sums wrap around or are checked, the
tool prints the same text or aborts in both cases, with any start point and in either format, if the figures
of all live functions together fit into 64 bits. -/
theorem C95_same_output {m : Overflow} {demangle : Str → Str} {ord : HashOrder} {search : TagSearch}
    {p : Program} {elf : Elf} (placed : elf.Placed m) (once : p.NamesOnce) (sizes : p.SizesU64) {b : Nat → Nat}
    (hb : ∀ i k, i < p.defined.length → p.Figure search elf i k → k ≤ b i)
    (hsum : ((List.range p.defined.length).map b).sum < 2 ^ 64)
    (start : Option Str) (format : OutputFormat) :
    (runTextW m demangle ord search p elf start format).toOption =
      (runText demangle ord search p elf start format).toOption := by
  have fits : elf.Fits32 := by
    intro stext text hx
    have := (placed stext text hx).2.1
    omega
  have hcg := callGraphW_eq (demangle := demangle) (ord := ord) (search := search) (p := p) placed
  cases hc : callGraph demangle ord search p elf with
  | error e =>
    rw [hc] at hcg
    cases hw : callGraphW m demangle ord search p elf with
    | ok x => rw [hw] at hcg; cases hcg
    | error e' =>
      unfold runTextW runText finalGraphW finalGraph
      rw [hc, hw]
      rfl
  | ok x =>
    obtain ⟨st, g⟩ := x
    rw [hc] at hcg
    cases hw : callGraphW m demangle ord search p elf with
    | error e' => rw [hw] at hcg; cases hcg
    | ok x =>
      rw [hw] at hcg
      cases hcg
      obtain ⟨cs, ext, st0, stIr, r⟩ := callGraph_facts once hc
      have hu := r.u64 once sizes fits
      have htot : g.totalKnown < 2 ^ 64 := Nat.lt_of_le_of_lt (r.total_le once hc hb) hsum
      have hana : ∀ g1, applyStart demangle st.indices start g = .ok g1 →
          ∃ y, analyzeMax st.hasStackUsageInfo g1 = .ok y := by
        intro g1 h1
        cases hi : st.hasStackUsageInfo with
        | false => exact ⟨(g1, []), by simp [analyzeMax]⟩
        | true =>
          obtain ⟨gf, cyc, hfull, _⟩ := C06_total r.wf htot
          unfold applyStart at h1
          split at h1
          · cases h1
            exact ⟨_, hfull⟩
          · split at h1
            · cases h1
              exact ⟨_, hfull⟩
            · rename_i i hr
              obtain ⟨key, hk, hkey⟩ := resolveStart_key hr
              rw [r.machine.indices] at hk
              obtain ⟨nd, hn, _⟩ := r.node ((r.ir.ir.shape.idx key i).mp hk)
              obtain ⟨fs, _, g', cyc', h2, h3, _⟩ :=
                C15_max_unchanged r.wf hu (List.getElem?_eq_some_iff.mp hn).1 hfull
              rw [h2] at h1
              cases h1
              exact ⟨_, h3⟩
      unfold runTextW runText finalGraphW finalGraph
      rw [hc, hw]
      simp only
      cases h1 : applyStart demangle st.indices start g with
      | error e => rfl
      | ok g1 =>
        obtain ⟨y, h2⟩ := hana g1 h1
        have h3 := analyzeMaxW_follows m st.hasStackUsageInfo g1 (by rw [h2]; intro h; cases h)
        rw [h2] at h3
        cases h4 : analyzeMaxW m st.hasStackUsageInfo g1 with
        | error e => rw [h4] at h3; cases h3
        | ok z =>
          rw [h4] at h3
          cases h3
          simp only [h2, h4]
          cases shortenNodes demangle st.ambiguous y.1.nodes with
          | error e => rfl
          | ok nodes => cases format <;> rfl

/-- The hypotheses are met in both profiles, by code that the decoder reads, with calls and sums. -/
example (m : Overflow) (start : Option Str) (format : OutputFormat) :
    (runTextW m id sameOrder linearSearch exThumb exThumbElf start format).toOption =
      (runText id sameOrder linearSearch exThumb exThumbElf start format).toOption := by
  have hrep : ∀ n k, exThumb.Reported n k → k = 8 := by
    intro n k h
    simp only [Program.Reported, exThumb, mget] at h
    split at h <;> simp_all
  have d0 : exThumb.Decoded linearSearch exThumbElf 0 256 8 ⟨[8], [], false, true, some 8⟩ :=
    decoded_iff.mpr ⟨_, _, _, _, rfl, rfl, rfl, by decide +kernel, by decide, by decide, by decide +kernel⟩
  have d1 : exThumb.Decoded linearSearch exThumbElf 1 264 4 ⟨[], [], true, false, some 0⟩ :=
    decoded_iff.mpr ⟨_, _, _, _, rfl, rfl, rfl, by decide +kernel, by decide, by decide, by decide +kernel⟩
  refine C95_same_output (b := fun _ => 8) ?_ (namesOnce_of (by decide)) ?_ ?_ (by decide) start format
  · intro stext text h
    cases h
    cases m <;> decide
  · intro n k h
    rw [hrep n k h]
    decide
  · rintro i k hi (⟨_, _, _, n, _, _, _, _, h, _⟩ | ⟨_, address, size, r, h1, h2⟩)
    · exact Nat.le_of_eq (hrep n k h)
    · have hi' : i = 0 ∨ i = 1 := by
        simp only [exThumb, List.length_cons, List.length_nil] at hi
        omega
      rcases hi' with rfl | rfl
      · rw [(analyzed_of rfl rfl h1).1.unique (analyzed_of rfl rfl d0).1] at h2
        simp only [Option.some.injEq] at h2
        omega
      · rw [(analyzed_of rfl rfl h1).1.unique (analyzed_of rfl rfl d1).1] at h2
        simp only [Option.some.injEq] at h2
        omega

/-- And both print the maximum. -/
example : (runTextW .wraps id sameOrder linearSearch exThumb exThumbElf none .top).toOption =
    some c!"8 MAX\nUsage Function\n8 main\n0 f\n0 ?\n" := by decide +kernel

/-- Nothing is needed about the figures: whatever the checked build prints for this program, the release build prints,
for every start point. -/
example (start : Option Str) (text : Str)
    (h : runTextW .checked id sameOrder linearSearch exThumb exThumbElf start .dot = .ok text) :
    runTextW .wraps id sameOrder linearSearch exThumb exThumbElf start .dot = .ok text :=
  C95_release (fun stext text h => by cases h; decide) h

/-- A function of which the last instruction, at address 0x7FFFFFFE, jumps to the function at 0x80000000. -/
def exCrossing : Program :=
  { target := .thumbv7m
    defined := [(0x7FFFFFFC, ⟨[c!"f"], 4⟩), (0x80000000, ⟨[c!"g"], 4⟩)]
    undefined := []
    stackSizes := []
    defines := []
    declares := [] }

/-- nop; b g; nop; bx lr -/
def exCrossingElf : Elf :=
  { symtab := [(0x7FFFFFFC, c!"$t"), (0x80000000, c!"$t")]
    text := some (0x7FFFFFFC, [0x00, 0xBF, 0xFF, 0xE7, 0x00, 0xBF, 0x70, 0x47]) }

/-- **C95**, the other side: the limit on addresses for builds with overflow checks is needed. The code takes an
address as an `i32` before it adds the distance of a jump, so a jump across address 2^31 ends such a build with
an error. A release build wraps around, comes to the right address and records the call. -/
theorem C95_crossing :
    (finalGraphW .checked id sameOrder linearSearch exCrossing exCrossingElf none).toOption = none ∧
    (finalGraphW .wraps id sameOrder linearSearch exCrossing exCrossingElf none).toOption.map
      (fun r => r.1.edges) = some [(0, 1)] ∧
    exCrossingElf.Placed .wraps := by
  refine ⟨by decide +kernel, by decide +kernel, ?_⟩
  intro stext text h
  cases h
  decide

/-- The same two functions, all of them above 2^31. -/
def exHigh : Program :=
  { exCrossing with defined := [(0x90000000, ⟨[c!"f"], 4⟩), (0x90000004, ⟨[c!"g"], 4⟩)] }

def exHighElf : Elf :=
  { symtab := [(0x90000000, c!"$t"), (0x90000004, c!"$t")]
    text := some (0x90000000, [0x00, 0xBF, 0xFF, 0xE7, 0x00, 0xBF, 0x70, 0x47]) }

/-- Above 2^31, where addresses are negative as `i32`, both profiles record the jump. -/
example (m : Overflow) : exHighElf.Placed m ∧
    (finalGraphW m id sameOrder linearSearch exHigh exHighElf none).toOption.map (fun r => r.1.edges) =
      some [(0, 1)] := by
  refine ⟨?_, by cases m <;> decide +kernel⟩
  intro stext text h
  cases h
  cases m <;> decide

/-- Two functions that use half of the address space each. -/
def exHalves : Program :=
  { target := .other
    defined := [(256, ⟨[c!"main"], 8⟩), (264, ⟨[c!"f"], 4⟩)]
    undefined := []
    stackSizes := [(c!"main", 2 ^ 63), (c!"f", 2 ^ 63)]
    defines := [⟨c!"main", exSig, [.directCall c!"f"]⟩, ⟨c!"f", exSig, []⟩]
    declares := [] }

/-- **C95**, the other side: the limit on the sum of all figures is needed. Where a chain of calls needs more
than 64 bits can count, a build with overflow checks ends with an error and a release build reports
a figure that is too small by 2^64. -/
theorem C95_sum_wraps :
    (finalGraphW .checked id sameOrder linearSearch exHalves ⟨[], none⟩ none).toOption = none ∧
    (finalGraphW .wraps id sameOrder linearSearch exHalves ⟨[], none⟩ none).toOption.map
      (fun r => r.1.nodes.map Node.max) = some [some (.exact 0), some (.exact (2 ^ 63))] := by
  constructor <;> decide +kernel

/-- **C95** What an operation on machine words gives: a value of the type that differs from the true result by a multiple
of the number of values of the type. With overflow checks it is the true result, or a panic exactly if that is no value
of the type. -/
theorem C95_word (lo : Int) (bits : Nat) (x : Int) :
    (∃ y, inWord .wraps lo bits x = .ok y ∧ lo ≤ y ∧ y < lo + 2 ^ bits ∧ (2 ^ bits : Int) ∣ x - y) ∧
    (∀ y, inWord .checked lo bits x = .ok y → y = x) ∧
    (inWord .checked lo bits x = .error .overflow ↔ x < lo ∨ lo + 2 ^ bits ≤ x) := by
  have hp : (0 : Int) < 2 ^ bits := Int.pow_pos (by decide)
  unfold inWord
  split
  · rename_i h
    refine ⟨⟨x, rfl, h.1, h.2, by simp⟩, fun y hy => (Except.ok.inj hy).symm, ?_⟩
    simp only [reduceCtorEq, false_iff, not_or]
    omega
  · rename_i h
    refine ⟨⟨_, rfl, ?_, ?_, ?_⟩, fun y hy => by simp at hy, ?_⟩
    · have := Int.emod_nonneg (x - lo) (Int.ne_of_gt hp)
      omega
    · have := Int.emod_lt_of_pos (x - lo) hp
      omega
    · have := Int.dvd_self_sub_emod (x := x - lo) (m := 2 ^ bits)
      rwa [show x - ((x - lo) % 2 ^ bits + lo) = x - lo - (x - lo) % 2 ^ bits by omega]
    · simp only [true_iff]
      by_contra hc
      exact h (by omega)

/-- One more than the largest `i32`. -/
example : i32 .wraps (2 ^ 31) = .ok (-2 ^ 31) ∧ i32 .checked (2 ^ 31) = .error .overflow := by
  constructor <;> decide

end CallStack
