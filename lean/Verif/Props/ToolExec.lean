import Verif.Props.Tool
import Verif.Props.Targets
import Verif.Props.Displayed

/-!
Property C99: from the command line to the executions of the program.
-/

namespace CallStack

/-- **C99** From the command line to the executions: if the tool is run without a start point, for a dot file and
a thumb target, and ends with status 0, then every live function has a node in the output under the name of C98,
and if a reader sees `max = n` there, at most `n` bytes of stack are in use at any time during any call of the
function. Partial: as `C94_executions_bounded_partial`, and no shown name may contain a backslash (C68). -/
theorem C99_command_line_to_executions_partial {u : CharClass} {demangle : Str → Str} {ord : HashOrder}
    {search : TagSearch} {w : World} {cl : Cli} {out : Str} (typed : w.Typed) (hw : w.wrapperVar = false)
    (hcl : w.cli = .ok cl) (start : cl.start = none) (dot : cl.format = .dot)
    (h : tool u demangle ord search w = .exit 0 out) :
    ∃ file host config stderr inp p, w.Built cl file host config (some 0) stderr ∧
      w.Inputs cl file host config stderr inp ∧ loadProgram u ord inp = .ok p ∧
      (p.NamesOnce → p.Unambiguous → w.elf.Fits32 → p.target.isThumb = true →
        (∀ g' cycles, finalGraph demangle ord search p w.elf none = .ok (g', cycles) →
          ∀ nd ∈ g'.nodes, '\\' ∉ demangle nd.name) →
        ∃ nodes edges clusters, (readDot out).bind DotFile.meaning = some (nodes, edges, clusters) ∧
          ∀ i < p.defined.length, ∃ nd, nodes[i]? = some nd ∧
            (∃ s, p.Displayed demangle i s ∧ nd.name = demangle s) ∧
            ∀ code : Nat → Nat × List CodeItem,
              (∀ j < p.defined.length, p.HasCode search w.elf j (code j).1 (code j).2 ∧ TameCode (code j).2) →
              p.FramesHold code → ∀ n acts, nd.max = some (.exact n) → Execution p code i acts →
                stackInUse acts ≤ n) := by
  obtain ⟨file, host, config, stderr, inp, h1, h2, h3⟩ := (C77_exit_status hw hcl).mp h
  unfold runFiles at h3
  split at h3
  · simp at h3
  rename_i p hp
  refine ⟨file, host, config, stderr, inp, p, h1, h2, hp, ?_⟩
  intro once un fits ht hn
  obtain ⟨addressed, _, declares, sizes⟩ := C100_loaded typed h2 hp
  rw [start, dot] at h3
  unfold runText at h3
  cases hf : finalGraph demangle ord search p w.elf none with
  | error e => rw [hf] at h3; simp at h3
  | ok r =>
    obtain ⟨g', cycles⟩ := r
    rw [hf] at h3
    simp only [Except.ok.injEq] at h3
    subst h3
    refine ⟨_, _, _, C22_dot_faithful demangle g' cycles (hn g' cycles hf), fun i hi => ?_⟩
    obtain ⟨nd, k1, k2⟩ := C98_displayed sizes fits hf hi
    refine ⟨⟨demangle nd.name, nd.max, nd.loc, nd.dashed⟩, ?_, ⟨_, (k2 _).mpr rfl, rfl⟩, ?_⟩
    · rw [List.getElem?_map, k1]
      rfl
    · intro code hcode frames n acts hmax hex
      refine C94_executions_bounded_partial once addressed declares un sizes fits ht hf hcode frames hi ?_ hex
      unfold Graph.maxOf?
      rw [k1]
      exact hmax

/-- A run for ARMv7-M. -/
def exThumbWorld : World :=
  { exWorld (some 0) (rlibMarker ++ (c!"/b.rlib\n" ++ (llMarker ++ c!"/b.ll\n"))) with
    cli := .ok { args := { bin := some c!"app" }, format := .dot }
    config := some (some c!"thumbv7m-none-eabi")
    cargo := fun _ => some (some 0, rlibMarker ++ (c!"/b.rlib\n" ++ (llMarker ++ c!"/b.ll\n")))
    appText := fun _ => some (exV8m c!"").ll
    builtinsText := fun _ => some (exV8m c!"").builtinsLl
    objSizes := fun _ => some (exV8m c!"").objSizes
    archive := fun _ => some []
    symbols := some ((exV8m c!"").defined, [])
    elf := exEndElf }

/-- The tool prints `max = 24` for `main`. The program differs from `exEndThumb` in nothing that matters here, so
that the examples of `C41_machine_code_partial` and `C94_executions_bounded_partial` show the other hypotheses. -/
example : ∃ out, tool exClass id sameOrder linearSearch exThumbWorld = .exit 0 out ∧
    ((readDot out).bind DotFile.meaning).map (fun m => m.1.map fun nd => (nd.name, nd.max, nd.loc)) =
      some [(c!"main", some (.exact 24), .exact 8), (c!"f", some (.exact 16), .exact 0),
        (c!"g", some (.exact 16), .exact 16)] ∧
    loadProgram exClass sameOrder (exV8m c!"thumbv7m-none-eabi") =
      .ok { exEndThumb with defines := [⟨c!"main", ⟨[], none⟩, [.directCall c!"f"]⟩, ⟨c!"f", ⟨[], none⟩, [.other]⟩,
        ⟨c!"g", ⟨[], none⟩, [.other]⟩] } := by
  refine ⟨dotText id ⟨[⟨c!"main", .exact 8, some (.exact 24), false⟩, ⟨c!"f", .exact 0, some (.exact 16), false⟩,
    ⟨c!"g", .exact 16, some (.exact 16), false⟩], [(0, 1), (1, 2)]⟩ [], ?_, ?_, ?_⟩ <;> decide +kernel

end CallStack
