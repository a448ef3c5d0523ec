import Verif.Props.IrExec
import Verif.Props.Start
import Verif.Props.Tool
import Verif.Props.Displayed

/-!
Property C104 with a start point, and from the command line.
-/

namespace CallStack

/-- **C104** with a start point: what is printed for the selected function, too, bounds its executions. Partial: as
`C104_executions_partial`. -/
theorem C104_with_start_partial {demangle : Str → Str} {ord : HashOrder} {search : TagSearch}
    {p : Program} {elf : Elf} {g : Graph} {cycles : List (List Nat)} (other : p.target = .other)
    (once : p.NamesOnce) (declares : p.DeclaresOnce) (un : p.Unambiguous) (found : p.RoutinesFound)
    (sizes : p.SizesU64) (fits : elf.Fits32)
    (h : finalGraph demangle ord search p elf none = .ok (g, cycles)) {s n : Str} {i : Nat}
    (hs : p.Starts demangle s n) (hi : p.Principal i n) :
    ∃ g' cycles' k, finalGraph demangle ord search p elf (some s) = .ok (g', cycles') ∧
      k < g'.nodes.length ∧ g'.nodes[k]? = g.nodes[i]? ∧
      ∀ m acts, g'.maxOf? k = some (.exact m) → IrExecution p i acts →
        ∃ frames, List.Forall₂ p.Frame acts frames ∧ frames.sum ≤ m := by
  obtain ⟨g', cycles', ren, h3, hr⟩ := start_restricted once sizes fits h hs hi
  refine ⟨g', cycles', ren i, h3, hr.bij.lt i (.refl _), hr.nodes i (.refl _), fun m acts hm hex => ?_⟩
  refine C104_executions_partial other once declares un found sizes h hi.lt ?_ hex
  unfold Graph.maxOf? at hm ⊢
  rwa [hr.nodes i (.refl _)] at hm

/-- **C104** From the command line to the executions: if the tool is run without a start point, for a dot file and
a target without machine code analysis, and ends with status 0, then every live function has a node in the output
under the name of C98, and if a reader sees `max = n` there, the frames of the functions that are active at any time
during any call of the function sum to at most `n`. Partial: as `C104_executions_partial`, and no shown name may
contain a backslash (C68). -/
theorem C104_from_command_line_partial {u : CharClass} {demangle : Str → Str} {ord : HashOrder}
    {search : TagSearch} {w : World} {cl : Cli} {out : Str} (typed : w.Typed) (hw : w.wrapperVar = false)
    (hcl : w.cli = .ok cl) (start : cl.start = none) (dot : cl.format = .dot)
    (h : tool u demangle ord search w = .exit 0 out) :
    ∃ file host config stderr inp p, w.Built cl file host config (some 0) stderr ∧
      w.Inputs cl file host config stderr inp ∧ loadProgram u ord inp = .ok p ∧
      (p.NamesOnce → p.Unambiguous → p.RoutinesFound → w.elf.Fits32 → p.target = .other →
        (∀ g' cycles, finalGraph demangle ord search p w.elf none = .ok (g', cycles) →
          ∀ nd ∈ g'.nodes, '\\' ∉ demangle nd.name) →
        ∃ nodes edges clusters, (readDot out).bind DotFile.meaning = some (nodes, edges, clusters) ∧
          ∀ i < p.defined.length, ∃ nd, nodes[i]? = some nd ∧
            (∃ s, p.Displayed demangle i s ∧ nd.name = demangle s) ∧
            ∀ n acts, nd.max = some (.exact n) → IrExecution p i acts →
              ∃ frames, List.Forall₂ p.Frame acts frames ∧ frames.sum ≤ n) := by
  obtain ⟨file, host, config, stderr, inp, h1, h2, h3⟩ := (C77_exit_status hw hcl).mp h
  unfold runFiles at h3
  split at h3
  · simp at h3
  rename_i p hp
  refine ⟨file, host, config, stderr, inp, p, h1, h2, hp, ?_⟩
  intro once un found fits other hn
  obtain ⟨_, _, declares, sizes⟩ := C100_loaded typed h2 hp
  rw [start, dot] at h3
  unfold runText at h3
  cases hf : finalGraph demangle ord search p w.elf none with
  | error e => rw [hf] at h3; simp at h3
  | ok r =>
    obtain ⟨g', cycles⟩ := r
    rw [hf] at h3
    simp only [Except.ok.injEq] at h3
    subst h3
    refine ⟨_, _, _, C22_dot_faithful demangle g' cycles (hn g' cycles hf), fun i hi => ?_⟩
    obtain ⟨nd, k1, k2⟩ := C98_displayed sizes fits hf hi
    refine ⟨⟨demangle nd.name, nd.max, nd.loc, nd.dashed⟩, ?_, ⟨_, (k2 _).mpr rfl, rfl⟩, ?_⟩
    · rw [List.getElem?_map, k1]
      rfl
    · intro n acts hmax hex
      refine C104_executions_partial other once declares un found sizes hf hi ?_ hex
      unfold Graph.maxOf?
      rw [k1]
      exact hmax

/-- A run for a target without machine code analysis: `main` calls `f` through a bitcast and copies memory, `f` calls
`g`. -/
def exIrWorld : World :=
  { exWorld (some 0) (rlibMarker ++ (c!"/b.rlib\n" ++ (llMarker ++ c!"/b.ll\n"))) with
    cli := .ok { args := { bin := some c!"app" }, format := .dot }
    config := some (some c!"riscv32imac-unknown-none-elf")
    cargo := fun _ => some (some 0, rlibMarker ++ (c!"/b.rlib\n" ++ (llMarker ++ c!"/b.ll\n")))
    appText := fun _ => some c!"define void @main() {\n  call void bitcast (i8 ()* @f to void ()*)()\n  call void @llvm.memcpy.p0.p0.i32()\n}\n\ndefine i8 @f() {\n  tail call void @g()\n}\n\ndefine void @g() {\n  ret void\n}\n"
    builtinsText := fun _ => some c!"; ModuleID\n"
    objSizes := fun _ => some exIrExec.stackSizes
    archive := fun _ => some []
    symbols := some (exIrExec.defined, []) }

/-- The tool prints `max = 48` for `main`, as in the example of `C104_executions_partial`. -/
example : ∃ out, tool exClass id sameOrder linearSearch exIrWorld = .exit 0 out ∧
    ((readDot out).bind DotFile.meaning).map (fun m => m.1.map fun nd => (nd.name, nd.max, nd.loc)) =
      some [(c!"main", some (.exact 48), .exact 8), (c!"f", some (.exact 40), .exact 16),
        (c!"g", some (.exact 24), .exact 24), (c!"memcpy", some (.exact 8), .exact 8)] := by
  refine ⟨dotText id ⟨[⟨c!"main", .exact 8, some (.exact 48), false⟩, ⟨c!"f", .exact 16, some (.exact 40), false⟩,
    ⟨c!"g", .exact 24, some (.exact 24), false⟩, ⟨c!"memcpy", .exact 8, some (.exact 8), false⟩],
    [(0, 1), (0, 3), (1, 2)]⟩ [], ?_, ?_⟩ <;> decide +kernel

end CallStack
