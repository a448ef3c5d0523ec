import Verif.Props.ToolExec
import Verif.Props.ToolIrExec
import Verif.Props.Interrupt

/-!
Property C109: from the command line to executions with interrupts.
-/

namespace CallStack

/-- **C109** From the command line to executions with interrupts: if the tool is run without a start point, for a dot
file and a thumb target, and ends with status 0, and if a reader of the output sees exact maxima at the main function
and at all handlers, then the sum over main function and priorities bounds the stack in use at any time. Partial: as
`C94_executions_bounded_partial`, and no shown name may contain a backslash (C68). -/
theorem C109_from_command_line_partial {u : CharClass} {demangle : Str → Str} {ord : HashOrder}
    {search : TagSearch} {w : World} {cl : Cli} {out : Str} (typed : w.Typed) (hw : w.wrapperVar = false)
    (hcl : w.cli = .ok cl) (start : cl.start = none) (dot : cl.format = .dot)
    (h : tool u demangle ord search w = .exit 0 out) :
    ∃ file host config stderr inp p, w.Built cl file host config (some 0) stderr ∧
      w.Inputs cl file host config stderr inp ∧ loadProgram u ord inp = .ok p ∧
      (p.NamesOnce → p.Unambiguous → w.elf.Fits32 → p.target.isThumb = true →
        (∀ g' cycles, finalGraph demangle ord search p w.elf none = .ok (g', cycles) →
          ∀ nd ∈ g'.nodes, '\\' ∉ demangle nd.name) →
        ∃ nodes edges clusters, (readDot out).bind DotFile.meaning = some (nodes, edges, clusters) ∧
          (∀ i < p.defined.length, ∃ nd, nodes[i]? = some nd ∧
            ∃ s, p.Displayed demangle i s ∧ nd.name = demangle s) ∧
          ∀ code : Nat → Nat × List CodeItem,
            (∀ j < p.defined.length, p.HasCode search w.elf j (code j).1 (code j).2 ∧ TameCode (code j).2) →
            p.FramesHold code → ∀ (main n saved top : Nat) (handler : Nat → Prop) (prio need : Nat → Nat),
              main < p.defined.length → prio main = 0 →
              (∃ nd, nodes[main]? = some nd ∧ nd.max = some (.exact n)) →
              (∀ i, handler i → i < p.defined.length ∧ prio i ≤ top ∧
                ∃ nd k, nodes[i]? = some nd ∧ nd.max = some (.exact k) ∧ k ≤ need (prio i)) →
              ∀ ls, ThumbNested p code handler prio main ls →
                nestedInUse saved ls ≤ withInterrupts n saved top need) := by
  obtain ⟨file, host, config, stderr, inp, h1, h2, h3⟩ := (C77_exit_status hw hcl).mp h
  unfold runFiles at h3
  split at h3
  · simp at h3
  rename_i p hp
  refine ⟨file, host, config, stderr, inp, p, h1, h2, hp, ?_⟩
  intro once un fits ht hn
  obtain ⟨addressed, _, declares, sizes⟩ := C100_loaded typed h2 hp
  rw [start, dot] at h3
  unfold runText at h3
  cases hf : finalGraph demangle ord search p w.elf none with
  | error e => rw [hf] at h3; simp at h3
  | ok r =>
    obtain ⟨g', cycles⟩ := r
    rw [hf] at h3
    simp only [Except.ok.injEq] at h3
    subst h3
    have hmax : ∀ {i : Nat} {nd k}, ((g'.nodes.map fun nd => (⟨demangle nd.name, nd.max, nd.loc, nd.dashed⟩ :
        ShownNode))[i]? = some nd) → nd.max = some (.exact k) → g'.maxOf? i = some (.exact k) := by
      intro i nd k hnd hm
      rw [List.getElem?_map] at hnd
      unfold Graph.maxOf?
      cases hg : g'.nodes[i]? with
      | none => rw [hg] at hnd; cases hnd
      | some nd' =>
        rw [hg] at hnd
        obtain rfl := Option.some.inj hnd
        exact hm
    refine ⟨_, _, _, C22_dot_faithful demangle g' cycles (hn g' cycles hf), fun i hi => ?_, ?_⟩
    · obtain ⟨nd, k1, k2⟩ := C98_displayed sizes fits hf hi
      refine ⟨⟨demangle nd.name, nd.max, nd.loc, nd.dashed⟩, ?_, ⟨_, (k2 _).mpr rfl, rfl⟩⟩
      rw [List.getElem?_map, k1]
      rfl
    · rintro code hcode frames main n saved top handler prio need hi hprio ⟨nd, hnd, hm⟩ hh ls hex
      refine C109_interrupts_partial once addressed declares un sizes fits ht hf hcode frames hi (hmax hnd hm) hprio
        (fun i hi => ?_) hex
      obtain ⟨a, b, nd, k, c1, c2, c3⟩ := hh i hi
      exact ⟨a, b, k, hmax c1 c2, c3⟩

/-- **C109** The same for a target without machine code analysis, for the frames that the compiler reports. Partial: as
`C104_executions_partial`, and no shown name may contain a backslash (C68). -/
theorem C109_ir_from_command_line_partial {u : CharClass} {demangle : Str → Str} {ord : HashOrder}
    {search : TagSearch} {w : World} {cl : Cli} {out : Str} (typed : w.Typed) (hw : w.wrapperVar = false)
    (hcl : w.cli = .ok cl) (start : cl.start = none) (dot : cl.format = .dot)
    (h : tool u demangle ord search w = .exit 0 out) :
    ∃ file host config stderr inp p, w.Built cl file host config (some 0) stderr ∧
      w.Inputs cl file host config stderr inp ∧ loadProgram u ord inp = .ok p ∧
      (p.NamesOnce → p.Unambiguous → p.RoutinesFound → w.elf.Fits32 → p.target = .other →
        (∀ g' cycles, finalGraph demangle ord search p w.elf none = .ok (g', cycles) →
          ∀ nd ∈ g'.nodes, '\\' ∉ demangle nd.name) →
        ∃ nodes edges clusters, (readDot out).bind DotFile.meaning = some (nodes, edges, clusters) ∧
          (∀ i < p.defined.length, ∃ nd, nodes[i]? = some nd ∧
            ∃ s, p.Displayed demangle i s ∧ nd.name = demangle s) ∧
          ∀ (main n saved top : Nat) (handler : Nat → Prop) (prio need : Nat → Nat),
            main < p.defined.length → prio main = 0 →
            (∃ nd, nodes[main]? = some nd ∧ nd.max = some (.exact n)) →
            (∀ i, handler i → i < p.defined.length ∧ prio i ≤ top ∧
              ∃ nd k, nodes[i]? = some nd ∧ nd.max = some (.exact k) ∧ k ≤ need (prio i)) →
            ∀ ls, IrNested p handler prio main ls →
              ∃ frames, List.Forall₂ p.Frame (ls.flatMap (·.2)) frames ∧
                frames.sum + saved * (ls.length - 1) ≤ withInterrupts n saved top need) := by
  obtain ⟨file, host, config, stderr, inp, h1, h2, h3⟩ := (C77_exit_status hw hcl).mp h
  unfold runFiles at h3
  split at h3
  · simp at h3
  rename_i p hp
  refine ⟨file, host, config, stderr, inp, p, h1, h2, hp, ?_⟩
  intro once un found fits other hn
  obtain ⟨_, _, declares, sizes⟩ := C100_loaded typed h2 hp
  rw [start, dot] at h3
  unfold runText at h3
  cases hf : finalGraph demangle ord search p w.elf none with
  | error e => rw [hf] at h3; simp at h3
  | ok r =>
    obtain ⟨g', cycles⟩ := r
    rw [hf] at h3
    simp only [Except.ok.injEq] at h3
    subst h3
    have hmax : ∀ {i : Nat} {nd k}, ((g'.nodes.map fun nd => (⟨demangle nd.name, nd.max, nd.loc, nd.dashed⟩ :
        ShownNode))[i]? = some nd) → nd.max = some (.exact k) → g'.maxOf? i = some (.exact k) := by
      intro i nd k hnd hm
      rw [List.getElem?_map] at hnd
      unfold Graph.maxOf?
      cases hg : g'.nodes[i]? with
      | none => rw [hg] at hnd; cases hnd
      | some nd' =>
        rw [hg] at hnd
        obtain rfl := Option.some.inj hnd
        exact hm
    refine ⟨_, _, _, C22_dot_faithful demangle g' cycles (hn g' cycles hf), fun i hi => ?_, ?_⟩
    · obtain ⟨nd, k1, k2⟩ := C98_displayed sizes fits hf hi
      refine ⟨⟨demangle nd.name, nd.max, nd.loc, nd.dashed⟩, ?_, ⟨_, (k2 _).mpr rfl, rfl⟩⟩
      rw [List.getElem?_map, k1]
      rfl
    · rintro main n saved top handler prio need hi hprio ⟨nd, hnd, hm⟩ hh ls hex
      refine C109_interrupts_ir_partial other once declares un found sizes hf hi (hmax hnd hm) hprio
        (fun i hi => ?_) hex
      obtain ⟨a, b, nd, k, c1, c2, c3⟩ := hh i hi
      exact ⟨a, b, k, hmax c1 c2, c3⟩

/-- The run for ARMv7-M of C99: `main` is printed with 24 bytes and `g` with 16; if `g` is a handler and 32 bytes are
saved on entry, 72 bytes are enough, and can be in use (`C109_main_alone_exceeded`). -/
example : ∃ out, tool exClass id sameOrder linearSearch exThumbWorld = .exit 0 out ∧
    (((readDot out).bind DotFile.meaning).map fun m => (m.1.map (·.max))) =
      some [some (.exact 24), some (.exact 16), some (.exact 16)] ∧
    withInterrupts 24 32 1 (fun _ => 16) = 72 := by
  refine ⟨dotText id ⟨[⟨c!"main", .exact 8, some (.exact 24), false⟩, ⟨c!"f", .exact 0, some (.exact 16), false⟩,
    ⟨c!"g", .exact 16, some (.exact 16), false⟩], [(0, 1), (1, 2)]⟩ [], ?_, ?_, ?_⟩ <;> decide +kernel

end CallStack
