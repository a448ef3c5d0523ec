import Verif.Props.SharedTool
import Verif.Props.Interrupt

/-!
Property C109 for programs in which several functions may have the same names, as interrupt handlers and functions of
different object files can have.
-/

namespace CallStack

variable {demangle : Str → Str} {ord : HashOrder} {search : TagSearch} {p : Program} {elf : Elf}

/-- **C109** As `C109_reasons`: `main` and the handlers are bounded by what is printed for the last functions with their
names. -/
theorem C109_reasons_shared {g' : Graph} {cycles : List (List Nat)} (alike : p.NamesAlike)
    (addressed : p.Addressed) (declares : p.DeclaresOnce) (sizes : p.SizesU64)
    (fits : elf.Fits32) (ht : p.target.isThumb = true)
    (h : finalGraph demangle ord search p elf none = .ok (g', cycles))
    {code : Nat → Nat × List CodeItem} {main m n saved top : Nat} {handler : Nat → Prop} {prio need : Nat → Nat}
    (hi : p.LastOf main m) (hmax : g'.maxOf? m = some (.exact n)) (hprio : prio main = 0)
    (hh : ∀ i, handler i → prio i ≤ top ∧ ∃ b k, p.LastOf i b ∧ g'.maxOf? b = some (.exact k) ∧ k ≤ need (prio i))
    {ls : List (Nat × List Activation)} (hex : ThumbNested p code handler prio main ls) :
    nestedInUse saved ls ≤ withInterrupts n saved top need ∨
    ∃ i a, (i = main ∨ handler i) ∧ Reach (fun a b => p.Call a b ∨ p.MachineCall search elf a b) i a ∧
      (¬ p.HasCode search elf a (code a).1 (code a).2 ∨ ¬ TameCode (code a).2 ∨ ¬ p.FrameHolds code a ∨
        (∃ b, p.Dropped a b) ∨ ¬ p.Settled code a) := by
  rw [or_iff_not_imp_right]
  intro hno
  refine Levels.bound (hex.levels (run := Execution p code) (fun _ => .entry) fun _ _ _ h1 h2 => .step h1 h2) ?_
    hprio ?_
  · intro s hs
    rcases C116_reasons alike addressed declares sizes fits ht h hi hmax hs with h1 | ⟨a, h1, h2⟩
    · exact h1
    · exact absurd ⟨main, a, .inl rfl, h1, h2⟩ hno
  · intro i hi'
    obtain ⟨h2, b, k, h1, h3, h4⟩ := hh i hi'
    refine ⟨h2, fun s hs => ?_⟩
    rcases C116_reasons alike addressed declares sizes fits ht h h1 h3 hs with h5 | ⟨a, h5, h6⟩
    · omega
    · exact absurd ⟨i, a, .inr hi', h5, h6⟩ hno

/-- **C109** As `C109_interrupts_partial`, for functions of the same names. Partial: as
`C116_executions_bounded_partial`, applied to all code. -/
theorem C109_interrupts_shared_partial {g' : Graph} {cycles : List (List Nat)} (alike : p.NamesAlike)
    (addressed : p.Addressed) (declares : p.DeclaresOnce) (un : p.Unambiguous) (sizes : p.SizesU64)
    (fits : elf.Fits32) (ht : p.target.isThumb = true)
    (h : finalGraph demangle ord search p elf none = .ok (g', cycles))
    {code : Nat → Nat × List CodeItem}
    (hcode : ∀ j < p.defined.length, p.HasCode search elf j (code j).1 (code j).2 ∧ TameCode (code j).2 ∧
      p.Settled code j)
    (frames : p.FramesHold code) {main m n saved top : Nat} {handler : Nat → Prop} {prio need : Nat → Nat}
    (hi : p.LastOf main m) (hmax : g'.maxOf? m = some (.exact n)) (hprio : prio main = 0)
    (hh : ∀ i, handler i → prio i ≤ top ∧ ∃ b k, p.LastOf i b ∧ g'.maxOf? b = some (.exact k) ∧ k ≤ need (prio i))
    {ls : List (Nat × List Activation)} (hex : ThumbNested p code handler prio main ls) :
    nestedInUse saved ls ≤ withInterrupts n saved top need := by
  refine Levels.bound (hex.levels (run := Execution p code) (fun _ => .entry) fun _ _ _ h1 h2 => .step h1 h2) ?_
    hprio ?_
  · intro s hs
    exact C116_executions_bounded_partial alike addressed declares un sizes fits ht h hcode frames hi hmax hs
  · intro i hi'
    obtain ⟨h2, b, k, h1, h3, h4⟩ := hh i hi'
    refine ⟨h2, fun s hs => ?_⟩
    have := C116_executions_bounded_partial alike addressed declares un sizes fits ht h hcode frames h1 h3 hs
    omega

/-- **C109** As `C109_reasons_ir`, for functions of the same names. -/
theorem C109_reasons_ir_shared {g' : Graph} {cycles : List (List Nat)} (other : p.target = .other)
    (alike : p.NamesAlike) (declares : p.DeclaresOnce)
    (sizes : p.SizesU64) (h : finalGraph demangle ord search p elf none = .ok (g', cycles))
    {main m n saved top : Nat} {handler : Nat → Prop} {prio need : Nat → Nat}
    (hi : p.LastOf main m) (hmax : g'.maxOf? m = some (.exact n)) (hprio : prio main = 0)
    (hh : ∀ i, handler i → prio i ≤ top ∧ ∃ b k, p.LastOf i b ∧ g'.maxOf? b = some (.exact k) ∧ k ≤ need (prio i))
    {ls : List (Nat × List Nat)} (hex : IrNested p handler prio main ls) :
    (∃ frames, List.Forall₂ p.Frame (ls.flatMap (·.2)) frames ∧
      frames.sum + saved * (ls.length - 1) ≤ withInterrupts n saved top need) ∨
    ∃ i a b, (i = main ∨ handler i) ∧ Reach p.RunsInto i a ∧ (p.Dropped a b ∨ p.DroppedMemory a b) := by
  rw [or_iff_not_imp_right]
  intro hno
  obtain ⟨ks, h1, h2⟩ := Levels.bound_rel (saved := saved) (n0 := n) (top := top) (need := need)
    (use := fun l k => ∃ fr : List Nat, List.Forall₂ p.Frame l fr ∧ (fr.sum : Int) = k)
    (hex.levels (run := IrExecution p) (fun _ => .entry) fun _ _ _ h1 h2 => .step h1 h2)
    (by
      intro s hs
      rcases C117_reasons other alike declares sizes h hi hmax hs with ⟨fr, h1, h2⟩ | ⟨a, b, h1, h2⟩
      · exact ⟨_, ⟨fr, h1, rfl⟩, by omega⟩
      · exact absurd ⟨main, a, b, .inl rfl, h1, h2⟩ hno) hprio
    (by
      intro i hi'
      obtain ⟨h2, b, k, h1, h3, h4⟩ := hh i hi'
      refine ⟨h2, fun s hs => ?_⟩
      rcases C117_reasons other alike declares sizes h h1 h3 hs with ⟨fr, h5, h6⟩ | ⟨a, b, h5, h6⟩
      · exact ⟨_, ⟨fr, h5, rfl⟩, by omega⟩
      · exact absurd ⟨i, a, b, .inr hi', h5, h6⟩ hno)
  obtain ⟨fr, h3, h4⟩ := frames_flat h1
  refine ⟨fr, h3, ?_⟩
  rw [← h4] at h2
  exact_mod_cast h2

/-- **C109** As `C109_interrupts_ir_partial`, for functions of the same names. Partial: as
`C117_executions_partial`. -/
theorem C109_interrupts_ir_shared_partial {g' : Graph} {cycles : List (List Nat)} (other : p.target = .other)
    (alike : p.NamesAlike) (declares : p.DeclaresOnce) (un : p.Unambiguous) (found : p.RoutinesFound)
    (sizes : p.SizesU64) (h : finalGraph demangle ord search p elf none = .ok (g', cycles))
    {main m n saved top : Nat} {handler : Nat → Prop} {prio need : Nat → Nat}
    (hi : p.LastOf main m) (hmax : g'.maxOf? m = some (.exact n)) (hprio : prio main = 0)
    (hh : ∀ i, handler i → prio i ≤ top ∧ ∃ b k, p.LastOf i b ∧ g'.maxOf? b = some (.exact k) ∧ k ≤ need (prio i))
    {ls : List (Nat × List Nat)} (hex : IrNested p handler prio main ls) :
    ∃ frames, List.Forall₂ p.Frame (ls.flatMap (·.2)) frames ∧
      frames.sum + saved * (ls.length - 1) ≤ withInterrupts n saved top need := by
  rcases C109_reasons_ir_shared other alike declares sizes h hi hmax hprio hh hex with h1 | ⟨_, a, b, _, _, h1 | h1⟩
  · exact h1
  · exact absurd h1 (un.keeps a b)
  · exact absurd h1 (found.keeps a b)

/-- The program of C117, interrupted by the first of its two functions `helper`: the figure of the second one is used
for it. -/
example (search : TagSearch) : IrNested exIrTwins (· = 1) (fun i => if i = 1 then 1 else 0) 0 [(1, [1]), (0, [0])] ∧
    exIrTwins.LastOf 0 0 ∧ exIrTwins.LastOf 1 2 ∧
    ∃ g' cycles, finalGraph id sameOrder search exIrTwins ⟨[], none⟩ none = .ok (g', cycles) ∧
      g'.maxOf? 2 = some (.exact 40) := by
  refine ⟨.step .start (.enter rfl (by decide)), ⟨_, _, _, _, rfl, rfl, rfl, ?_⟩, ⟨_, _, _, _, rfl, rfl, rfl, ?_⟩,
    finalGraph_eval rfl search _ none (fun g _ => g.maxOf? 2 = _) (by decide +kernel)⟩
  · intro k c u hk hu
    match k, hk, (List.getElem?_eq_some_iff.mp hu).1 with
    | 1, _, _ | 2, _, _ | 3, _, _ => cases hu; decide
  · intro k c u hk hu
    match k, hk, (List.getElem?_eq_some_iff.mp hu).1 with
    | 3, _, _ => cases hu; decide

/-- A maximum that is read is one of the graph. -/
theorem maxOf_read {g' : Graph} {i k : Nat} {nd : ShownNode}
    (hnd : (g'.nodes.map fun nd => (⟨demangle nd.name, nd.max, nd.loc, nd.dashed⟩ : ShownNode))[i]? = some nd)
    (hm : nd.max = some (.exact k)) : g'.maxOf? i = some (.exact k) := by
  rw [List.getElem?_map] at hnd
  unfold Graph.maxOf?
  cases hg : g'.nodes[i]? with
  | none => rw [hg] at hnd; cases hnd
  | some nd' =>
    rw [hg] at hnd
    obtain rfl := Option.some.inj hnd
    exact hm

/-- **C109** As `C109_from_command_line_partial`, for functions of the same names: the maxima of main function and
handlers are read at the last functions with their names. Partial: as `C116_executions_bounded_partial`, and no shown
name may contain a backslash (C68). -/
theorem C109_from_command_line_shared_partial {u : CharClass} {w : World} {cl : Cli} {out : Str} (typed : w.Typed)
    (hw : w.wrapperVar = false) (hcl : w.cli = .ok cl) (start : cl.start = none) (dot : cl.format = .dot)
    (h : tool u demangle ord search w = .exit 0 out) :
    ∃ file host config stderr inp p, w.Built cl file host config (some 0) stderr ∧
      w.Inputs cl file host config stderr inp ∧ loadProgram u ord inp = .ok p ∧
      (p.NamesAlike → p.Unambiguous → w.elf.Fits32 → p.target.isThumb = true →
        (∀ g' cycles, finalGraph demangle ord search p w.elf none = .ok (g', cycles) →
          ∀ nd ∈ g'.nodes, '\\' ∉ demangle nd.name) →
        ∃ nodes edges clusters, (readDot out).bind DotFile.meaning = some (nodes, edges, clusters) ∧
          (∀ i < p.defined.length, ∃ nd, nodes[i]? = some nd ∧
            ∃ s, p.Displayed demangle i s ∧ nd.name = demangle s) ∧
          ∀ code : Nat → Nat × List CodeItem,
            (∀ j < p.defined.length, p.HasCode search w.elf j (code j).1 (code j).2 ∧ TameCode (code j).2 ∧
              p.Settled code j) →
            p.FramesHold code → ∀ (main m n saved top : Nat) (handler : Nat → Prop) (prio need : Nat → Nat),
              p.LastOf main m → prio main = 0 →
              (∃ nd, nodes[m]? = some nd ∧ nd.max = some (.exact n)) →
              (∀ i, handler i → prio i ≤ top ∧
                ∃ b nd k, p.LastOf i b ∧ nodes[b]? = some nd ∧ nd.max = some (.exact k) ∧ k ≤ need (prio i)) →
              ∀ ls, ThumbNested p code handler prio main ls →
                nestedInUse saved ls ≤ withInterrupts n saved top need) := by
  obtain ⟨file, host, config, stderr, inp, p, g', cycles, h1, h2, h3, hf, rfl, addressed, declares, sizes⟩ :=
    tool_dot typed hw hcl start dot h
  refine ⟨file, host, config, stderr, inp, p, h1, h2, h3, fun alike un fits ht hn => ?_⟩
  refine ⟨_, _, _, C22_dot_faithful demangle g' cycles (hn g' cycles hf), fun i hi => ?_, ?_⟩
  · obtain ⟨nd, k1, k2⟩ := C98_displayed sizes fits hf hi
    refine ⟨⟨demangle nd.name, nd.max, nd.loc, nd.dashed⟩, ?_, ⟨_, (k2 _).mpr rfl, rfl⟩⟩
    rw [List.getElem?_map, k1]
    rfl
  · rintro code hcode frames main m n saved top handler prio need hi hprio ⟨nd, hnd, hm⟩ hh ls hex
    refine C109_interrupts_shared_partial alike addressed declares un sizes fits ht hf hcode frames hi
      (maxOf_read hnd hm) hprio (fun i hi => ?_) hex
    obtain ⟨a, b, nd, k, c1, c2, c3, c4⟩ := hh i hi
    exact ⟨a, b, k, c1, maxOf_read c2 c3, c4⟩

/-- **C109** As `C109_ir_from_command_line_partial`, for functions of the same names. Partial: as
`C117_executions_partial`, and no shown name may contain a backslash (C68). -/
theorem C109_ir_from_command_line_shared_partial {u : CharClass} {w : World} {cl : Cli} {out : Str} (typed : w.Typed)
    (hw : w.wrapperVar = false) (hcl : w.cli = .ok cl) (start : cl.start = none) (dot : cl.format = .dot)
    (h : tool u demangle ord search w = .exit 0 out) :
    ∃ file host config stderr inp p, w.Built cl file host config (some 0) stderr ∧
      w.Inputs cl file host config stderr inp ∧ loadProgram u ord inp = .ok p ∧
      (p.NamesAlike → p.Unambiguous → p.RoutinesFound → w.elf.Fits32 → p.target = .other →
        (∀ g' cycles, finalGraph demangle ord search p w.elf none = .ok (g', cycles) →
          ∀ nd ∈ g'.nodes, '\\' ∉ demangle nd.name) →
        ∃ nodes edges clusters, (readDot out).bind DotFile.meaning = some (nodes, edges, clusters) ∧
          (∀ i < p.defined.length, ∃ nd, nodes[i]? = some nd ∧
            ∃ s, p.Displayed demangle i s ∧ nd.name = demangle s) ∧
          ∀ (main m n saved top : Nat) (handler : Nat → Prop) (prio need : Nat → Nat),
            p.LastOf main m → prio main = 0 →
            (∃ nd, nodes[m]? = some nd ∧ nd.max = some (.exact n)) →
            (∀ i, handler i → prio i ≤ top ∧
              ∃ b nd k, p.LastOf i b ∧ nodes[b]? = some nd ∧ nd.max = some (.exact k) ∧ k ≤ need (prio i)) →
            ∀ ls, IrNested p handler prio main ls →
              ∃ frames, List.Forall₂ p.Frame (ls.flatMap (·.2)) frames ∧
                frames.sum + saved * (ls.length - 1) ≤ withInterrupts n saved top need) := by
  obtain ⟨file, host, config, stderr, inp, p, g', cycles, h1, h2, h3, hf, rfl, addressed, declares, sizes⟩ :=
    tool_dot typed hw hcl start dot h
  refine ⟨file, host, config, stderr, inp, p, h1, h2, h3, fun alike un found fits other hn => ?_⟩
  refine ⟨_, _, _, C22_dot_faithful demangle g' cycles (hn g' cycles hf), fun i hi => ?_, ?_⟩
  · obtain ⟨nd, k1, k2⟩ := C98_displayed sizes fits hf hi
    refine ⟨⟨demangle nd.name, nd.max, nd.loc, nd.dashed⟩, ?_, ⟨_, (k2 _).mpr rfl, rfl⟩⟩
    rw [List.getElem?_map, k1]
    rfl
  · rintro main m n saved top handler prio need hi hprio ⟨nd, hnd, hm⟩ hh ls hex
    refine C109_interrupts_ir_shared_partial other alike declares un found sizes hf hi (maxOf_read hnd hm) hprio
      (fun i hi => ?_) hex
    obtain ⟨a, b, nd, k, c1, c2, c3, c4⟩ := hh i hi
    exact ⟨a, b, k, c1, maxOf_read c2 c3, c4⟩

/-- The run `exTwinThumbWorld` prints 16 bytes for `main` and 8 for the second `helper`, `exTwinWorld` 48 and 40; the
functions `helper` are two, and the last one has index 2. -/
example : exSame.LastOf 1 2 ∧ exSame.LastOf 2 2 ∧ exIrTwins.LastOf 1 2 ∧ exIrTwins.LastOf 2 2 := by
  refine ⟨⟨_, _, _, _, rfl, rfl, rfl, ?_⟩, ⟨_, _, _, _, rfl, rfl, rfl, ?_⟩, ⟨_, _, _, _, rfl, rfl, rfl, ?_⟩,
    ⟨_, _, _, _, rfl, rfl, rfl, ?_⟩⟩
  all_goals
    rintro (_ | _ | _ | _ | k) c u hk hu
    · omega
    · omega
    · omega
    all_goals
      simp [exSame, exIrTwins] at hu
      try (obtain ⟨_, rfl⟩ := hu; simp)

end CallStack
