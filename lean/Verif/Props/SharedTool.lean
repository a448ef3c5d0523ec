import Verif.Props.SharedExec
import Verif.Props.SharedIr
import Verif.Props.Start
import Verif.Props.Tool
import Verif.Props.Displayed
import Verif.Props.ToolIrExec

/-!
Properties C116 and C117 with a start point, and from the command line.
-/

namespace CallStack

variable {demangle : Str → Str} {ord : HashOrder} {search : TagSearch} {p : Program} {elf : Elf}

/-- Functions of the same names are shown under the same name. -/
theorem Program.Principal.same {i j a b : Nat} {s t : Sym} {n : Str} (h : p.Principal i n)
    (hi : p.defined[i]? = some (a, s)) (hj : p.defined[j]? = some (b, t)) (he : t.names = s.names) :
    p.Principal j n := by
  obtain ⟨a', s', pre, post, h1, h2, h3, h4⟩ := h
  rw [hi] at h1
  cases h1
  refine ⟨b, t, pre, post, hj, by rw [he]; exact h2, h3, ?_⟩
  unfold Sym.Named at h4 ⊢
  rw [he]
  exact h4

theorem Program.NamesAlike.last (alike : p.NamesAlike) {i m : Nat} {n : Str} (hi : p.Principal i n)
    (hm : p.Principal m n) (hl : ∀ j, p.Principal j n → j ≤ m) : p.LastOf i m := by
  obtain ⟨a, s, h1, h2⟩ := hi.liveAt
  obtain ⟨b, t, h3, h4⟩ := hm.liveAt
  refine ⟨a, s, b, t, h1, h3, (alike i m a s b t n h1 h3 h2 h4).symm, fun k c u hk hu he => ?_⟩
  have := hl k (hi.same h1 hu he)
  omega

/-- **C116** with a start point: what is printed for the last function with the selected name bounds the executions of
all functions of that name. Partial: as `C116_executions_bounded_partial`. -/
theorem C116_with_start_partial {g : Graph} {cycles : List (List Nat)} (alike : p.NamesAlike)
    (addressed : p.Addressed) (declares : p.DeclaresOnce) (un : p.Unambiguous) (sizes : p.SizesU64)
    (fits : elf.Fits32) (ht : p.target.isThumb = true)
    (h : finalGraph demangle ord search p elf none = .ok (g, cycles))
    {code : Nat → Nat × List CodeItem}
    (hcode : ∀ j < p.defined.length, p.HasCode search elf j (code j).1 (code j).2 ∧ TameCode (code j).2 ∧
      p.Settled code j)
    (frames : p.FramesHold code) {s n : Str} (hs : p.Starts demangle s n) (hp : ∃ i, p.Principal i n) :
    ∃ g' cycles' m k, finalGraph demangle ord search p elf (some s) = .ok (g', cycles') ∧
      k < g'.nodes.length ∧ g'.nodes[k]? = g.nodes[m]? ∧
      ∀ i, p.Principal i n → p.LastOf i m ∧
        ∀ b acts, g'.maxOf? k = some (.exact b) → Execution p code i acts → stackInUse acts ≤ b := by
  obtain ⟨i0, hi0⟩ := hp
  obtain ⟨g', cycles', ren, m, h3, hm, hl, hr⟩ := start_last sizes fits h hs hi0
  refine ⟨g', cycles', m, ren m, h3, hr.bij.lt m (.refl _), hr.nodes m (.refl _), fun i hi => ?_⟩
  have hlast := alike.last hi hm hl
  refine ⟨hlast, fun b acts hb hex => ?_⟩
  refine C116_executions_bounded_partial alike addressed declares un sizes fits ht h hcode frames hlast ?_ hex
  unfold Graph.maxOf? at hb ⊢
  rwa [hr.nodes m (.refl _)] at hb

/-- **C117** with a start point: what is printed for the last function with the selected name bounds the executions of
all functions of that name. Partial: as `C117_executions_partial`. -/
theorem C117_with_start_partial {g : Graph} {cycles : List (List Nat)} (other : p.target = .other)
    (alike : p.NamesAlike) (declares : p.DeclaresOnce) (un : p.Unambiguous) (found : p.RoutinesFound)
    (sizes : p.SizesU64) (fits : elf.Fits32)
    (h : finalGraph demangle ord search p elf none = .ok (g, cycles)) {s n : Str}
    (hs : p.Starts demangle s n) (hp : ∃ i, p.Principal i n) :
    ∃ g' cycles' m k, finalGraph demangle ord search p elf (some s) = .ok (g', cycles') ∧
      k < g'.nodes.length ∧ g'.nodes[k]? = g.nodes[m]? ∧
      ∀ i, p.Principal i n → p.LastOf i m ∧
        ∀ b acts, g'.maxOf? k = some (.exact b) → IrExecution p i acts →
          ∃ frames, List.Forall₂ p.Frame acts frames ∧ frames.sum ≤ b := by
  obtain ⟨i0, hi0⟩ := hp
  obtain ⟨g', cycles', ren, m, h3, hm, hl, hr⟩ := start_last sizes fits h hs hi0
  refine ⟨g', cycles', m, ren m, h3, hr.bij.lt m (.refl _), hr.nodes m (.refl _), fun i hi => ?_⟩
  have hlast := alike.last hi hm hl
  refine ⟨hlast, fun b acts hb hex => ?_⟩
  refine C117_executions_partial other alike declares un found sizes h hlast ?_ hex
  unfold Graph.maxOf? at hb ⊢
  rwa [hr.nodes m (.refl _)] at hb

/-- The start point `helper` selects the second of two functions of that name; the example of `C117_executions_partial`
shows the other hypotheses. -/
example (search : TagSearch) : exIrTwins.Starts id c!"helper" c!"helper" ∧ exIrTwins.Principal 1 c!"helper" ∧
    exIrTwins.Principal 2 c!"helper" ∧
    ∃ g' cycles, finalGraph id sameOrder search exIrTwins ⟨[], none⟩ (some c!"helper") = .ok (g', cycles) ∧
      g'.nodes = [⟨c!"helper", .exact 16, some (.exact 40), false⟩, ⟨c!"leaf", .exact 24, some (.exact 24), false⟩] := by
  have h1 : exIrTwins.Principal 1 c!"helper" :=
    ⟨_, _, [], [], rfl, rfl, by rw [← isTag_iff]; decide, .inl ⟨⟨16, rfl⟩, by simp⟩⟩
  have h2 : exIrTwins.Principal 2 c!"helper" :=
    ⟨_, _, [], [], rfl, rfl, by rw [← isTag_iff]; decide, .inl ⟨⟨16, rfl⟩, by simp⟩⟩
  exact ⟨⟨.inl ⟨1, h1⟩, .inl rfl⟩, h1, h2, finalGraph_eval rfl search _ (some c!"helper")
    (fun g _ => g.nodes = [⟨c!"helper", .exact 16, some (.exact 40), false⟩,
      ⟨c!"leaf", .exact 24, some (.exact 24), false⟩]) (by decide +kernel)⟩

/-- Likewise on a thumb target; the example of `C116_executions_bounded_partial` shows the other hypotheses. -/
example : exSame.Starts id c!"helper" c!"helper" ∧ exSame.Principal 1 c!"helper" ∧ exSame.Principal 2 c!"helper" ∧
    (finalGraph id sameOrder linearSearch exSame exSameElf (some c!"helper")).toOption.map
      (fun x => x.1.nodes) = some [⟨c!"helper", .exact 8, some (.exact 8), false⟩] := by
  have h1 : exSame.Principal 1 c!"helper" :=
    ⟨_, _, [], [], rfl, rfl, by rw [← isTag_iff]; decide, .inr ⟨by
      rintro n' ⟨hn, _⟩ k hk
      simp only [List.mem_cons, List.not_mem_nil, or_false] at hn
      subst hn
      simp [Program.Reported, exSame, mget] at hk, by simp⟩⟩
  have h2 : exSame.Principal 2 c!"helper" :=
    ⟨_, _, [], [], rfl, rfl, by rw [← isTag_iff]; decide, .inr ⟨by
      rintro n' ⟨hn, _⟩ k hk
      simp only [List.mem_cons, List.not_mem_nil, or_false] at hn
      subst hn
      simp [Program.Reported, exSame, mget] at hk, by simp⟩⟩
  exact ⟨⟨.inl ⟨1, h1⟩, .inl rfl⟩, h1, h2, by decide +kernel⟩

/-- What the tool prints for a dot file without a start point. -/
theorem tool_dot {u : CharClass} {w : World} {cl : Cli} {out : Str} (typed : w.Typed) (hw : w.wrapperVar = false)
    (hcl : w.cli = .ok cl) (start : cl.start = none) (dot : cl.format = .dot)
    (h : tool u demangle ord search w = .exit 0 out) :
    ∃ file host config stderr inp p g' cycles, w.Built cl file host config (some 0) stderr ∧
      w.Inputs cl file host config stderr inp ∧ loadProgram u ord inp = .ok p ∧
      finalGraph demangle ord search p w.elf none = .ok (g', cycles) ∧ out = dotText demangle g' cycles ∧
      p.Addressed ∧ p.DeclaresOnce ∧ p.SizesU64 := by
  obtain ⟨file, host, config, stderr, inp, h1, h2, h3⟩ := (C77_exit_status hw hcl).mp h
  unfold runFiles at h3
  split at h3
  · simp at h3
  rename_i p hp
  obtain ⟨addressed, _, declares, sizes⟩ := C100_loaded typed h2 hp
  rw [start, dot] at h3
  unfold runText at h3
  cases hf : finalGraph demangle ord search p w.elf none with
  | error e => rw [hf] at h3; simp at h3
  | ok r =>
    obtain ⟨g', cycles⟩ := r
    rw [hf] at h3
    simp only [Except.ok.injEq] at h3
    exact ⟨file, host, config, stderr, inp, p, g', cycles, h1, h2, hp, hf, h3.symm, addressed, declares, sizes⟩

/-- **C116** From the command line to the executions: if the tool is run without a start point, for a dot file and a
thumb target, and ends with status 0, then of the functions of the same names the last one has a node in the output
under the name of C98, and if a reader sees `max = n` there, at most `n` bytes of stack are in use at any time during
any call of any of them. Partial: as `C116_executions_bounded_partial`, and no shown name may contain a backslash
(C68). -/
theorem C116_from_command_line_partial {u : CharClass} {w : World} {cl : Cli} {out : Str} (typed : w.Typed)
    (hw : w.wrapperVar = false) (hcl : w.cli = .ok cl) (start : cl.start = none) (dot : cl.format = .dot)
    (h : tool u demangle ord search w = .exit 0 out) :
    ∃ file host config stderr inp p, w.Built cl file host config (some 0) stderr ∧
      w.Inputs cl file host config stderr inp ∧ loadProgram u ord inp = .ok p ∧
      (p.NamesAlike → p.Unambiguous → w.elf.Fits32 → p.target.isThumb = true →
        (∀ g' cycles, finalGraph demangle ord search p w.elf none = .ok (g', cycles) →
          ∀ nd ∈ g'.nodes, '\\' ∉ demangle nd.name) →
        ∃ nodes edges clusters, (readDot out).bind DotFile.meaning = some (nodes, edges, clusters) ∧
          ∀ i m, p.LastOf i m → ∃ nd, nodes[m]? = some nd ∧
            (∃ s, p.Displayed demangle m s ∧ nd.name = demangle s) ∧
            ∀ code : Nat → Nat × List CodeItem,
              (∀ j < p.defined.length, p.HasCode search w.elf j (code j).1 (code j).2 ∧ TameCode (code j).2 ∧
                p.Settled code j) →
              p.FramesHold code → ∀ n acts, nd.max = some (.exact n) → Execution p code i acts →
                stackInUse acts ≤ n) := by
  obtain ⟨file, host, config, stderr, inp, p, g', cycles, h1, h2, h3, hf, rfl, addressed, declares, sizes⟩ :=
    tool_dot typed hw hcl start dot h
  refine ⟨file, host, config, stderr, inp, p, h1, h2, h3, fun alike un fits ht hn => ?_⟩
  refine ⟨_, _, _, C22_dot_faithful demangle g' cycles (hn g' cycles hf), fun i m hm => ?_⟩
  obtain ⟨_, _, _, _, _, hd, _⟩ := id hm
  obtain ⟨nd, k1, k2⟩ := C98_displayed sizes fits hf (List.getElem?_eq_some_iff.mp hd).1
  refine ⟨⟨demangle nd.name, nd.max, nd.loc, nd.dashed⟩, ?_, ⟨_, (k2 _).mpr rfl, rfl⟩, ?_⟩
  · rw [List.getElem?_map, k1]
    rfl
  · intro code hcode frames n acts hmax hex
    refine C116_executions_bounded_partial alike addressed declares un sizes fits ht hf hcode frames hm ?_ hex
    unfold Graph.maxOf?
    rw [k1]
    exact hmax

/-- **C117** From the command line to the executions, on targets without machine code analysis: of the functions of the
same names the last one has a node in the output under the name of C98, and if a reader sees `max = n` there, the frames
of the functions that are active at any time during any call of any of them sum to at most `n`. Partial: as
`C117_executions_partial`, and no shown name may contain a backslash (C68). -/
theorem C117_from_command_line_partial {u : CharClass} {w : World} {cl : Cli} {out : Str} (typed : w.Typed)
    (hw : w.wrapperVar = false) (hcl : w.cli = .ok cl) (start : cl.start = none) (dot : cl.format = .dot)
    (h : tool u demangle ord search w = .exit 0 out) :
    ∃ file host config stderr inp p, w.Built cl file host config (some 0) stderr ∧
      w.Inputs cl file host config stderr inp ∧ loadProgram u ord inp = .ok p ∧
      (p.NamesAlike → p.Unambiguous → p.RoutinesFound → w.elf.Fits32 → p.target = .other →
        (∀ g' cycles, finalGraph demangle ord search p w.elf none = .ok (g', cycles) →
          ∀ nd ∈ g'.nodes, '\\' ∉ demangle nd.name) →
        ∃ nodes edges clusters, (readDot out).bind DotFile.meaning = some (nodes, edges, clusters) ∧
          ∀ i m, p.LastOf i m → ∃ nd, nodes[m]? = some nd ∧
            (∃ s, p.Displayed demangle m s ∧ nd.name = demangle s) ∧
            ∀ n acts, nd.max = some (.exact n) → IrExecution p i acts →
              ∃ frames, List.Forall₂ p.Frame acts frames ∧ frames.sum ≤ n) := by
  obtain ⟨file, host, config, stderr, inp, p, g', cycles, h1, h2, h3, hf, rfl, addressed, declares, sizes⟩ :=
    tool_dot typed hw hcl start dot h
  refine ⟨file, host, config, stderr, inp, p, h1, h2, h3, fun alike un found fits other hn => ?_⟩
  refine ⟨_, _, _, C22_dot_faithful demangle g' cycles (hn g' cycles hf), fun i m hm => ?_⟩
  obtain ⟨_, _, _, _, _, hd, _⟩ := id hm
  obtain ⟨nd, k1, k2⟩ := C98_displayed sizes fits hf (List.getElem?_eq_some_iff.mp hd).1
  refine ⟨⟨demangle nd.name, nd.max, nd.loc, nd.dashed⟩, ?_, ⟨_, (k2 _).mpr rfl, rfl⟩, ?_⟩
  · rw [List.getElem?_map, k1]
    rfl
  · intro n acts hmax hex
    refine C117_executions_partial other alike declares un found sizes hf hm ?_ hex
    unfold Graph.maxOf?
    rw [k1]
    exact hmax

/-- A run for a target without machine code analysis: `main` calls a function of a name that exists twice. -/
def exTwinWorld : World :=
  { exIrWorld with
    appText := fun _ => some c!"define void @main() {\n  tail call void @helper()\n}\n\ndefine i8 @helper() {\n  tail call void @leaf()\n}\n\ndefine void @leaf() {\n  ret void\n}\n"
    objSizes := fun _ => some exIrTwins.stackSizes
    symbols := some (exIrTwins.defined, []) }

/-- The tool prints `max = 48` for `main` and `max = 40` for the second `helper`. -/
example : ∃ out, tool exClass id sameOrder linearSearch exTwinWorld = .exit 0 out ∧
    ((readDot out).bind DotFile.meaning).map (fun m => m.1.map fun nd => (nd.name, nd.max, nd.loc)) =
      some [(c!"main", some (.exact 48), .exact 8), (c!"helper", some (.exact 16), .exact 16),
        (c!"helper", some (.exact 40), .exact 16), (c!"leaf", some (.exact 24), .exact 24)] := by
  refine ⟨dotText id ⟨[⟨c!"main", .exact 8, some (.exact 48), false⟩, ⟨c!"helper", .exact 16, some (.exact 16), false⟩,
    ⟨c!"helper", .exact 16, some (.exact 40), false⟩, ⟨c!"leaf", .exact 24, some (.exact 24), false⟩],
    [(0, 2), (2, 3)]⟩ [], ?_, ?_⟩ <;> decide +kernel

/-- Likewise on a thumb target, with the code of the example of `C116_executions_bounded_partial`. -/
def exTwinThumbWorld : World :=
  { exTwinWorld with
    config := some (some c!"thumbv7m-none-eabi")
    appText := fun _ => some c!"define void @main() {\n  ret void\n}\n"
    objSizes := fun _ => some exSame.stackSizes
    symbols := some (exSame.defined, [])
    elf := exSameElf }

example : ∃ out, tool exClass id sameOrder linearSearch exTwinThumbWorld = .exit 0 out ∧
    ((readDot out).bind DotFile.meaning).map (fun m => m.1.map fun nd => (nd.name, nd.max, nd.loc)) =
      some [(c!"main", some (.exact 16), .exact 8), (c!"helper", some (.lowerBound 0), .unknown),
        (c!"helper", some (.exact 8), .exact 8)] := by
  refine ⟨dotText id ⟨[⟨c!"main", .exact 8, some (.exact 16), false⟩,
    ⟨c!"helper", .unknown, some (.lowerBound 0), false⟩, ⟨c!"helper", .exact 8, some (.exact 8), false⟩], [(0, 2)]⟩ [], ?_, ?_⟩ <;> decide +kernel

end CallStack
