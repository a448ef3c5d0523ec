import Verif.Proof.Need
import Verif.Props.ToolFigures
import Verif.Props.LogEnd
import Verif.Props.Top

/-!
Property C107: what the mark before a maximum means.
-/

namespace CallStack

/-- What the mark before a maximum means: it is shown as exact exactly if it limits what a call of the function can
need; then it is the most that can be needed; otherwise there is no limit; and in either case at least this much is
needed, whatever the sizes of the unknown frames are. -/
structure MarkMeans (E : Nat → Nat → Prop) (leaves : Nat → Prop) (loc : Nat → Local) (i : Nat) (m : Max) : Prop where
  limit : m.IsExact ↔ ∀ k, CanNeed E leaves loc i k → k ≤ m.bytes
  most : m.IsExact → CanNeed E leaves loc i m.bytes
  noLimit : ¬ m.IsExact → ∀ n, ∃ k, n ≤ k ∧ CanNeed E leaves loc i k
  least : ∀ frame, Agrees loc frame → ∃ c, CallChain E i c ∧ m.bytes ≤ (c.map frame).sum

theorem markMeans_of {E : Nat → Nat → Prop} {leaves : Nat → Prop} {loc : Nat → Local} {i : Nat} {m : Max}
    (hh : Heaviest E loc i m.bytes) (he : m.IsExact ↔ ∀ u, Reach E i u → (loc u).Known ∧ ¬ leaves u ∧
      (Recursive E u → (loc u).bytes = 0)) : MarkMeans E leaves loc i m := by
  have hiff : m.IsExact ↔ _ := he.trans (canNeed_iff (leaves := leaves) hh (Nat.le_refl _))
  refine ⟨hiff, fun hx => (canNeed_most (he.1 hx) hh).1, fun hx n => ?_, fun frame ha => canNeed_least hh ha⟩
  rw [he] at hx
  simp only [not_forall] at hx
  obtain ⟨u, hr, hu⟩ := hx
  refine canNeed_unbounded hr ?_ n
  by_cases h1 : (loc u).Known
  · by_cases h2 : leaves u
    · exact .inr (.inl h2)
    · refine .inr (.inr (Classical.byContradiction fun h3 => hu ⟨h1, h2, fun hr => ?_⟩))
      exact Classical.byContradiction fun h4 => h3 ⟨hr, h4⟩
  · exact .inl h1

/-- **C107** What the mark before a maximum means, for every live function: see `MarkMeans`. -/
theorem C107_mark {demangle : Str → Str} {ord : HashOrder} {search : TagSearch} {p : Program}
    {elf : Elf} {g' : Graph} {cycles : List (List Nat)} (once : p.NamesOnce) (defs : p.DefinesOnce)
    (decls : p.DeclaresOnce) (addressed : p.Addressed) (safe : p.OrderSafe) (sizes : p.SizesU64)
    (fits : elf.Fits32) (h : finalGraph demangle ord search p elf none = .ok (g', cycles)) :
    ∃ chosen, p.Chosen chosen ∧ ∀ i < p.defined.length, p.LocalIs search elf i (g'.locOf i) ∧
      ∀ m, g'.maxOf? i = some m →
        MarkMeans (p.MayCall search elf chosen) (p.MayLeave search elf) g'.locOf i m := by
  obtain ⟨chosen, hc, hf⟩ := C85_figures once defs decls addressed safe sizes fits h
  refine ⟨chosen, hc, fun i hi => ⟨(hf i hi).1, fun m hm => ?_⟩⟩
  obtain ⟨hh, he⟩ := (hf i hi).2.2 m hm
  exact markMeans_of hh he

/-- **C107** From the command line: what a reader of the dot file learns from `max = n` and `max >= n`. -/
theorem C107_from_command_line {u : CharClass} {demangle : Str → Str} {ord : HashOrder}
    {search : TagSearch} {w : World} {cl : Cli} {out : Str} (typed : w.Typed) (hw : w.wrapperVar = false)
    (hcl : w.cli = .ok cl) (start : cl.start = none) (dot : cl.format = .dot)
    (h : tool u demangle ord search w = .exit 0 out) :
    ∃ file host config stderr inp p, w.Built cl file host config (some 0) stderr ∧
      w.Inputs cl file host config stderr inp ∧ loadProgram u ord inp = .ok p ∧
      (p.NamesOnce → p.OrderSafe → w.elf.Fits32 →
        (∀ g' cycles, finalGraph demangle ord search p w.elf none = .ok (g', cycles) →
          ∀ nd ∈ g'.nodes, '\\' ∉ demangle nd.name) →
        ∃ nodes edges clusters, (readDot out).bind DotFile.meaning = some (nodes, edges, clusters) ∧
          ∃ (chosen : Option Str) (loc : Nat → Local), p.Chosen chosen ∧
            ∀ i < p.defined.length, ∃ nd, nodes[i]? = some nd ∧ nd.loc = loc i ∧
              (∃ s, p.Displayed demangle i s ∧ nd.name = demangle s) ∧ p.LocalIs search w.elf i (loc i) ∧
              ∀ m, nd.max = some m →
                MarkMeans (p.MayCall search w.elf chosen) (p.MayLeave search w.elf) loc i m) := by
  obtain ⟨file, host, config, stderr, inp, p, h1, h2, h3, h4⟩ :=
    C101_command_line_to_figures typed hw hcl start dot h
  refine ⟨file, host, config, stderr, inp, p, h1, h2, h3, fun once safe fits hn => ?_⟩
  obtain ⟨nodes, edges, clusters, h5, chosen, loc, h6, h7⟩ := h4 once safe fits hn
  refine ⟨nodes, edges, clusters, h5, chosen, loc, h6, fun i hi => ?_⟩
  obtain ⟨nd, k1, k2, k3, k4, _, k5⟩ := h7 i hi
  exact ⟨nd, k1, k2, k3, k4, fun m hm => markMeans_of (k5 m hm).1 (k5 m hm).2⟩

/-- In this program the frame of `f` is not known: the maximum of `main` is a lower bound, and `main` can need any
number of bytes from 8 on. The program meets the assumptions. -/
example (search : TagSearch) :
    (exTop [(c!"main", 8)]).NamesOnce ∧ (exTop [(c!"main", 8)]).DefinesOnce ∧
    (exTop [(c!"main", 8)]).DeclaresOnce ∧ (exTop [(c!"main", 8)]).Addressed ∧ (exTop [(c!"main", 8)]).OrderSafe ∧
    (exTop [(c!"main", 8)]).SizesU64 ∧
    ∃ g cs, finalGraph id sameOrder search (exTop [(c!"main", 8)]) ⟨[], none⟩ none = .ok (g, cs) ∧
      g.maxOf? 0 = some (.lowerBound 8) ∧
      ∀ n, CanNeed ((exTop [(c!"main", 8)]).MayCall search ⟨[], none⟩ none)
        ((exTop [(c!"main", 8)]).MayLeave search ⟨[], none⟩) g.locOf 0 (8 + n) := by
  have hdef : ∀ {i x}, (exTop [(c!"main", 8)]).Contains i x → x = .directCall c!"f" ∨ x = .other := by
    rintro i x ⟨d, h1, _, h2⟩
    simp only [exTop, List.mem_cons, List.not_mem_nil, or_false] at h1
    rcases h1 with rfl | rfl <;> simp at h2 <;> simp [h2]
  have call : (exTop [(c!"main", 8)]).MayCall search ⟨[], none⟩ none 0 1 :=
    .inl ⟨.directCall c!"f", ⟨_, List.mem_cons_self, mem_live rfl List.mem_cons_self rfl, by simp⟩,
      .direct (by rw [← classify_plain (t := false)]; rfl) (mem_live rfl List.mem_cons_self rfl) (by simp)⟩
  obtain ⟨g, cs, h1, h2⟩ := finalGraph_eval (p := exTop [(c!"main", 8)]) rfl search ⟨[], none⟩ none
    (fun g _ => g.maxOf? 0 = some (.lowerBound 8) ∧ g.locOf 0 = .exact 8 ∧ g.locOf 1 = .unknown) (by decide +kernel)
  refine ⟨namesOnce_of (by decide), by unfold Program.DefinesOnce; decide,
    by unfold Program.DeclaresOnce; decide, by unfold Program.Addressed; decide, ?_, ?_, g, cs, h1, h2.1, fun n => ?_⟩
  · refine orderSafe_of ⟨fun r hr => .inr ⟨fun i h => ?_, fun _ i h => ?_⟩, .inr fun i h => ?_⟩ <;>
      rcases hdef h with h | h <;> simp at h
    subst h
    revert hr
    decide
  · intro x k hk
    have := mget_mem hk
    simp only [exTop, List.mem_cons, List.not_mem_nil, or_false, Prod.mk.injEq] at this
    omega
  · refine ⟨fun u => match g.locOf u with | .exact k => k | .unknown => n, [0, 1], 0, fun u hu => ?_,
      .call call (.single 1), .inl rfl, by simp [h2.2.1, h2.2.2]⟩
    cases hl : g.locOf u <;> simp_all [Local.Known, Local.bytes]

/-- **C80**, the exact condition. If the tool is run without a start point, with `--format top`, and ends with status 0,
then the number that a reader finds in the line `MAX` covers whatever a call of the live function `i` can need exactly
if everything that can be reached from it is known, stays in the executable and uses no stack in recursion. -/
theorem C80_covers_iff {u : CharClass} {demangle : Str → Str} {ord : HashOrder}
    {search : TagSearch} {w : World} {cl : Cli} {out : Str} (typed : w.Typed) (hw : w.wrapperVar = false)
    (hcl : w.cli = .ok cl) (start : cl.start = none) (top : cl.format = .top)
    (h : tool u demangle ord search w = .exit 0 out) :
    ∃ file host config stderr inp p, w.Built cl file host config (some 0) stderr ∧
      w.Inputs cl file host config stderr inp ∧ loadProgram u ord inp = .ok p ∧
      (p.NamesOnce → p.OrderSafe → w.elf.Fits32 → (∃ j k, p.Frame j k) →
        (∀ g' cycles, finalGraph demangle ord search p w.elf none = .ok (g', cycles) →
          ∀ nd ∈ g'.nodes, '\\' ∉ demangle nd.name ∧ '\n' ∉ demangle nd.name) →
        ∃ n lines, readTop out = some (some n, lines) ∧
          ∃ (chosen : Option Str) (loc : Nat → Local), p.Chosen chosen ∧
            (∀ i < p.defined.length, p.LocalIs search w.elf i (loc i)) ∧
            ∀ i < p.defined.length,
              ((∀ k, CanNeed (p.MayCall search w.elf chosen) (p.MayLeave search w.elf) loc i k → k ≤ n) ↔
                ∀ v, Reach (p.MayCall search w.elf chosen) i v →
                  (loc v).Known ∧ ¬ p.MayLeave search w.elf v ∧
                  (Recursive (p.MayCall search w.elf chosen) v → (loc v).bytes = 0))) := by
  obtain ⟨file, host, config, stderr, inp, p, h1, h2, h3, h4⟩ :=
    C102_command_line_to_listing typed hw hcl start top h
  refine ⟨file, host, config, stderr, inp, p, h1, h2, h3, fun once safe fits frame hn => ?_⟩
  obtain ⟨max, lines, h5, chosen, loc, name, others, h6, h7, _, _, _, h8, _⟩ := h4 once safe fits hn
  obtain ⟨n, rfl, _, h9⟩ := h8 frame
  refine ⟨n, lines, h5, chosen, loc, h6, fun i hi => (h7 i hi).1, fun i hi => ?_⟩
  obtain ⟨k, hk⟩ := exists_heaviest (E := p.MayCall search w.elf chosen) (loc := loc) (v := i)
    (N := p.defined.length) (fun v hv => Program.MayCall.reach_lt hi hv)
  exact (canNeed_iff hk (h9 i hi k hk)).symm

end CallStack
