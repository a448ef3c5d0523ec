import Verif.Proof.SharedChange
import Verif.Props.SharedFigures
import Verif.Props.Need
import Verif.Props.Change

/-!
Property C119, what the mark before a maximum means, and property C120, that the figures do not depend on the orders of
hash maps nor on changes elsewhere in the program, if several functions may have the same names.
-/

namespace CallStack

section

variable {demangle : Str → Str} {ord : HashOrder} {search : TagSearch} {p : Program} {elf : Elf}

theorem Program.MayCallShared.lt {chosen : Option Str} {a b : Nat} (h : p.MayCallShared search elf chosen a b) :
    b < p.defined.length := by
  have hlast : ∀ {j}, p.LastOf j b → b < p.defined.length := fun ⟨_, _, _, _, _, hb, _⟩ =>
    (List.getElem?_eq_some_iff.mp hb).1
  obtain ⟨i, _, ⟨_, _, _, _, hl⟩ | ⟨_, _, hl⟩ | ⟨sig, h1, h2⟩⟩ := h
  · exact hlast hl
  · exact hlast hl
  · exact Program.MayCall.lt (i := i) (.inr (.inr ⟨sig, h1, h2⟩) : p.MayCall search elf chosen i b)

theorem Program.MayCallShared.reach_lt {chosen : Option Str} {i u : Nat} (hi : i < p.defined.length)
    (h : Reach (p.MayCallShared search elf chosen) i u) : u < p.defined.length := by
  induction h with
  | refl => exact hi
  | step h _ ih => exact ih h.lt

/-- **C119** What the mark before a maximum means, as C107: see `MarkMeans`. -/
theorem C119_mark {g' : Graph} {cycles : List (List Nat)} (alike : p.NamesAlike) (defs : p.DefinesOnce)
    (decls : p.DeclaresOnce) (addressed : p.Addressed) (safe : p.OrderSafe) (sizes : p.SizesU64)
    (fits : elf.Fits32) (h : finalGraph demangle ord search p elf none = .ok (g', cycles)) :
    ∃ chosen, p.Chosen chosen ∧ ∀ i < p.defined.length, p.LocalShared search elf i (g'.locOf i) ∧
      ∀ m, g'.maxOf? i = some m →
        MarkMeans (p.MayCallShared search elf chosen) (p.MayLeaveShared search elf) g'.locOf i m := by
  obtain ⟨chosen, hc, hf⟩ := C119_figures alike defs decls addressed safe sizes fits h
  refine ⟨chosen, hc, fun i hi => ⟨((hf i hi).1 _).mpr rfl, fun m hm => ?_⟩⟩
  obtain ⟨hh, he⟩ := (hf i hi).2.2 m hm
  exact markMeans_of hh he

/-- **C119** From the command line: what a reader of the dot file learns from `max = n` and `max >= n`. -/
theorem C119_mark_command_line {u : CharClass} {w : World} {cl : Cli} {out : Str} (typed : w.Typed)
    (hw : w.wrapperVar = false) (hcl : w.cli = .ok cl) (start : cl.start = none) (dot : cl.format = .dot)
    (h : tool u demangle ord search w = .exit 0 out) :
    ∃ file host config stderr inp p, w.Built cl file host config (some 0) stderr ∧
      w.Inputs cl file host config stderr inp ∧ loadProgram u ord inp = .ok p ∧
      (p.NamesAlike → p.OrderSafe → w.elf.Fits32 →
        (∀ g' cycles, finalGraph demangle ord search p w.elf none = .ok (g', cycles) →
          ∀ nd ∈ g'.nodes, '\\' ∉ demangle nd.name) →
        ∃ nodes edges clusters, (readDot out).bind DotFile.meaning = some (nodes, edges, clusters) ∧
          ∃ (chosen : Option Str) (loc : Nat → Local), p.Chosen chosen ∧
            ∀ i < p.defined.length, ∃ nd, nodes[i]? = some nd ∧ nd.loc = loc i ∧
              (∃ s, p.Displayed demangle i s ∧ nd.name = demangle s) ∧ p.LocalShared search w.elf i (loc i) ∧
              ∀ m, nd.max = some m →
                MarkMeans (p.MayCallShared search w.elf chosen) (p.MayLeaveShared search w.elf) loc i m) := by
  obtain ⟨file, host, config, stderr, inp, p, h1, h2, h3, h4⟩ := C119_command_line typed hw hcl start dot h
  refine ⟨file, host, config, stderr, inp, p, h1, h2, h3, fun alike safe fits hn => ?_⟩
  obtain ⟨nodes, edges, clusters, h5, chosen, loc, h6, h7⟩ := h4 alike safe fits hn
  refine ⟨nodes, edges, clusters, h5, chosen, loc, h6, fun i hi => ?_⟩
  obtain ⟨nd, k1, k2, k3, k4, _, k5⟩ := h7 i hi
  exact ⟨nd, k1, k2, k3, (k4 _).mpr rfl, fun m hm => markMeans_of (k5 m hm).1 (k5 m hm).2⟩

/-- **C120** The orders of hash maps do not matter, as C76: two runs without a start point that end with output show the
same name, local usage and maximum for every live function, in whatever orders the definitions, the declarations and
the types are read. -/
theorem C120_orders {ord' : HashOrder} {p' : Program} {g g' : Graph} {cycles cycles' : List (List Nat)}
    (same : p.Reordered p') (alike : p.NamesAlike) (defs : p.DefinesOnce)
    (decls : p.DeclaresOnce) (addressed : p.Addressed) (safe : p.OrderSafe) (one : p.OneVoid) (sizes : p.SizesU64)
    (fits : elf.Fits32) (h : finalGraph demangle ord search p elf none = .ok (g, cycles))
    (h' : finalGraph demangle ord' search p' elf none = .ok (g', cycles')) {i : Nat} (hi : i < p.defined.length) :
    (g.nodes[i]? ≠ none ∧ (g'.nodes[i]?).map Node.name = (g.nodes[i]?).map Node.name) ∧
      g'.locOf i = g.locOf i ∧ g'.maxOf? i = g.maxOf? i := by
  have alike' : p'.NamesAlike := by
    unfold Program.NamesAlike
    rw [same.defined]
    exact alike
  have sizes' := same.sizesU64 sizes
  obtain ⟨c, hc, hf⟩ := C119_figures alike defs decls addressed safe sizes fits h
  obtain ⟨c', hc', hf'⟩ := C119_figures alike' (same.definesOnce defs) (same.declaresOnce decls)
    (by unfold Program.Addressed; rw [same.defined]; exact addressed) (same.orderSafe safe) sizes' fits h'
  obtain rfl := chosen_unique one hc (same.chosen hc')
  rw [same.defined, same.mayCallShared] at hf'
  have hl : ∀ u < p.defined.length, g'.locOf u = g.locOf u := by
    intro u hu
    refine (((hf u hu).1 _).mp ?_).symm
    exact localShared_congr same.target same.defined (same.principal u) (fun _ => same.frame) (same.contains u)
      (((hf' u hu).1 _).mpr rfl)
  have hlt : ∀ {u}, Reach (p.MayCallShared search elf c) i u → u < p.defined.length :=
    fun hr => Program.MayCallShared.reach_lt hi hr
  refine ⟨?_, hl i hi, ?_⟩
  · obtain ⟨nd, k1, k2⟩ := C98_displayed sizes fits h hi
    obtain ⟨nd', l1, l2⟩ := C98_displayed sizes' fits h' (i := i) (by rw [same.defined]; exact hi)
    refine ⟨by rw [k1]; simp, ?_⟩
    rw [k1, l1]
    simp only [Option.map_some, Option.some.injEq]
    refine (l2 _).mp ?_
    have := (k2 _).mpr rfl
    unfold Program.Displayed at this ⊢
    simp only [same.principal]
    exact this
  · refine maxima_congr ?_ (hf i hi).2.2 (hf' i hi).2.2 (fun _ _ _ => Iff.rfl) (fun u hu => hl u (hlt hu))
      (fun _ _ => same.mayLeaveShared)
    rw [(hf i hi).2.1, (hf' i hi).2.1]
    simp only [same.frame]

/-- **C120** Only what can be reached matters, as C105: if the bodies and the reported frame sizes of all functions that
can be reached from the node of `i` are the same in another version of the program, however different the rest is, then
its local usage and maximum are the same. -/
theorem C120_unchanged {demangle' : Str → Str} {ord' : HashOrder} {p' : Program} {g g' : Graph}
    {cycles cycles' : List (List Nat)} (shape : p.SameShape p')
    (alike : p.NamesAlike) (defs : p.DefinesOnce) (decls : p.DeclaresOnce) (addressed : p.Addressed)
    (one : p.OneVoid) (safe : p.OrderSafe) (safe' : p'.OrderSafe) (sizes : p.SizesU64)
    (sizes' : p'.SizesU64) (fits : elf.Fits32)
    (h : finalGraph demangle ord search p elf none = .ok (g, cycles))
    (h' : finalGraph demangle' ord' search p' elf none = .ok (g', cycles')) {i : Nat} (hi : i < p.defined.length)
    (same : ∀ chosen, p.Chosen chosen → ∀ u, Reach (p.MayCallShared search elf chosen) i u →
      p.SameBody p' u ∧ p.SameFrame p' u) :
    g'.locOf i = g.locOf i ∧ g'.maxOf? i = g.maxOf? i := by
  obtain ⟨c, hc, hf⟩ := C119_figures alike defs decls addressed safe sizes fits h
  obtain ⟨c', hc', hf'⟩ := C119_figures (shape.namesAlike alike) (shape.definesOnce defs)
    (by unfold Program.DeclaresOnce; rw [shape.declares]; exact decls)
    (by unfold Program.Addressed; rw [shape.defined]; exact addressed) safe' sizes' fits h'
  obtain rfl := chosen_unique one hc (shape.chosen hc')
  rw [shape.defined] at hf'
  have same := same c hc
  have hlt : ∀ {u}, Reach (p.MayCallShared search elf c) i u → u < p.defined.length :=
    fun hr => Program.MayCallShared.reach_lt hi hr
  have hbody : ∀ u, Reach (p.MayCallShared search elf c) i u → ∀ j, p.LastOf j u → p.SameBody p' j := by
    intro u hu j hj s
    rw [hj.contains, (shape.lastOf.mpr hj).contains]
    exact (same u hu).1 s
  have hl : ∀ u, Reach (p.MayCallShared search elf c) i u → g'.locOf u = g.locOf u := by
    intro u hu
    refine (((hf u (hlt hu)).1 _).mp ?_).symm
    exact localShared_congr shape.target shape.defined (fun _ => shape.principal) (same u hu).2 (same u hu).1
      (((hf' u (hlt hu)).1 _).mpr rfl)
  refine ⟨hl i (.refl i), maxima_congr ?_ (hf i hi).2.2 (hf' i hi).2.2
    (fun u hu w => shape.mayCallShared (hbody u hu) w) hl (fun u hu => shape.mayLeaveShared (hbody u hu))⟩
  rw [(hf i hi).2.1, (hf' i hi).2.1]
  simp only [shape.framed]

end

/-! ### Examples -/

theorem exIrTwins_oneVoid : exIrTwins.OneVoid := by
  rintro j j' sig sig' v v' h1 _ ⟨h2, h3⟩
  rcases h1 with ⟨d, hd, _, rfl⟩ | ⟨d, hd, _⟩
  · simp only [exIrTwins, List.mem_cons, List.not_mem_nil, or_false] at hd
    rcases hd with rfl | rfl | rfl <;> simp [exSig, exBinSig, exPtrSig] at h2 h3
  · simp [exIrTwins] at hd

/-- The hypotheses of `C119_mark` are met: 48 bytes is the most that a call of `main` can need. -/
example (search : TagSearch) : ∃ g cs, finalGraph id sameOrder search exIrTwins ⟨[], none⟩ none = .ok (g, cs) ∧
    ∃ chosen, exIrTwins.Chosen chosen ∧
      CanNeed (exIrTwins.MayCallShared search ⟨[], none⟩ chosen) (exIrTwins.MayLeaveShared search ⟨[], none⟩) g.locOf 0 48 ∧
      ∀ k, CanNeed (exIrTwins.MayCallShared search ⟨[], none⟩ chosen) (exIrTwins.MayLeaveShared search ⟨[], none⟩)
        g.locOf 0 k → k ≤ 48 := by
  obtain ⟨a1, _, a3, a4, a5, a6, a7⟩ := exIrTwins_ok
  obtain ⟨g, cs, h, hm⟩ := finalGraph_eval (p := exIrTwins) rfl search ⟨[], none⟩ none
    (fun g _ => g.maxOf? 0 = some (.exact 48)) (by decide +kernel)
  obtain ⟨chosen, hc, hf⟩ := C119_mark a1 a3 a4 a5 a6 a7 (by simp [Elf.Fits32]) h
  have hk := (hf 0 (by decide)).2 _ hm
  exact ⟨g, cs, h, chosen, hc, hk.most trivial, hk.limit.mp trivial⟩

/-- The hypotheses of `C120_orders` are met: with the definitions in the reverse order, and whatever the order in which
the types are read, `main` has the same maximum. -/
example (search : TagSearch) (ord : HashOrder) :
    exIrTwins.Reordered { exIrTwins with defines := exIrTwins.defines.reverse } ∧
    (∃ g cs, finalGraph id reverseOrder search { exIrTwins with defines := exIrTwins.defines.reverse } ⟨[], none⟩ none =
      .ok (g, cs)) ∧
    ∀ {g' : Graph} {cs' : List (List Nat)},
      finalGraph id ord search { exIrTwins with defines := exIrTwins.defines.reverse } ⟨[], none⟩ none = .ok (g', cs') →
      g'.maxOf? 0 = some (.exact 48) := by
  have same : exIrTwins.Reordered { exIrTwins with defines := exIrTwins.defines.reverse } :=
    ⟨rfl, rfl, rfl, rfl, List.reverse_perm _, .refl _⟩
  refine ⟨same, ?_, fun h' => ?_⟩
  · obtain ⟨g, cs, h, _⟩ := finalGraph_eval_order (p := { exIrTwins with defines := exIrTwins.defines.reverse }) rfl
      reverseOrder search ⟨[], none⟩ none (fun _ _ => True) (by decide +kernel)
    exact ⟨g, cs, h⟩
  · obtain ⟨a1, _, a3, a4, a5, a6, a7⟩ := exIrTwins_ok
    obtain ⟨g, cs, h, hm⟩ := finalGraph_eval (p := exIrTwins) rfl search ⟨[], none⟩ none
      (fun g _ => g.maxOf? 0 = some (.exact 48)) (by decide +kernel)
    rw [(C120_orders same a1 a3 a4 a5 a6 exIrTwins_oneVoid a7 (by simp [Elf.Fits32]) h h' (by decide)).2.2]
    exact hm

/-- `exIrTwins` with 80 bytes more for `main`. -/
def exIrTwinsMore : Program :=
  { exIrTwins with stackSizes := [(c!"main", 88), (c!"helper", 16), (c!"leaf", 24)] }

theorem exIrTwins_more : exIrTwins.SameShape exIrTwinsMore where
  target := rfl
  defined := rfl
  undefined := rfl
  declares := rfl
  defines := .cons ⟨rfl, rfl⟩ (.cons ⟨rfl, rfl⟩ (.cons ⟨rfl, rfl⟩ .nil))
  reported n := by
    have key : ∀ k, (∃ x, mget n [(c!"main", k), (c!"helper", 16), (c!"leaf", 24)] = some x) ↔
        n = c!"main" ∨ n = c!"helper" ∨ n = c!"leaf" := by
      intro k
      constructor
      · rintro ⟨x, hx⟩
        have := mget_mem hx
        simp only [List.mem_cons, List.not_mem_nil, or_false, Prod.mk.injEq] at this
        tauto
      · rintro (rfl | rfl | rfl)
        · exact ⟨k, rfl⟩
        · exact ⟨16, rfl⟩
        · exact ⟨24, rfl⟩
    exact (key 88).trans (key 8).symm

/-- Nothing calls `main`. -/
theorem exIrTwins_main {search : TagSearch} {c : Option Str} {a : Nat} :
    ¬ exIrTwins.MayCallShared search ⟨[], none⟩ c a 0 := by
  have hstmt : ∀ {i s}, exIrTwins.Contains i s → s = .directCall c!"helper" ∨ s = .directCall c!"leaf" := by
    rintro i s ⟨d, h1, _, h2⟩
    simp only [exIrTwins, List.mem_cons, List.not_mem_nil, or_false] at h1
    rcases h1 with rfl | rfl | rfl <;> simp at h2 <;> simp [h2]
  rintro ⟨i, _, ⟨s, j, h1, h2, b, y, a', x, h3, h4, h5, _⟩ | ⟨j, ⟨h1, _⟩, _⟩ | ⟨sig, ⟨_, sig', h1, _⟩, _⟩⟩
  · have hlive : ∀ {f}, exIrTwins.LiveAt f j → f = c!"main" := by
      rintro f ⟨b', y', k1, k2, _⟩
      rw [h3] at k1
      cases k1
      simp only [exIrTwins, List.getElem?_cons_zero, Option.some.injEq, Prod.mk.injEq] at h4
      obtain ⟨_, rfl⟩ := h4
      rw [← h5] at k2
      simpa using k2
    rcases hstmt h1 with rfl | rfl
    · cases h2 with
      | direct _ h _ => exact absurd (hlive h) (by decide)
      | copy _ h => revert h; decide
      | fill _ h => revert h; decide
    · cases h2 with
      | direct _ h _ => exact absurd (hlive h) (by decide)
      | copy _ h => revert h; decide
      | fill _ h => revert h; decide
  · simp [exIrTwins, Target.isThumb] at h1
  · rcases hstmt h1 with h | h <;> cases h

/-- The hypotheses of `C120_unchanged` are met: `main` uses 80 bytes more, and the figures of `helper`, which does not
call `main`, are the same. -/
example (search : TagSearch) (ord : HashOrder) :
    (∃ g cs, finalGraph id sameOrder search exIrTwinsMore ⟨[], none⟩ none = .ok (g, cs) ∧
      g.maxOf? 0 = some (.exact 128)) ∧
    ∀ {g' : Graph} {cs' : List (List Nat)},
      finalGraph id ord search exIrTwinsMore ⟨[], none⟩ none = .ok (g', cs') → g'.maxOf? 2 = some (.exact 40) := by
  refine ⟨finalGraph_eval (p := exIrTwinsMore) rfl search ⟨[], none⟩ none (fun g _ => g.maxOf? 0 = _)
    (by decide +kernel), fun h' => ?_⟩
  obtain ⟨a1, _, a3, a4, a5, a6, a7⟩ := exIrTwins_ok
  obtain ⟨g, cs, h, hm⟩ := finalGraph_eval (p := exIrTwins) rfl search ⟨[], none⟩ none
    (fun g _ => g.maxOf? 2 = some (.exact 40)) (by decide +kernel)
  have bodies : ∀ u, exIrTwins.SameBody exIrTwinsMore u := fun _ _ => Iff.rfl
  refine (C120_unchanged exIrTwins_more a1 a3 a4 a5 exIrTwins_oneVoid a6 (exIrTwins_more.orderSafe bodies a6) a7 ?_
    (by simp [Elf.Fits32]) h h' (i := 2) (by decide) fun c _ u hu => ⟨bodies u, ?_⟩).2.trans hm
  · intro n k hk
    have := mget_mem hk
    simp only [exIrTwinsMore, List.mem_cons, List.not_mem_nil, or_false, Prod.mk.injEq] at this
    omega
  · have hne : u ≠ 0 := by
      have key : ∀ {v u}, Reach (exIrTwins.MayCallShared search ⟨[], none⟩ c) v u → v ≠ 0 → u ≠ 0 := by
        intro v u hr
        induction hr with
        | refl => exact id
        | step h1 _ ih =>
          intro _
          exact ih fun e => exIrTwins_main (e ▸ h1)
      exact key hu (by decide)
    have hrep : ∀ {n k}, n ≠ c!"main" → (exIrTwinsMore.Reported n k ↔ exIrTwins.Reported n k) := by
      intro n k hn
      unfold Program.Reported
      simp only [exIrTwinsMore, exIrTwins, mget]
      simp [hn.symm]
    have hname : ∀ {a s n}, exIrTwins.defined[u]? = some (a, s) → n ∈ s.names → ¬ IsMappingSymbol n → n ≠ c!"main" := by
      intro a s n h1 h2 h3
      rcases exIrTwins_live ⟨a, s, h1, h2, h3⟩ with ⟨e, _⟩ | ⟨_, rfl⟩ | ⟨_, rfl⟩ | ⟨_, rfl⟩
      · exact absurd e hne
      all_goals decide
    intro k
    unfold Program.Frame
    refine exists_congr fun a => exists_congr fun s => exists_congr fun pre => exists_congr fun n =>
      exists_congr fun post => and_congr_right fun h1 => and_congr_right fun h2 => and_congr_right fun h3 => ?_
    have hn := hname h1 (by rw [h2]; simp) h3
    refine and_congr (hrep hn) (forall_congr' fun n' => imp_congr_right fun hn' => ?_)
    by_cases hmap : IsMappingSymbol n'
    · simp [hmap]
    · simp only [hmap, false_or]
      exact forall_congr' fun k' => not_congr (hrep (hname h1 (by rw [h2]; simp [hn']) hmap))

end CallStack
