import Verif.Props.Log
import Verif.Props.EndToEnd
import Verif.Proof.SharedLog

/-!
Properties C89-C92: messages about inexact figures, the start point, missing figures and indirect calls without
callees (main.rs:955-1137).
-/

namespace CallStack

theorem Program.LiveAt.lt {p : Program} {n : Str} {i : Nat} (h : p.LiveAt n i) : i < p.defined.length := by
  obtain ⟨_, _, h, _⟩ := h
  exact (List.getElem?_eq_some_iff.mp h).1

theorem Program.Principal.lt {p : Program} {n : Str} {i : Nat} (h : p.Principal i n) :
    i < p.defined.length := by
  obtain ⟨_, _, _, _, h, _⟩ := h
  exact (List.getElem?_eq_some_iff.mp h).1

theorem Program.Principal.liveAt {p : Program} {n : Str} {i : Nat} (h : p.Principal i n) : p.LiveAt n i := by
  obtain ⟨a, s, pre, post, h1, h2, h3, _⟩ := h
  exact ⟨a, s, h1, by rw [h2]; simp, h3⟩

theorem Program.FirstDefined.lt {p : Program} {s : FnSig} {i : Nat} (h : p.FirstDefined i s) :
    i < p.defined.length := by
  obtain ⟨_, _, _, _, _, h, _⟩ := h
  exact (List.getElem?_eq_some_iff.mp h).1

theorem Program.MayCall.lt {p : Program} {search : TagSearch} {elf : Elf} {chosen : Option Str} {i j : Nat}
    (h : p.MayCall search elf chosen i j) : j < p.defined.length := by
  rcases h with ⟨s, _, h⟩ | ⟨_, _, _, _, _, _, _, _, h⟩ | ⟨sig, _, ⟨_, h⟩ | ⟨_, s, h, _⟩⟩
  · cases h with
    | bitcast h => exact h.lt
    | direct _ h => exact h.lt
    | copy _ _ _ h => exact h.lt
    | fill _ _ _ h => exact h.lt
  · exact (List.getElem?_eq_some_iff.mp h).1
  · rcases h with h | ⟨_, h⟩
    · exact h.lt
    · obtain ⟨_, _, _, _, _, h, _⟩ := h
      exact (List.getElem?_eq_some_iff.mp h).1
  · exact h.lt

theorem Program.MayCall.reach_lt {p : Program} {search : TagSearch} {elf : Elf} {chosen : Option Str}
    {i u : Nat} (hi : i < p.defined.length) (h : Reach (p.MayCall search elf chosen) i u) :
    u < p.defined.length := by
  induction h with
  | refl => exact hi
  | step h _ ih => exact ih h.lt

/-- Why the maximum of functions that may call the `u`-th live function is only a lower bound, as far as the
messages say so. -/
def Program.Announced (p : Program) (log : List LogMsg) (u : Nat) : Prop :=
  (∃ n, p.Principal u n ∧ (.noUsage n ∈ log ∨ .untypedCall n ∈ log)) ∨
  (.noText ∈ log ∧ ∀ k, ¬ p.Frame u k) ∨
  (.untypedSymbols ∈ log ∧ ∃ sig, p.MayCallType u sig) ∨
  (∃ n, p.Contains u (.bitcastCall (some n)) ∧ .noInfo n ∈ log)

/-- The `u`-th live function calls one that is not in the executable, and no message says so: it calls it
directly, or through a bitcast and some live function calls it directly. -/
def Program.LeavesSilently (p : Program) (u : Nat) : Prop :=
  (∃ f, p.Contains u (.directCall f) ∧ ¬ IsIntrinsic f ∧ p.NotLive f ∧ f ≠ c!"memcmp") ∨
  (∃ f, p.Contains u (.bitcastCall (some f)) ∧ (∀ j, ¬ p.Principal j f) ∧ ∃ i, p.Contains i (.directCall f))

/-- **C89** If a maximum is only a lower bound then a message says why, about a function that is reached, or
there is a reason that is not announced: a function that is reached calls one that is not in the executable, other
than only through a bitcast, or uses stack in recursion. Conversely each of these makes the maximum a lower
bound. Partial: that there is always a message is not true, see `C89_silent`. -/
theorem C89_lower_bounds_explained_partial {demangle : Str → Str} {ord : HashOrder} {search : TagSearch} {p : Program}
    {elf : Elf} {g' : Graph} {cycles : List (List Nat)} (once : p.NamesOnce) (defs : p.DefinesOnce)
    (decls : p.DeclaresOnce) (addressed : p.Addressed) (safe : p.OrderSafe) (sizes : p.SizesU64)
    (fits : elf.Fits32) (h : finalGraph demangle ord search p elf none = .ok (g', cycles)) :
    ∃ chosen, p.Chosen chosen ∧ ∀ i < p.defined.length, ∀ m, g'.maxOf? i = some m →
      (¬ m.IsExact ↔ ∃ u, Reach (p.MayCall search elf chosen) i u ∧
        (p.Announced (runLog demangle ord search p elf none) u ∨
         p.LeavesSilently u ∨
         (Recursive (p.MayCall search elf chosen) u ∧ (g'.locOf u).bytes ≠ 0))) := by
  obtain ⟨chosen, h1, h2⟩ := C85_figures once defs decls addressed safe sizes fits h
  obtain ⟨g1, g2, g3, g4, g5⟩ := C86_gaps_announced once decls h
  obtain ⟨_, _, _, _, b1, b2, _⟩ := C88_assumptions_announced once h
  obtain ⟨st, g, _, c1, c2⟩ := finalGraph_start h
  obtain ⟨cs, ext, st0, stIr, r⟩ := callGraph_facts once c1
  have hname : ∀ u < p.defined.length, ∃ n, p.Principal u n := by
    intro u hu
    rw [← r.live_length] at hu
    exact ⟨_, r.ir.principal.mpr (List.getElem?_eq_getElem hu)⟩
  have hone : ∀ {u l l'}, u < p.defined.length → p.LocalIs search elf u l → p.LocalIs search elf u l' →
      l = l' := by
    intro u l l' hu a b
    rw [← r.live_length] at hu
    rw [(r.localIs_iff once hu l).mp a, (r.localIs_iff once hu l').mp b]
  refine ⟨chosen, h1, fun i hi m hm => ?_⟩
  rw [((h2 i hi).2.2 m hm).2]
  constructor
  · intro h3
    by_contra h4
    refine h3 (fun u hu => ?_)
    have hlt := Program.MayCall.reach_lt hi hu
    obtain ⟨n, hn⟩ := hname u hlt
    have h5 : ∀ P : Prop, (P → p.Announced (runLog demangle ord search p elf none) u ∨
         p.LeavesSilently u ∨
         (Recursive (p.MayCall search elf chosen) u ∧ (g'.locOf u).bytes ≠ 0)) → ¬ P :=
      fun P hP x => h4 ⟨u, hu, hP x⟩
    refine ⟨?_, h5 _ ?_, ?_⟩
    · have hl := (h2 u hlt).1
      cases hk : g'.locOf u with
      | exact k => simp [Local.Known]
      | unknown =>
        rw [hk] at hl
        refine absurd trivial (h5 True fun _ => .inl ?_)
        by_cases ht : p.TextMissing elf
        · refine .inr (.inl ⟨g2.mpr ht, fun k hf => ?_⟩)
          have := hone hlt hl (.frame (.inr ht.2) hf)
          simp at this
        · exact .inl ⟨n, hn, .inl ((g1 n).mpr ⟨u, hn, hl, ht⟩)⟩
    · rintro (⟨s, h6, h7⟩ | h6 | ⟨h6, h7⟩)
      · cases h7 with
        | @bitcast a h7 =>
          rcases b2 u a h6 h7 with h8 | ⟨i', h8⟩
          · exact .inl (.inr (.inr (.inr ⟨a, h6, h8⟩)))
          · exact .inr (.inl (.inr ⟨a, h6, h7, i', h8⟩))
        | @direct f a b c => exact .inr (.inl (.inl ⟨f, h6, a, b, c⟩))
      · exact .inl (.inl ⟨n, hn, .inr ((g5 n).mpr ⟨u, hn, h6⟩)⟩)
      · exact .inl (.inr (.inr (.inl ⟨g4.mpr h7, h6⟩)))
    · intro h6
      by_contra h7
      exact h5 True (fun _ => .inr (.inr ⟨h6, h7⟩)) trivial
  · rintro ⟨u, hu, h3⟩ h4
    obtain ⟨h5, h6, h7⟩ := h4 u hu
    have hlt := Program.MayCall.reach_lt hi hu
    have hl := (h2 u hlt).1
    have hsame : ∀ {i' n}, p.Principal u n → p.Principal i' n → i' = u := fun a b =>
      r.ir.idx0.inj (r.ir.principal.mp b) (r.ir.principal.mp a)
    rcases h3 with h3 | (⟨f, h3, h8, h9, h10⟩ | ⟨f, h3, h8, _⟩) | ⟨h3, h8⟩
    · rcases h3 with ⟨n, hn, h8 | h8⟩ | ⟨h8, h9⟩ | ⟨h8, h9⟩ | ⟨n, h8, h9⟩
      · obtain ⟨i', a1, a2, a3⟩ := (g1 n).mp h8
        obtain rfl := hsame hn a1
        rw [hone hlt hl a2] at h5
        exact h5
      · obtain ⟨i', a1, a2⟩ := (g5 n).mp h8
        obtain rfl := hsame hn a1
        exact h6 (.inr (.inl a2))
      · rw [hone hlt hl (.none (.inr (g2.mp h8).2) h9)] at h5
        exact h5
      · exact h6 (.inr (.inr ⟨h9, g4.mp h8⟩))
      · exact h6 (.inl ⟨_, h8, .bitcast (b1 n h9).2⟩)
    · exact h6 (.inl ⟨_, h3, .direct h8 h9 h10⟩)
    · exact h6 (.inl ⟨_, h3, .bitcast h8⟩)
    · exact h8 (h7 h3)

/-- `main` calls `ext`, which is not in the executable; `f` calls itself. -/
def exSilent : Program :=
  { target := .other
    defined := [(8, ⟨[c!"main"], 4⟩), (16, ⟨[c!"f"], 8⟩)]
    undefined := [c!"ext"]
    stackSizes := [(c!"main", 8), (c!"f", 16)]
    defines := [⟨c!"main", exSig, [.directCall c!"ext"]⟩, ⟨c!"f", exSig, [.directCall c!"f"]⟩]
    declares := [] }

/-- **C89** does not hold in general: the maxima of `main` and `f` are lower bounds and there is no message. -/
theorem C89_silent (search : TagSearch) :
    (∃ g cs, finalGraph id sameOrder search exSilent ⟨[], none⟩ none = .ok (g, cs) ∧
      g.maxOf? 0 = some (.lowerBound 8) ∧ g.maxOf? 1 = some (.lowerBound 16)) ∧
    runLog id sameOrder search exSilent ⟨[], none⟩ none = [] := by
  refine ⟨finalGraph_eval rfl search _ none (fun g _ => g.maxOf? 0 = _ ∧ g.maxOf? 1 = _) (by decide +kernel), ?_⟩
  rw [runLog_other rfl search linearSearch _ ⟨[], none⟩]
  decide +kernel

/-- The hypotheses of `C89_lower_bounds_explained_partial` are met by that program. -/
example : exSilent.NamesOnce ∧ exSilent.DefinesOnce ∧ exSilent.DeclaresOnce ∧ exSilent.Addressed ∧
    exSilent.OrderSafe ∧ exSilent.SizesU64 ∧ exSilent.LeavesSilently 0 := by
  have hdef : ∀ {i x}, exSilent.Contains i x → x = .directCall c!"ext" ∨ x = .directCall c!"f" := by
    rintro i x ⟨d, h1, _, h2⟩
    simp only [exSilent, List.mem_cons, List.not_mem_nil, or_false] at h1
    rcases h1 with rfl | rfl <;> simp only [List.mem_cons, List.not_mem_nil, or_false] at h2
    · exact .inl h2
    · exact .inr h2
  have hno : ∀ {i x}, exSilent.Contains i x → x ≠ .directCall c!"ext" → x ≠ .directCall c!"f" → False :=
    fun h a b => (hdef h).elim a b
  refine ⟨namesOnce_of (by decide), by unfold Program.DefinesOnce; decide,
    by unfold Program.DeclaresOnce; decide, by unfold Program.Addressed; decide, ?_, ?_, .inl ⟨c!"ext", ?_, ?_, ?_, ?_⟩⟩
  · refine orderSafe_of ⟨fun r hr => .inr ⟨fun i h => hno h (by simp) (by simp), fun _ i h => ?_⟩,
      .inr fun i h => hno h (by decide) (by decide)⟩
    have hall : ∀ r ∈ CopyRoutines ++ FillRoutines, r ≠ c!"ext" ∧ r ≠ c!"f" := by
      unfold CopyRoutines FillRoutines
      decide
    have := hall r hr
    exact hno h (by simpa using this.1) (by simpa using this.2)
  · intro n k hk
    have := mget_mem hk
    simp only [exSilent, List.mem_cons, List.not_mem_nil, or_false, Prod.mk.injEq] at this
    omega
  · exact ⟨_, List.mem_cons_self, ⟨_, _, rfl, List.mem_cons_self, by rw [← isTag_iff]; decide⟩,
      List.mem_cons_self⟩
  · unfold IsIntrinsic
    decide
  · rintro j ⟨a, s, h1, h2, _⟩
    have h1 := List.mem_of_getElem? h1
    simp only [exSilent, List.mem_cons, Prod.mk.injEq, List.not_mem_nil, or_false] at h1
    rcases h1 with ⟨_, rfl⟩ | ⟨_, rfl⟩ <;> simp at h2
  · decide

theorem resolve_shown {demangle : Str → Str} {p : Program} {indices : List (Str × Nat)}
    (nodup : (indices.map (·.1)).Nodup) (shown : ∀ n, n ∈ indices.map (·.1) ↔ p.Shown n) (s : Str) (i : Nat) :
    resolveStart demangle indices s = some i ↔ ∃ n, (n, i) ∈ indices ∧ p.Starts demangle s n := by
  have hsh : ∀ n, p.Shown n ↔ ∃ i, (n, i) ∈ indices := by
    intro n
    rw [← shown, List.mem_map]
    constructor
    · rintro ⟨⟨a, i⟩, h1, rfl⟩
      exact ⟨i, h1⟩
    · rintro ⟨i, h1⟩
      exact ⟨_, h1, rfl⟩
  rw [C16_start_resolution demangle nodup]
  unfold Program.Starts
  constructor
  · rintro (h1 | ⟨h1, n, h2, h3, h4⟩)
    · exact ⟨s, h1, (hsh s).mpr ⟨i, h1⟩, .inl rfl⟩
    · refine ⟨n, h2, (hsh n).mpr ⟨i, h2⟩, .inr ⟨fun h5 => ?_, h3, fun n' h5 h6 => ?_⟩⟩
      · obtain ⟨j, h5⟩ := (hsh s).mp h5
        exact h1 j h5
      · obtain ⟨j, h5⟩ := (hsh n').mp h5
        exact h4 n' j h5 h6
  · rintro ⟨n, h1, _, rfl | ⟨h2, h3, h4⟩⟩
    · exact .inl h1
    · exact .inr ⟨fun j h5 => h2 ((hsh s).mpr ⟨j, h5⟩), n, h1, h3,
        fun n' j h5 h6 => h4 n' ((hsh n').mpr ⟨j, h5⟩) h6⟩

theorem RunFacts.resolve_iff {demangle : Str → Str} {ord : HashOrder} {search : TagSearch} {p : Program}
    {elf : Elf} {cs ext : List Str} {st0 stIr st : Build} {g : Graph}
    (r : RunFacts demangle ord search p elf cs ext st0 stIr st g) (s : Str) (i : Nat) :
    resolveStart demangle st.indices s = some i ↔ ∃ n, (n, i) ∈ st.indices ∧ p.Starts demangle s n :=
  resolve_shown r.indices_nodup r.shown_iff s i

/-- **C90** A start point that selects no function is announced, and all candidates are listed if there are
several. -/
theorem C90_start_announced {demangle : Str → Str} {ord : HashOrder} {search : TagSearch} {p : Program}
    {elf : Elf} {start : Option Str} {out : Graph × List (List Nat)}
    (h : finalGraph demangle ord search p elf start = .ok out) :
    let log := runLog demangle ord search p elf start
    (.noStart ∈ log ↔ ∃ s, start = some s ∧ ∀ n, ¬ p.Starts demangle s n) ∧
    (∀ s hits, .ambiguousStart s hits ∈ log → start = some s ∧ ¬ p.Shown s ∧ hits.Nodup ∧ 2 ≤ hits.length ∧
      ∀ n, n ∈ hits ↔ p.Shown n ∧ StartMatches demangle s n) ∧
    (∀ s n n', start = some s → ¬ p.Shown s → p.Shown n → StartMatches demangle s n → p.Shown n' →
      StartMatches demangle s n' → n ≠ n' → ∃ hits, .ambiguousStart s hits ∈ log) := by
  obtain ⟨st, g, g1, h1, h2⟩ := finalGraph_start h
  obtain ⟨cs, st0, stIr, r⟩ := callGraph_shared h1
  have hmem := r.mem_log h1 h2
  have hsh := r.shown_iff
  have hlook : ∀ s, lookupStr s st.indices = none ↔ ¬ p.Shown s := by
    intro s
    rw [lookupStr_none, ← hsh, List.mem_map]
    constructor
    · rintro h3 ⟨⟨a, i⟩, h4, rfl⟩
      exact h3 i h4
    · intro h3 i h4
      exact h3 ⟨_, h4, rfl⟩
  have hhits : ∀ s n, n ∈ (ord.perm _ 0 (st.indices.map (·.1))).filter
      (fun key => startsWith (demangle key) (s ++ c!"::h")) ↔ p.Shown n ∧ StartMatches demangle s n := by
    intro s n
    rw [List.mem_filter, (ord.isPerm _ _ _).mem_iff, hsh, startsWith_iff]
    rfl
  have hnd : ∀ s, ((ord.perm _ 0 (st.indices.map (·.1))).filter
      (fun key => startsWith (demangle key) (s ++ c!"::h"))).Nodup := fun s =>
    (((ord.isPerm _ _ _).nodup_iff).mpr r.indices_nodup).filter _
  refine ⟨?_, fun s hits => ?_, fun s n n' hs h3 h4 h5 h6 h7 h8 => ?_⟩
  · rw [hmem]
    simp only [LogMsg.ofSym, LogMsg.ofStmt, LogMsg.ofCode, LogMsg.ofIndirect, LogMsg.ofStart, Bool.false_eq_true, true_and,
      reduceCtorEq, false_and, or_false, false_or]
    cases start with
    | none => simp [startLog]
    | some s =>
      simp only [Option.some.injEq, exists_eq_left']
      unfold startLog
      simp only
      cases hl : lookupStr s st.indices with
      | some i =>
        simp only [List.not_mem_nil, false_iff]
        intro h3
        have : p.Shown s := by
          by_contra h4
          rw [(hlook s).mpr h4] at hl
          simp at hl
        exact h3 s ⟨this, .inl rfl⟩
      | none =>
        have hns := (hlook s).mp hl
        have hh := hhits s
        have hn := hnd s
        simp only
        generalize (ord.perm _ 0 (st.indices.map (·.1))).filter
          (fun key => startsWith (demangle key) (s ++ c!"::h")) = hits at hh hn ⊢
        match hits, hh, hn with
        | [], hh, _ =>
          simp only [List.length_nil, gt_iff_lt, Nat.not_lt_zero, if_false, List.mem_singleton, true_iff]
          rintro n ⟨h3, rfl | ⟨_, h4, _⟩⟩
          · exact hns h3
          · exact absurd ((hh n).mpr ⟨h3, h4⟩) (by simp)
        | [a], hh, _ =>
          simp only [List.length_singleton, gt_iff_lt, Nat.lt_irrefl, if_false, List.not_mem_nil, false_iff]
          intro h3
          obtain ⟨h4, h5⟩ := (hh a).mp (by simp)
          refine h3 a ⟨h4, .inr ⟨hns, h5, fun n' h6 h7 => ?_⟩⟩
          simpa using (hh n').mpr ⟨h6, h7⟩
        | a :: b :: rest, hh, hn =>
          simp only [List.length_cons, gt_iff_lt]
          rw [if_pos (by omega)]
          simp only [List.mem_cons, reduceCtorEq, List.not_mem_nil, or_false, or_true, true_iff]
          rintro n ⟨h3, rfl | ⟨_, h4, h5⟩⟩
          · exact hns h3
          · have ha := (hh a).mp (by simp)
            have hb := (hh b).mp (by simp)
            have : a = b := (h5 a ha.1 ha.2).trans (h5 b hb.1 hb.2).symm
            subst this
            simp at hn
  · rw [hmem]
    simp only [LogMsg.ofSym, LogMsg.ofStmt, LogMsg.ofCode, LogMsg.ofIndirect, LogMsg.ofStart, Bool.false_eq_true, true_and,
      reduceCtorEq, false_and, or_false, false_or]
    intro h3
    unfold startLog at h3
    split at h3
    · simp at h3
    · rename_i s'
      split at h3
      · simp at h3
      · rename_i hl
        simp only at h3
        split at h3
        · rename_i h4
          simp only [List.mem_cons, LogMsg.ambiguousStart.injEq, reduceCtorEq, List.not_mem_nil, or_false] at h3
          obtain ⟨rfl, rfl⟩ := h3
          exact ⟨rfl, (hlook s).mp hl, hnd s, h4, hhits s⟩
        · split at h3 <;> simp at h3
  · subst hs
    refine ⟨(ord.perm _ 0 (st.indices.map (·.1))).filter (fun key => startsWith (demangle key) (s ++ c!"::h")),
      (hmem _).mpr (.inr (.inr (.inr (.inr (.inl ⟨rfl, ?_⟩)))))⟩
    unfold startLog
    simp only [(hlook s).mpr h3]
    have ha := (hhits s n).mpr ⟨h4, h5⟩
    have hb := (hhits s n').mpr ⟨h6, h7⟩
    rw [if_pos]
    · simp
    · generalize (ord.perm _ 0 (st.indices.map (·.1))).filter
          (fun key => startsWith (demangle key) (s ++ c!"::h")) = hits at ha hb ⊢
      match hits with
      | [] => simp at ha
      | [a] =>
        simp only [List.mem_singleton] at ha hb
        exact absurd (ha.trans hb.symm) h8
      | a :: b :: rest => simp

/-- **C90** With a start point the output is that without one, restricted to what the selected function reaches;
if no function is selected, and only then, the tool says so and the output is that without a start point. -/
theorem C90_start {demangle : Str → Str} {ord : HashOrder} {search : TagSearch} {p : Program}
    {elf : Elf} {g : Graph} {cycles : List (List Nat)} (sizes : p.SizesU64) (fits : elf.Fits32)
    (h : finalGraph demangle ord search p elf none = .ok (g, cycles)) (s : Str) :
    ∃ g' cycles', finalGraph demangle ord search p elf (some s) = .ok (g', cycles') ∧
      (.noStart ∈ runLog demangle ord search p elf (some s) → g' = g ∧ cycles' = cycles) ∧
      (.noStart ∉ runLog demangle ord search p elf (some s) → ∃ n i ren, p.Starts demangle s n ∧
        Restricted g i g' ren ∧ ∀ j, p.Principal j n → p.Principal i n ∧ j ≤ i) := by
  obtain ⟨st, g0, g', cycles', h1, h2, h3⟩ := C15_printed_graph sizes fits h s
  obtain ⟨cs, st0, stIr, r⟩ := callGraph_shared h1
  have hres := resolve_shown (demangle := demangle) r.indices_nodup r.shown_iff
  have h4 := (C90_start_announced h2).1
  refine ⟨g', cycles', h2, fun h5 => ?_, fun h5 => ?_⟩
  · rcases h3 with ⟨_, h6⟩ | ⟨i, nd, ren, h6, _⟩
    · exact h6
    · obtain ⟨s', hs, h7⟩ := h4.mp h5
      obtain rfl := Option.some.inj hs
      obtain ⟨n, _, h8⟩ := (hres _ i).mp h6
      exact absurd h8 (h7 n)
  · rcases h3 with ⟨h6, _⟩ | ⟨i, nd, ren, h6, h7, _, h8⟩
    · exfalso
      refine h5 (h4.mpr ⟨s, rfl, fun n h7 => ?_⟩)
      obtain ⟨⟨_, i⟩, h8, rfl⟩ := List.mem_map.mp ((r.shown_iff n).mpr h7.1)
      rw [(hres s i).mpr ⟨_, h8, h7⟩] at h6
      simp at h6
    · obtain ⟨n, h9, h10⟩ := (hres s i).mp h6
      refine ⟨n, i, ren, h10, h8, fun j hj => ?_⟩
      have hm := mget_of_mem r.indices_nodup h9
      obtain ⟨m0, hm0⟩ := Option.ne_none_iff_exists'.mp (r.sym.indices_ne _ (List.mem_of_getElem? (r.principal.mp hj)))
      have := r.ir.indices _ _ hm0
      rw [← r.machine.indices, hm] at this
      cases this
      refine ⟨r.principal.mpr (r.sym.indices_some _ _ hm0), ?_⟩
      by_contra hlt
      refine (r.last _ _ hm0).2 j (mkNode n (mget n p.stackSizes) false) (by omega) ?_ rfl
      rw [r.sym.nodes, List.getElem?_map, r.principal.mp hj]
      rfl

/-- Two functions that differ only in the hash. -/
def exHashes : Program :=
  { target := .other
    defined := [(8, ⟨[c!"a::f::h0123456789abcdef"], 4⟩), (16, ⟨[c!"a::f::h0123456789abcde0"], 8⟩),
      (24, ⟨[c!"a::g::h0123456789abcdef"], 4⟩)]
    undefined := []
    stackSizes := []
    defines := [⟨c!"a::f::h0123456789abcdef", exSig, []⟩, ⟨c!"a::f::h0123456789abcde0", exSig, []⟩,
      ⟨c!"a::g::h0123456789abcdef", exSig, []⟩]
    declares := [] }

/-- Neither `a::f` nor `a` select a function; `a::g` does. All figures are missing. -/
example (search : TagSearch) : exHashes.NamesOnce ∧ exHashes.SizesU64 ∧
    (runLog id sameOrder search exHashes ⟨[], none⟩ (some c!"a::f")).drop 3 =
      [.ambiguousStart c!"a::f" [c!"a::f::h0123456789abcdef", c!"a::f::h0123456789abcde0"], .noStart,
        .noFigures] ∧
    (runLog id sameOrder search exHashes ⟨[], none⟩ (some c!"a")).drop 3 = [.noStart, .noFigures] ∧
    (runLog id sameOrder search exHashes ⟨[], none⟩ (some c!"a::g")).drop 3 = [.noFigures] ∧
    (∃ g cs, finalGraph id sameOrder search exHashes ⟨[], none⟩ (some c!"a::g") = .ok (g, cs) ∧
      g.nodes.map Node.name = [c!"a::g"]) := by
  refine ⟨namesOnce_of (by decide), ?_, ?_, ?_, ?_,
    finalGraph_eval rfl search _ _ (fun g _ => g.nodes.map Node.name = _) (by decide +kernel)⟩
  · intro n k hk
    have := mget_mem hk
    simp [exHashes] at this
  all_goals
    rw [runLog_other rfl search linearSearch _ ⟨[], none⟩]
    decide +kernel

/-- **C91** The tool says that there is no information about stack usage exactly if the compiler reports the frame
of no live function. -/
theorem C91_no_figures {demangle : Str → Str} {ord : HashOrder} {search : TagSearch} {p : Program}
    {elf : Elf} {start : Option Str} {out : Graph × List (List Nat)}
    (h : finalGraph demangle ord search p elf start = .ok out) :
    .noFigures ∈ runLog demangle ord search p elf start ↔ ∀ i k, ¬ p.Frame i k := by
  obtain ⟨st, g, g1, h1, h2⟩ := finalGraph_start h
  obtain ⟨cs, st0, stIr, r⟩ := callGraph_shared h1
  rw [r.mem_log h1 h2]
  simp only [LogMsg.ofSym, LogMsg.ofStmt, LogMsg.ofCode, LogMsg.ofIndirect, LogMsg.ofStart, Bool.false_eq_true, true_and,
    false_and, false_or]
  have := r.info_iff
  rw [← Bool.not_eq_true, this]
  simp only [not_exists]

/-- **C91** So it says so exactly if no maximum is shown. -/
theorem C91_no_maxima {demangle : Str → Str} {ord : HashOrder} {search : TagSearch} {p : Program}
    {elf : Elf} {g' : Graph} {cycles : List (List Nat)} (sizes : p.SizesU64) (fits : elf.Fits32)
    (h : finalGraph demangle ord search p elf none = .ok (g', cycles)) {v : Nat}
    (hv : v < g'.nodes.length) :
    .noFigures ∈ runLog demangle ord search p elf none ↔ g'.maxOf? v = none := by
  rw [C91_no_figures h]
  have := C82_shown_iff sizes fits h hv
  cases hm : g'.maxOf? v with
  | none =>
    rw [hm] at this
    simp only [reduceCtorEq, exists_false, false_iff] at this
    simpa using this
  | some m =>
    rw [hm] at this
    simp only [Option.some.injEq, exists_eq', true_iff] at this
    obtain ⟨i, k, hk⟩ := this
    simp only [reduceCtorEq, iff_false]
    exact fun h => h i k hk

/-- **C92** The tool says that an indirect call may reach nothing exactly if the call is one of formatting
functions and no live function that has a definition is one: types of declarations have put the call there. It
says so under the type and, unless there are functions without types, under the label of the call. -/
theorem C92_no_callees {demangle : Str → Str} {ord : HashOrder} {search : TagSearch} {p : Program}
    {elf : Elf} {start : Option Str} {out : Graph × List (List Nat)} (once : p.NamesOnce)
    (defs : p.DefinesOnce) (decls : p.DeclaresOnce)
    (h : finalGraph demangle ord search p elf start = .ok out) :
    ∃ chosen, p.Chosen chosen ∧ ∀ t, .noCallees t ∈ runLog demangle ord search p elf start ↔
      ∃ sig, p.Called sig ∧ (∃ j, p.TakenAs j sig) ∧ FormatsChosen chosen sig ∧
        (¬ ∃ j s, p.FirstDefined j s ∧ s.FmtShape) ∧
        (t = sig.show ∨ (¬ p.SomeUntyped ∧ LabelOf chosen sig t)) := by
  obtain ⟨st, g, g1, h1, h2⟩ := finalGraph_start h
  obtain ⟨cs, ext, st0, stIr, r⟩ := callGraph_facts once h1
  refine ⟨voidOf ord st, r.chosen defs decls, fun t => ?_⟩
  rw [r.mem_log' once h2]
  simp only [LogMsg.ofSym, LogMsg.ofStmt, LogMsg.ofCode, LogMsg.ofIndirect, LogMsg.ofStart, Bool.false_eq_true, true_and,
    reduceCtorEq, false_and, or_false, false_or]
  have hun : st.hasUntypedSymbols = false ↔ ¬ p.SomeUntyped := by
    have hu := r.untyped decls
    rw [← Bool.not_eq_true, hu]
    unfold Program.SomeUntyped
    simp only [← isOutlined_iff, Bool.not_eq_true]
  have hcalled : ∀ e ∈ st.indirects, e.2.called = true ↔ p.Called e.1 := by
    intro e he
    have he' : e ∈ stIr.indirects := by rw [← r.machine.indirects]; exact he
    rw [r.ir.ir.called e he']
    unfold Program.Called
    constructor
    · intro h
      obtain ⟨i, hi⟩ := List.exists_mem_of_ne_nil _ h
      obtain ⟨s, h1, h2⟩ := (r.ir.ir.callers e he' i).mp hi
      exact ⟨i, s, h1, (C39_signatures _ _).mp h2⟩
    · rintro ⟨i, s, h1, h2⟩
      exact List.ne_nil_of_mem ((r.ir.ir.callers e he' i).mpr ⟨s, h1, (C39_signatures _ _).mpr h2⟩)
  have hempty : ∀ e ∈ st.indirects, dashedCallees st.fmts (voidOf ord st) e = [] ↔
      FormatsChosen (voidOf ord st) e.1 ∧ ¬ ∃ j s, p.FirstDefined j s ∧ s.FmtShape := by
    intro e he
    have hcand := r.candidate_iff defs decls he
    rw [List.eq_nil_iff_forall_not_mem]
    simp only [hcand, Program.Candidate, not_or, not_and, not_exists]
    obtain ⟨j, hj⟩ := (r.registered defs decls e.1).mp ⟨_, he⟩
    constructor
    · intro h3
      by_cases hf : FormatsChosen (voidOf ord st) e.1
      · exact ⟨hf, fun j s => (h3 j).2 hf s⟩
      · exact absurd hj ((h3 j).1 hf)
    · rintro ⟨hf, h3⟩ j
      exact ⟨fun h4 => absurd hf h4, fun _ => h3 j⟩
  unfold indirectsLog
  simp only [List.mem_append, List.mem_flatMap, mem_indirectStepLog, LogMsg.noCallees.injEq]
  have hno : LogMsg.noCallees t ∉ (if st.hasUntypedSymbols = true then [LogMsg.untypedSymbols] else []) := by
    split <;> simp
  simp only [hno, false_or, (ord.isPerm _ _ _).mem_iff]
  constructor
  · rintro ⟨e, h3, h4, h5⟩
    refine ⟨e.1, (hcalled e h3).mp h4, (r.registered defs decls e.1).mp ⟨_, h3⟩, ?_⟩
    rcases h5 with ⟨rfl, h5, h6⟩ | ⟨rfl, h5, h6⟩
    · have : dashedCallees st.fmts (voidOf ord st) e = [] := by
        unfold dashedCallees voidOf
        rw [if_pos h5, h6]
      obtain ⟨h7, h8⟩ := (hempty e h3).mp this
      exact ⟨h7, h8, .inl rfl⟩
    · obtain ⟨h7, h8⟩ := (hempty e h3).mp h6
      exact ⟨h7, h8, .inr ⟨hun.mp h5, labelOf_dashed _ e⟩⟩
  · rintro ⟨sig, h3, h4, h5, h6, h7⟩
    obtain ⟨i0, h8⟩ := (r.registered defs decls sig).mpr h4
    have h9 := (hempty _ h8).mpr ⟨h5, h6⟩
    refine ⟨_, h8, (hcalled _ h8).mpr h3, ?_⟩
    rcases h7 with rfl | ⟨h7, h10⟩
    · refine .inl ⟨rfl, (isFormatter_iff _ _).mpr h5, ?_⟩
      unfold dashedCallees at h9
      rw [if_pos ((isFormatter_iff _ _).mpr h5)] at h9
      exact h9
    · refine .inr ⟨?_, hun.mpr h7, h9⟩
      have h11 := labelOf_dashed (voidOf ord st) (sig, i0)
      change t = (dashedNode (voidOf ord st) (sig, i0)).name
      unfold LabelOf at h10 h11
      by_cases hc : FormatsChosen (voidOf ord st) sig ∧ voidOf ord st ≠ some c!"fmt::Void"
      · rw [h10.1 hc, h11.1 hc]
      · rw [h10.2 hc, h11.2 hc]

/-- `main` calls formatting functions for any type; the only live function of this type is declared but not
defined. -/
def exNoCallees : Program :=
  { target := .other
    defined := [(8, ⟨[c!"main"], 4⟩), (16, ⟨[c!"f"], 8⟩)]
    undefined := []
    stackSizes := [(c!"main", 8), (c!"f", 16)]
    defines := [⟨c!"main", exSig, [.indirectCall (exFmtSig (.alias c!"core::fmt::Void"))]⟩]
    declares := [⟨c!"f", some (exFmtSig (.alias c!"core::fmt::Void"))⟩] }

/-- There are two messages about that program. -/
example (search : TagSearch) : exNoCallees.NamesOnce ∧ exNoCallees.DefinesOnce ∧ exNoCallees.DeclaresOnce ∧
    (∃ g cs, finalGraph id sameOrder search exNoCallees ⟨[], none⟩ none = .ok (g, cs) ∧ g.edges = [(0, 2)]) ∧
    runLog id sameOrder search exNoCallees ⟨[], none⟩ none =
      [.noCallees c!"i1 (%\"core::fmt::Void\"*, %\"core::fmt::Formatter\"*)", .noCallees fmtLabel] := by
  refine ⟨namesOnce_of (by decide), by unfold Program.DefinesOnce; decide,
    by unfold Program.DeclaresOnce; decide,
    finalGraph_eval rfl search _ none (fun g _ => g.edges = _) (by decide +kernel), ?_⟩
  rw [runLog_other rfl search linearSearch _ ⟨[], none⟩]
  decide +kernel

end CallStack
