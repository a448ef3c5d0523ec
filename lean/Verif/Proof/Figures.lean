import Verif.Spec.Figures
import Verif.Proof.IndirectExact
import Verif.Props.Machine

/-!
The calls between live functions in the finished graph are those of `Spec.Figures`.
-/

namespace CallStack

section live

variable {n : Nat} {E : Nat → Nat → Prop} {loc : Nat → Local}

theorem LiveHop.lt {a b : Nat} (ha : a < n) (h : Reach (LiveHop E n) a b) : b < n := by
  induction h with
  | refl => exact ha
  | step h _ ih => exact ih h.2.1

/-- Recursion groups and heaviest chains among live functions. -/
theorem LiveGraph.heaviest (h : LiveGraph n E loc) {v k : Nat} (hv : v < n) (hh : Heaviest E loc v k) :
    Heaviest (LiveHop E n) loc v k := by
  obtain ⟨⟨us, hc, hw⟩, hmax⟩ := hh
  constructor
  · refine ⟨us.filter (fun u => decide (u < n)), ⟨?_, ?_⟩, ?_⟩
    · intro u hu
      obtain ⟨h1, h2⟩ := List.mem_filter.mp hu
      exact (h.reach_iff hv (by simpa using h2)).mp (hc.1 u h1)
    · refine (hc.2.filter _).imp_of_mem ?_
      intro a b ha hb hab
      have ha' : a < n := by simpa using (List.mem_filter.mp ha).2
      have hb' : b < n := by simpa using (List.mem_filter.mp hb).2
      rw [← h.reach_iff ha' hb', ← h.reach_iff hb' ha']
      exact hab
    · rw [h.weight_filter, hw]
  · intro us hus
    refine hmax us ⟨fun u hu => LiveHop.reach (hus.1 u hu), ?_⟩
    refine hus.2.imp_of_mem ?_
    intro a b ha hb hab
    rw [h.reach_iff (LiveHop.lt hv (hus.1 a ha)) (LiveHop.lt hv (hus.1 b hb)),
      h.reach_iff (LiveHop.lt hv (hus.1 b hb)) (LiveHop.lt hv (hus.1 a ha))]
    exact hab

/-- A chain that uses stack has a live function, from which a chain of the same weight starts. -/
theorem LiveGraph.from_live (h : LiveGraph n E loc) {v : Nat} {us : List Nat} (hc : GroupChain E v us)
    (hw : weight loc us ≠ 0) : ∃ w < n, ∃ us', GroupChain E w us' ∧ weight loc us' = weight loc us := by
  rw [← h.weight_filter us] at hw ⊢
  have hp := hc.2.filter (fun u => decide (u < n))
  have hlt : ∀ u ∈ us.filter (fun u => decide (u < n)), u < n := fun u hu => by
    simpa using (List.mem_filter.mp hu).2
  generalize us.filter (fun u => decide (u < n)) = l at hw hp hlt
  cases l with
  | nil => exact (hw rfl).elim
  | cons w l =>
    refine ⟨w, hlt w List.mem_cons_self, w :: l, ⟨?_, hp⟩, rfl⟩
    intro u hu
    rcases List.mem_cons.mp hu with rfl | hu
    · exact .refl _
    · exact ((List.pairwise_cons.mp hp).1 u hu).1

theorem LiveGraph.bounded_iff (h : LiveGraph n E loc) {v : Nat} (hv : v < n) :
    BoundedKnown E loc v ↔ ∀ u, Reach (LiveHop E n) v u →
      (loc u).Known ∧ (Recursive (LiveHop E n) u → (loc u).bytes = 0) ∧ ¬ UnknownHop E loc n u := by
  constructor
  · intro hb u hr
    have hu := LiveHop.lt hv hr
    have hr' := (h.reach_iff hv hu).mpr hr
    obtain ⟨h1, h2⟩ := hb u hr'
    refine ⟨h1, fun hrec => h2 ((h.recursive_iff hu).mpr hrec), fun hk => ?_⟩
    obtain ⟨u', _, h4, h5⟩ := hk.reach
    exact h5 (hb u' (hr'.trans h4)).1
  · intro hb u hr
    by_cases hu : u < n
    · obtain ⟨h1, h2, _⟩ := hb u ((h.reach_iff hv hu).mp hr)
      exact ⟨h1, fun hrec => h2 ((h.recursive_iff hu).mp hrec)⟩
    · refine ⟨?_, fun _ => h.zero u (by omega)⟩
      by_contra hk
      obtain ⟨c, hc, h1, h2⟩ := (h.unknown_cases (by omega) hk hr).1 hv
      exact (hb c ((h.reach_iff hv hc).mp h1)).2.2 h2

end live

section run

variable {demangle : Str → Str} {ord : HashOrder} {search : TagSearch} {p : Program} {elf : Elf}
  {cs ext : List Str} {st0 stIr st : Build} {g : Graph}

/-- Statements that lead to live functions. -/
theorem RunFacts.irTo_live (h : RunFacts demangle ord search p elf cs ext st0 stIr st g) (i j : Nat) :
    (∃ name, cs[j]? = some name ∧ IrTo p cs st0 i name) ↔ ∃ s, p.Contains i s ∧ p.StmtCalls s j := by
  unfold IrTo
  constructor
  · rintro ⟨name, hj, s, hs, ht⟩
    refine ⟨s, hs, ?_⟩
    have hp := h.ir.principal.mpr hj
    unfold MustTarget at ht
    split at ht
    · subst ht
      exact .bitcast hp
    · rename_i f
      rcases ht with ⟨rs, h1, h2, _⟩ | ⟨h1, h2, h3⟩
      · have hthumb : p.target.isThumb = false := by
          cases hb : p.target.isThumb with
          | false => rfl
          | true => rw [hb] at h1; exact absurd h1 classify_thumb_memory
        rcases classify_memory h1 with ⟨h3, rfl⟩ | ⟨h3, rfl⟩
        · exact .copy hthumb h3 h2 hp
        · exact .fill hthumb h3 h2 hp
      · have hlive : p.LiveAt f j := by
          rcases h3 with h3 | ⟨h3, rfl⟩
          · exact (h.ir.live f name j hj).mp h3
          · exact absurd (h.ir.self name j hj) ((h.ir.dead name).mp h3 j)
        refine .direct (classify_plain.mp h1) hlive ?_
        rintro rfl
        have hm : c!"memcmp" ∈ cs := by
          by_contra hno
          exact h2 ⟨by simp [symbollessIntrinsics], hno⟩
        obtain ⟨k, hk⟩ := List.getElem?_of_mem hm
        have hk' := (h.ir.live c!"memcmp" c!"memcmp" k hk).mpr (h.ir.self _ _ hk)
        have hj' := (h.ir.live c!"memcmp" name j hj).mpr hlive
        rw [hk'] at hj'
        rw [Option.some.inj hj']
        exact hp
    · exact ht.elim
  · rintro ⟨s, hs, ht⟩
    cases ht with
    | bitcast hp => exact ⟨_, h.ir.principal.mp hp, _, hs, rfl⟩
    | @direct f _ h1 h2 h3 =>
      have hj : j < cs.length := by
        obtain ⟨a, s, h4, _⟩ := h2
        rw [h.live_length]
        exact (List.getElem?_eq_some_iff.mp h4).1
      have hc := List.getElem?_eq_getElem hj
      refine ⟨_, hc, _, hs, .inr ⟨classify_plain.mpr h1, ?_, .inl ((h.ir.live f _ j hc).mpr h2)⟩⟩
      rintro ⟨h4, h5⟩
      have hf : f = c!"memcmp" := by simpa [symbollessIntrinsics] using h4
      exact h5 (List.mem_of_getElem? (h.ir.principal.mp (h3 hf)))
    | @copy f r _ h1 h2 h3 h4 =>
      have hc := h.ir.principal.mp h4
      refine ⟨r, hc, _, hs, .inl ⟨_, ?_, h3, List.mem_of_getElem? hc⟩⟩
      rw [h1]
      exact classify_memcpy h2
    | @fill f r _ h1 h2 h3 h4 =>
      have hc := h.ir.principal.mp h4
      refine ⟨r, hc, _, hs, .inl ⟨_, ?_, h3, List.mem_of_getElem? hc⟩⟩
      rw [h1]
      exact classify_memset h2

/-- Statements that lead out of the executable. -/
theorem RunFacts.irTo_ext (h : RunFacts demangle ord search p elf cs ext st0 stIr st g) (i : Nat) :
    (∃ name, name ∉ cs ∧ IrTo p cs st0 i name) ↔ ∃ s, p.Contains i s ∧ p.StmtLeaves s := by
  have hcs : ∀ name, name ∉ cs ↔ ∀ j, ¬ p.Principal j name := by
    intro name
    rw [h.ir.mem_cs]
    exact not_exists
  unfold IrTo
  constructor
  · rintro ⟨name, hj, s, hs, ht⟩
    refine ⟨s, hs, ?_⟩
    unfold MustTarget at ht
    split at ht
    · subst ht
      exact .bitcast ((hcs _).mp hj)
    · rename_i f
      rcases ht with ⟨rs, h1, h2, h3⟩ | ⟨h1, h2, h3⟩
      · exact absurd h3 hj
      · rcases h3 with h3 | ⟨h3, rfl⟩
        · obtain ⟨k, hk, _⟩ := (h.ir.alias_iff f name).mp h3
          exact absurd hk ((hcs name).mp hj k)
        · refine .direct (classify_plain.mp h1) ((h.ir.dead _).mp h3) ?_
          rintro rfl
          exact h2 ⟨by simp [symbollessIntrinsics], hj⟩
    · exact ht.elim
  · rintro ⟨s, hs, ht⟩
    cases ht with
    | bitcast hp => exact ⟨_, (hcs _).mpr hp, _, hs, rfl⟩
    | @direct f h1 h2 h3 =>
      refine ⟨f, ?_, _, hs, .inr ⟨classify_plain.mpr h1, ?_, .inr ⟨(h.ir.dead f).mpr h2, rfl⟩⟩⟩
      · intro hm
        obtain ⟨k, hk⟩ := List.getElem?_of_mem hm
        exact h2 k (h.ir.self f k hk)
      · rintro ⟨h4, _⟩
        exact h3 (by simpa [symbollessIntrinsics] using h4)

theorem codeOf_iff {i address size : Nat} {r : ThumbState} :
    CodeOf search p elf i address size r ↔
      p.target.isThumb = true ∧ p.Decoded search elf i address size r := by
  constructor
  · rintro ⟨ht, stext, text, e, h1, h2, h3, rfl, rfl⟩
    exact ⟨ht, decoded_of h2 h1 h3⟩
  · rintro ⟨ht, hd⟩
    obtain ⟨a, s, stext, text, _, h1, h2, _⟩ := id hd
    obtain ⟨h3, h4, h5⟩ := analyzed_of h1 h2 hd
    exact ⟨ht, stext, text, _, h2, h1, h3, h4, h5⟩

theorem RunFacts.codeTo_iff (h : RunFacts demangle ord search p elf cs ext st0 stIr st g)
    (addressed : p.Addressed) (i j : Nat) :
    CodeTo search p elf cs st0 i j ↔ p.CodeCalls search elf i j := by
  unfold CodeTo Program.CodeCalls
  constructor
  · rintro ⟨address, size, r, hc, t, ht, hn⟩
    obtain ⟨h1, h2⟩ := codeOf_iff.mp hc
    exact ⟨h1, address, size, r, t, h2, mem_calledAddrs.mp ht, h.resolves ((h.ir.resolves_iff' t j).mpr hn)⟩
  · rintro ⟨h1, address, size, r, t, h2, h3, s, hs⟩
    refine ⟨address, size, r, codeOf_iff.mpr ⟨h1, h2⟩, t, mem_calledAddrs.mpr h3, ?_⟩
    cases hn : mget t st0.addr2name with
    | none => exact absurd hn (h.ir.sym.addr_ne j _ hs)
    | some name =>
      obtain ⟨k, s', h4, h5⟩ := h.ir.sym.addr_some t name hn
      have hkj : k = j := by
        obtain ⟨l1, e1⟩ := List.getElem?_eq_some_iff.mp h4
        obtain ⟨l2, e2⟩ := List.getElem?_eq_some_iff.mp hs
        rcases Nat.lt_trichotomy k j with hlt | heq | hlt
        · have := List.pairwise_iff_getElem.mp addressed k j l1 l2 hlt
          rw [e1, e2] at this
          simp at this
        · exact heq
        · have := List.pairwise_iff_getElem.mp addressed j k l2 l1 hlt
          rw [e1, e2] at this
          simp at this
      subst hkj
      exact ⟨name, rfl, h5⟩

theorem RunFacts.codeUnknown_iff (h : RunFacts demangle ord search p elf cs ext st0 stIr st g) (i : Nat) :
    CodeUnknown search p elf cs st0 i ↔ p.CodeLeaves search elf i := by
  unfold CodeUnknown Program.CodeLeaves Program.NoIr
  constructor
  · rintro ⟨address, size, r, c, hc, h1, h2, h3⟩
    obtain ⟨h4, h5⟩ := codeOf_iff.mp hc
    exact ⟨h4, fun d hd hl => h2 ⟨d, hd, (h.ir.live d.name c i h1).mpr hl⟩, address, size, r, h5, h3⟩
  · rintro ⟨h1, h2, address, size, r, h3, h4⟩
    obtain ⟨a, s, _, _, _, h5, _⟩ := id h3
    have hi : i < cs.length := by
      rw [h.live_length]
      exact (List.getElem?_eq_some_iff.mp h5).1
    have hc := List.getElem?_eq_getElem hi
    refine ⟨address, size, r, _, codeOf_iff.mpr ⟨h1, h3⟩, hc, ?_, h4⟩
    rintro ⟨d, hd, hl⟩
    exact h2 d hd ((h.ir.live d.name _ i hc).mp hl)

theorem marks_iff (i : Nat) (sig : FnSig) :
    Marks p i sig ↔ ∃ sig', p.Contains i (.indirectCall sig') ∧ sig.Compatible sig' := by
  unfold Marks
  simp only [C39_signatures]

theorem RunFacts.candidate_iff (h : RunFacts demangle ord search p elf cs ext st0 stIr st g)
    (defs : p.DefinesOnce) (decls : p.DeclaresOnce) {e : FnSig × Indirect} (he : e ∈ st.indirects) (j : Nat) :
    j ∈ dashedCallees st.fmts (voidOf ord st) e ↔ p.Candidate (voidOf ord st) e.1 j := by
  have he' : e ∈ stIr.indirects := by rw [← h.machine.indirects]; exact he
  unfold dashedCallees Program.Candidate
  rw [← isFormatter_iff]
  split
  · rename_i hf
    rw [h.fmt]
    simp only [hf, not_true, false_and, true_and, false_or]
    constructor
    · rintro ⟨s, d, h1, h2, h3⟩
      exact ⟨d.sig, (firstDefined_iff defs h1 _).mpr ⟨d, h2, rfl⟩, h3⟩
    · rintro ⟨s, h1, h2⟩
      obtain ⟨a, s', _, _, _, h3, _⟩ := id h1
      obtain ⟨d, h4, rfl⟩ := (firstDefined_iff defs h3 _).mp h1
      exact ⟨_, d, h3, h4, h2⟩
  · rename_i hf
    simp only [hf, Bool.false_eq_true, false_and, or_false, not_false_eq_true, true_and]
    rw [takenAs_iff defs decls, ← callees_iff h.ir he']

/-- The calls between live functions. -/
theorem RunFacts.mayCall_iff (h : RunFacts demangle ord search p elf cs ext st0 stIr st g)
    (once : p.NamesOnce) (defs : p.DefinesOnce) (decls : p.DeclaresOnce) (addressed : p.Addressed)
    (safe : p.OrderSafe) :
    LiveHop g.Calls cs.length = p.MayCall search elf (voidOf ord st) := by
  funext i j
  apply propext
  have hind : (∃ e ∈ st.indirects, Marks p i e.1 ∧ j ∈ dashedCallees st.fmts (voidOf ord st) e) ↔
      ∃ sig, p.MayCallType i sig ∧ p.Candidate (voidOf ord st) sig j := by
    constructor
    · rintro ⟨e, he, h1, h2⟩
      exact ⟨e.1, ⟨(h.registered defs decls e.1).mp ⟨_, he⟩, (marks_iff i _).mp h1⟩,
        (h.candidate_iff defs decls he j).mp h2⟩
    · rintro ⟨sig, ⟨h1, h2⟩, h3⟩
      obtain ⟨i0, he⟩ := (h.registered defs decls sig).mpr h1
      exact ⟨_, he, (marks_iff i _).mpr h2, (h.candidate_iff defs decls he j).mpr h3⟩
  unfold LiveHop Program.MayCall
  constructor
  · rintro ⟨hi, hj, hh⟩
    rw [h.hop_iff once safe hi hj, h.irTo_live, h.codeTo_iff addressed, hind] at hh
    exact hh
  · intro hh
    rw [← h.irTo_live, ← h.codeTo_iff addressed, ← hind] at hh
    have hij : i < cs.length ∧ j < cs.length := by
      rcases hh with ⟨name, h1, s, h2, _⟩ | ⟨_, _, _, h1, _, _, _, _, h2⟩ | ⟨e, h1, h2, h3⟩
      · exact ⟨h.ir.ir.callerReal i _ h2, (List.getElem?_eq_some_iff.mp h1).1⟩
      · obtain ⟨_, _, _, e, _, h3, _⟩ := h1
        refine ⟨?_, (List.getElem?_eq_some_iff.mp h2).1⟩
        rw [h.live_length]
        exact (List.getElem?_eq_some_iff.mp h3).1
      · exact ⟨h.marks_live h2, h.callees_live h1 h3⟩
    exact ⟨hij.1, hij.2, (h.hop_iff once safe hij.1 hij.2).mpr hh⟩

theorem RunFacts.mayLeave_iff (h : RunFacts demangle ord search p elf cs ext st0 stIr st g)
    (once : p.NamesOnce) (defs : p.DefinesOnce) (decls : p.DeclaresOnce) (safe : p.OrderSafe) {i : Nat}
    (hi : i < cs.length) :
    UnknownHop g.Calls g.locOf cs.length i ↔ p.MayLeave search elf i := by
  rw [h.unknown_iff once safe hi, h.irTo_ext, h.codeUnknown_iff, h.untyped decls]
  unfold Program.MayLeave
  simp only [← isOutlined_iff, Bool.not_eq_true]
  refine or_congr Iff.rfl (or_congr Iff.rfl ?_)
  rw [and_comm]
  refine and_congr ?_ Iff.rfl
  constructor
  · rintro ⟨e, he, h1⟩
    exact ⟨e.1, (h.registered defs decls e.1).mp ⟨_, he⟩, (marks_iff i _).mp h1⟩
  · rintro ⟨sig, h1, h2⟩
    obtain ⟨i0, he⟩ := (h.registered defs decls sig).mpr h1
    exact ⟨_, he, (marks_iff i _).mpr h2⟩

/-- The local usage. -/
theorem RunFacts.localIs (h : RunFacts demangle ord search p elf cs ext st0 stIr st g)
    (once : p.NamesOnce) {i : Nat} (hi : i < cs.length) : p.LocalIs search elf i (g.locOf i) := by
  have hc := List.getElem?_eq_getElem hi
  have hlt : i < p.defined.length := by rw [← h.live_length]; exact hi
  have he := List.getElem?_eq_getElem hlt
  have hcan := h.ir.sym.canon i _ _ he hc
  have hframe : ∀ k, mget cs[i] p.stackSizes = some k ↔ p.Frame i k := fun k => (frame_iff he hcan k).symm
  have hopt : p.FrameOpt i (mget cs[i] p.stackSizes) := by
    cases hm : mget cs[i] p.stackSizes with
    | none =>
      intro k hk
      rw [(hframe k).mpr hk] at hm
      simp at hm
    | some k => exact (hframe k).mp hm
  obtain ⟨asm, hasm, ⟨address, size, r, h1, h2⟩ | ⟨h1, h2⟩⟩ := h.loc_of once hc
  · obtain ⟨h3, h4⟩ := codeOf_iff.mp h1
    have hloc : (mkNode cs[i] (mget cs[i] p.stackSizes) false).loc =
        match mget cs[i] p.stackSizes with | some n => .exact n | none => .unknown := rfl
    rw [hloc] at h2
    have h6 := (C50_override_policy _ _ _ _ _ _).mp h2
    rw [hasm, isOutlined_iff] at h6
    exact .code h3 h4 hopt (h.ir.principal.mpr hc) h6
  · have h3 : p.target.isThumb = false ∨ elf.text = none := by
      cases ht : p.target.isThumb with
      | false => exact .inl rfl
      | true =>
        right
        cases hx : elf.text with
        | none => rfl
        | some t => exact absurd ⟨ht, t, hx⟩ h1
    rw [h2]
    cases hm : mget cs[i] p.stackSizes with
    | none =>
      refine .none h3 (fun k hk => ?_)
      rw [(hframe k).mpr hk] at hm
      simp at hm
    | some k => exact .frame h3 ((hframe k).mp hm)

end run

end CallStack
