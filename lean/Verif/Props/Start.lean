import Verif.Props.LogEnd
import Verif.Props.Exec

/-!
Property C96, and C94 with a start point: what a start point leaves of the figures.
-/

namespace CallStack

/-- The start point `s` selects the last live function with the name `n`. -/
theorem start_last {demangle : Str → Str} {ord : HashOrder} {search : TagSearch} {p : Program}
    {elf : Elf} {g : Graph} {cycles : List (List Nat)} (sizes : p.SizesU64)
    (fits : elf.Fits32) (h : finalGraph demangle ord search p elf none = .ok (g, cycles)) {s n : Str} {i : Nat}
    (hs : p.Starts demangle s n) (hi : p.Principal i n) :
    ∃ g' cycles' ren m, finalGraph demangle ord search p elf (some s) = .ok (g', cycles') ∧
      p.Principal m n ∧ (∀ j, p.Principal j n → j ≤ m) ∧ Restricted g m g' ren := by
  obtain ⟨st, g0, g', cycles', h1, h2, h3⟩ := C15_printed_graph sizes fits h s
  obtain ⟨cs, st0, stIr, r⟩ := callGraph_shared h1
  obtain ⟨⟨n', m⟩, h4, hn⟩ := List.mem_map.mp ((r.shown_iff n).mpr (.inl ⟨i, hi⟩))
  obtain rfl : n' = n := hn
  have hm := mget_of_mem r.indices_nodup h4
  obtain ⟨m0, hm0⟩ := Option.ne_none_iff_exists'.mp (r.sym.indices_ne _ (List.mem_of_getElem? (r.principal.mp hi)))
  have := r.ir.indices _ _ hm0
  rw [← r.machine.indices, hm] at this
  cases this
  have hres := (resolve_shown r.indices_nodup r.shown_iff s m).mpr ⟨_, h4, hs⟩
  rcases h3 with ⟨h5, _⟩ | ⟨i', nd, ren, h5, _, _, h6⟩
  · rw [hres] at h5
    cases h5
  · rw [hres] at h5
    cases h5
    refine ⟨g', cycles', ren, m, h2, r.principal.mpr (r.sym.indices_some _ _ hm0), fun j hj => ?_, h6⟩
    by_contra hlt
    refine (r.last _ _ hm0).2 j (mkNode n' (mget n' p.stackSizes) false) (by omega) ?_ rfl
    rw [r.sym.nodes, List.getElem?_map, r.principal.mp hj]
    rfl

/-- The start point `s` selects the live function `i`. -/
theorem start_restricted {demangle : Str → Str} {ord : HashOrder} {search : TagSearch} {p : Program}
    {elf : Elf} {g : Graph} {cycles : List (List Nat)} (once : p.NamesOnce) (sizes : p.SizesU64)
    (fits : elf.Fits32) (h : finalGraph demangle ord search p elf none = .ok (g, cycles)) {s n : Str} {i : Nat}
    (hs : p.Starts demangle s n) (hi : p.Principal i n) :
    ∃ g' cycles' ren, finalGraph demangle ord search p elf (some s) = .ok (g', cycles') ∧
      Restricted g i g' ren := by
  obtain ⟨g', cycles', ren, m, h1, h2, _, h3⟩ := start_last sizes fits h hs hi
  obtain rfl := once _ _ _ hi.liveAt h2.liveAt
  exact ⟨g', cycles', ren, h1, h3⟩

/-- **C96** What is shown for a start point, described by the program alone: if it selects the live function `i`,
then among the live functions exactly those are shown that `i` may reach by calls, each once and under the name
of the run without a start point; their local usages and maxima are those of C85, for all calls of the program.
The other nodes shown stand for no live function and use no stack. -/
theorem C96_start_figures {demangle : Str → Str} {ord : HashOrder} {search : TagSearch} {p : Program}
    {elf : Elf} {g : Graph} {cycles : List (List Nat)} (once : p.NamesOnce) (defs : p.DefinesOnce)
    (decls : p.DeclaresOnce) (addressed : p.Addressed) (safe : p.OrderSafe) (sizes : p.SizesU64)
    (fits : elf.Fits32) (h : finalGraph demangle ord search p elf none = .ok (g, cycles)) {s n : Str} {i : Nat}
    (hs : p.Starts demangle s n) (hi : p.Principal i n) :
    ∃ g' cycles' chosen loc, ∃ at_ : Nat → Nat,
      finalGraph demangle ord search p elf (some s) = .ok (g', cycles') ∧
      p.Chosen chosen ∧ (∀ j < p.defined.length, p.LocalIs search elf j (loc j)) ∧
      (∀ j j', Reach (p.MayCall search elf chosen) i j → Reach (p.MayCall search elf chosen) i j' →
        at_ j = at_ j' → j = j') ∧
      (∀ k < g'.nodes.length, (∃ j, Reach (p.MayCall search elf chosen) i j ∧ at_ j = k) ∨
        ((g'.locOf k).bytes = 0 ∧ ∃ j, p.defined.length ≤ j ∧ g'.nodes[k]? = g.nodes[j]?)) ∧
      ∀ j, Reach (p.MayCall search elf chosen) i j → j < p.defined.length ∧
        at_ j < g'.nodes.length ∧
        (g'.nodes[at_ j]?).map Node.name = (g.nodes[j]?).map Node.name ∧
        g'.locOf (at_ j) = loc j ∧
        ((∃ m, g'.maxOf? (at_ j) = some m) ↔ ∃ f k, p.Frame f k) ∧
        ∀ m, g'.maxOf? (at_ j) = some m →
          Heaviest (p.MayCall search elf chosen) loc j m.bytes ∧
          (m.IsExact ↔ ∀ u, Reach (p.MayCall search elf chosen) j u →
            (loc u).Known ∧ ¬ p.MayLeave search elf u ∧
            (Recursive (p.MayCall search elf chosen) u → (loc u).bytes = 0)) := by
  obtain ⟨st, g0, h1, h2⟩ := finalGraph_facts h
  obtain ⟨cs, ext, st0, stIr, r⟩ := callGraph_facts once h1
  have hu := r.u64 once sizes fits
  obtain ⟨hcalls, hlocs⟩ := h2.calls r.wf hu
  have hE := r.mayCall_iff once defs decls addressed safe
  have hlive := r.liveGraph once safe
  obtain ⟨g', cycles', ren, h3, hr⟩ := start_restricted once sizes fits h hs hi
  obtain ⟨hch, hfig⟩ := RunFacts.figures once defs decls addressed safe sizes fits h h1 h2 r
  have hlen := r.live_length
  have hi' : i < cs.length := by rw [hlen]; exact hi.lt
  have hlt : ∀ {j}, Reach (p.MayCall search elf (voidOf ord st)) i j → j < cs.length := by
    intro j hj
    rw [← hE] at hj
    exact LiveHop.lt hi' hj
  have hreach : ∀ {j}, Reach (p.MayCall search elf (voidOf ord st)) i j → Reach g.Calls i j := by
    intro j hj
    rw [hcalls]
    rw [← hE] at hj
    exact LiveHop.reach hj
  have hloc : ∀ {j}, Reach g.Calls i j → g'.locOf (ren j) = g.locOf j := by
    intro j hj
    unfold Graph.locOf
    rw [hr.nodes j hj]
  refine ⟨g', cycles', voidOf ord st, g.locOf, ren, h3, hch, fun j hj => (hfig j hj).1,
    fun j j' hj hj' he => hr.bij.inj j j' (hreach hj) (hreach hj') he, fun k hk => ?_, fun j hj => ?_⟩
  · obtain ⟨j, hj, rfl⟩ := hr.bij.surj k hk
    by_cases hjl : j < cs.length
    · left
      refine ⟨j, ?_, rfl⟩
      rw [← hE]
      rw [hcalls] at hj
      exact (hlive.reach_iff hi' hjl).mp hj
    · right
      refine ⟨?_, j, by omega, hr.nodes j hj⟩
      rw [hloc hj, hlocs]
      exact hlive.zero j (by omega)
  · have hjl : j < p.defined.length := by rw [← hlen]; exact hlt hj
    have hmax : g'.maxOf? (ren j) = g.maxOf? j := by
      unfold Graph.maxOf?
      rw [hr.nodes j (hreach hj)]
    refine ⟨hjl, hr.bij.lt j (hreach hj), by rw [hr.nodes j (hreach hj)], hloc (hreach hj), ?_⟩
    rw [hmax]
    exact (hfig j hjl).2

/-- The hypotheses are met: the start point `f` leaves `f` and `g`, to which `f` jumps, with their figures. -/
example : exEndThumb.DefinesOnce ∧ exEndThumb.DeclaresOnce ∧ exEndThumb.Addressed ∧ exEndThumb.OrderSafe ∧
    exEndThumb.Starts id c!"f" c!"f" ∧ exEndThumb.Principal 1 c!"f" ∧
    (finalGraph id sameOrder linearSearch exEndThumb exEndElf (some c!"f")).toOption.map
      (fun x => x.1.nodes) = some [⟨c!"f", .exact 0, some (.exact 16), false⟩,
        ⟨c!"g", .exact 16, some (.exact 16), false⟩] := by
  have hdef : ∀ {i x}, exEndThumb.Contains i x → x = .directCall c!"f" := by
    rintro i x ⟨d, h1, _, h2⟩
    simp only [exEndThumb, List.mem_cons, List.not_mem_nil, or_false] at h1
    rcases h1 with rfl | rfl | rfl
    · simpa using h2
    · simp at h2
    · simp at h2
  have hpr : exEndThumb.Principal 1 c!"f" :=
    ⟨_, _, [], [], rfl, rfl, by rw [← isTag_iff]; decide, .inl ⟨⟨0, rfl⟩, by simp⟩⟩
  refine ⟨by unfold Program.DefinesOnce; decide, by unfold Program.DeclaresOnce; decide,
    by unfold Program.Addressed; decide,
    orderSafe_of ⟨fun r hr => .inr ⟨fun i h => ?_, fun _ i h => ?_⟩, .inr fun i h => ?_⟩,
    ⟨.inl ⟨1, hpr⟩, .inl rfl⟩, hpr, by decide +kernel⟩
  · have := hdef h
    simp at this
  · have := hdef h
    simp only [Stmt.directCall.injEq] at this
    subst this
    revert hr
    decide
  · have := hdef h
    simp at this

/-- **C94** with a start point: what is printed for the selected function, too, bounds its executions. Partial: as
`C94_executions_bounded_partial`. -/
theorem C94_with_start_partial {demangle : Str → Str} {ord : HashOrder} {search : TagSearch}
    {p : Program} {elf : Elf} {g : Graph} {cycles : List (List Nat)} (once : p.NamesOnce)
    (addressed : p.Addressed) (declares : p.DeclaresOnce) (un : p.Unambiguous) (sizes : p.SizesU64)
    (fits : elf.Fits32) (ht : p.target.isThumb = true)
    (h : finalGraph demangle ord search p elf none = .ok (g, cycles))
    {code : Nat → Nat × List CodeItem}
    (hcode : ∀ j < p.defined.length, p.HasCode search elf j (code j).1 (code j).2 ∧ TameCode (code j).2)
    (frames : p.FramesHold code) {s n : Str} {i : Nat} (hs : p.Starts demangle s n) (hi : p.Principal i n) :
    ∃ g' cycles' k, finalGraph demangle ord search p elf (some s) = .ok (g', cycles') ∧
      k < g'.nodes.length ∧ g'.nodes[k]? = g.nodes[i]? ∧
      ∀ m acts, g'.maxOf? k = some (.exact m) → Execution p code i acts → stackInUse acts ≤ m := by
  obtain ⟨g', cycles', ren, h3, hr⟩ := start_restricted once sizes fits h hs hi
  refine ⟨g', cycles', ren i, h3, hr.bij.lt i (.refl _), hr.nodes i (.refl _), fun m acts hm hex => ?_⟩
  refine C94_executions_bounded_partial once addressed declares un sizes fits ht h hcode frames hi.lt ?_ hex
  unfold Graph.maxOf? at hm ⊢
  rwa [hr.nodes i (.refl _)] at hm

end CallStack
