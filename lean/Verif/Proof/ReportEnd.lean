import Verif.Proof.ReportMachine

/-! Lemmas for C114: panics after the call graph has been built. -/

namespace CallStack

variable {demangle : Str → Str} {ord : HashOrder} {search : TagSearch} {p : Program} {elf : Elf}
  {start : Option Str}

/-- The graph that is left after filtering, in terms of the one before. -/
theorem keptGraph {cs ext : List Str} {st0 stIr st : Build} {g : Graph} (once : p.NamesOnce) (sizes : p.SizesU64)
    (fits : elf.Fits32) (r : RunFacts demangle ord search p elf cs ext st0 stIr st g) :
    ∃ gk, applyStart demangle st.indices start g = .ok gk ∧ gk.WF ∧ gk.LocalsU64 ∧
      (∀ nd ∈ gk.nodes, ∃ v, g.nodes[v]? = some nd ∧ ∀ s, start = some s → p.Kept demangle st.indices g s v) ∧
      (∀ v < gk.nodes.length, ∀ k, Heaviest gk.Calls gk.locOf v k →
        ∃ j < g.nodes.length, Heaviest g.Calls g.locOf j k ∧ ∀ s, start = some s → p.Kept demangle st.indices g s j) := by
  have hu := r.u64 once sizes fits
  have all : applyStart demangle st.indices start g = .ok g →
      (∀ v s, start = some s → p.Kept demangle st.indices g s v) →
      ∃ gk, applyStart demangle st.indices start g = .ok gk ∧ gk.WF ∧ gk.LocalsU64 ∧
      (∀ nd ∈ gk.nodes, ∃ v, g.nodes[v]? = some nd ∧ ∀ s, start = some s → p.Kept demangle st.indices g s v) ∧
      (∀ v < gk.nodes.length, ∀ k, Heaviest gk.Calls gk.locOf v k →
        ∃ j < g.nodes.length, Heaviest g.Calls g.locOf j k ∧
          ∀ s, start = some s → p.Kept demangle st.indices g s j) := by
    intro ha hk
    refine ⟨g, ha, r.wf, hu, fun nd hnd => ?_, fun v hv k h => ⟨v, hv, h, hk v⟩⟩
    obtain ⟨v, hv⟩ := List.getElem?_of_mem hnd
    exact ⟨v, hv, hk v⟩
  cases start with
  | none => exact all rfl (fun v s h => by cases h)
  | some s =>
    cases hr : resolveStart demangle st.indices s with
    | none =>
      refine all (by simp [applyStart, hr]) ?_
      intro v s' hs n i hn hs'
      cases hs
      rw [(r.resolve_iff s i).mpr ⟨n, hn, hs'⟩] at hr
      cases hr
    | some i =>
      have hkept : ∀ v, Reach g.Calls i v → ∀ s', some s = some s' → p.Kept demangle st.indices g s' v := by
        intro v h s' hs' n j hn hs
        cases hs'
        have := (r.resolve_iff s j).mpr ⟨n, hn, hs⟩
        rw [hr] at this
        obtain rfl := Option.some.inj this
        exact h
      obtain ⟨key, hk, hkey⟩ := resolveStart_key hr
      rw [r.machine.indices] at hk
      obtain ⟨nd, hn, hname, _, _⟩ := r.node ((r.ir.ir.shape.idx key i).mp hk)
      have hi : i < g.nodes.length := (List.getElem?_eq_some_iff.mp hn).1
      obtain ⟨fs, ren, e, hw, h1, h2, h3, h4, h5⟩ := filterGraph_full r.wf hi
      have hemb := filterGraph_embed hw h2 h3 h4 h5
      refine ⟨fs.g2, by simp [applyStart, hr, e], hw, ?_, ?_, ?_⟩
      · apply localsU64_of_nodes
        intro nd hnd
        obtain ⟨k, hk⟩ := List.mem_iff_getElem?.mp hnd
        obtain ⟨j, hj, rfl⟩ := h3 k (List.getElem?_eq_some_iff.mp hk).1
        rw [h4 j hj] at hk
        exact hu.node (List.mem_of_getElem? hk)
      · intro nd hnd
        obtain ⟨k, hk⟩ := List.mem_iff_getElem?.mp hnd
        obtain ⟨j, hj, rfl⟩ := h3 k (List.getElem?_eq_some_iff.mp hk).1
        rw [h4 j hj] at hk
        exact ⟨j, hk, hkept j hj⟩
      · intro v hv k hk
        obtain ⟨j, hj, rfl⟩ := h3 v hv
        have hjl := r.wf.reach_lt hj hi
        obtain ⟨k', hk'⟩ := exists_heaviest (E := g.Calls) (loc := g.locOf) (v := j) (N := g.nodes.length)
          (fun u hu => r.wf.reach_lt hu hjl)
        obtain rfl := hk.unique (hemb.heaviest hj hk')
        exact ⟨j, hjl, hk', hkept j hj⟩

theorem shortenNodes_error {amb : List (Str × Nat)} {e : Panic} (l : List Node)
    (h : shortenNodes demangle amb l = .error e) :
    ∃ nd ∈ l, ∃ path, dehash (demangle nd.name) = some path ∧ lookupStr path amb = none ∧
      e = .missingAmbiguous path := by
  induction l with
  | nil => cases h
  | cons nd rest ih =>
    simp only [shortenNodes] at h
    cases hs : shortenName demangle amb nd.name with
    | error e' =>
      rw [hs] at h
      cases h
      unfold shortenName at hs
      cases hd : dehash (demangle nd.name) with
      | none => rw [hd] at hs; cases hs
      | some d =>
        rw [hd] at hs
        simp only at hs
        cases hl : lookupStr d amb with
        | none =>
          rw [hl] at hs
          cases hs
          exact ⟨nd, List.mem_cons_self, d, hd, hl, rfl⟩
        | some n =>
          rw [hl] at hs
          simp only at hs
          split at hs <;> cases hs
    | ok name =>
      rw [hs] at h
      simp only at h
      cases hr : shortenNodes demangle amb rest with
      | error e' =>
        rw [hr] at h
        cases h
        obtain ⟨nd', h1, h2⟩ := ih hr
        exact ⟨nd', List.mem_cons_of_mem _ h1, h2⟩
      | ok rest' => rw [hr] at h; cases h

theorem runReport_says (once : p.NamesOnce) (sizes : p.SizesU64) (fits : elf.Fits32) {format : OutputFormat}
    {rep : Report} (h : runReport demangle ord search p elf start format = .error rep) :
    p.Says demangle ord search elf start rep.kind rep.text := by
  unfold runReport at h
  cases hir : irGraph demangle p with
  | error e =>
    rw [hir] at h
    cases h
    exact irGraph_says once hir
  | ok stIr =>
    rw [hir] at h
    simp only [reported] at h
    cases hm : machineReport search p elf stIr with
    | error e =>
      rw [hm] at h
      cases h
      exact machineReport_says once hir hm
    | ok st =>
      rw [hm] at h
      simp only at h
      have hc : callGraph demangle ord search p elf = .ok (st, addIndirects ord st) := by
        unfold callGraph
        rw [hir]
        simp only
        rw [← erase_machine, hm]
        rfl
      generalize hg : addIndirects ord st = g at h hc
      obtain ⟨cs, ext, st0, stIr', r⟩ := callGraph_facts once hc
      obtain ⟨gk, ha, hw, hu, k1, k2⟩ := keptGraph (start := start) once sizes fits r
      rw [ha] at h
      simp only at h
      have hsame : ∀ g1 cyc, analyzeMax st.hasStackUsageInfo gk = .ok (g1, cyc) → SameButMax gk g1 := by
        intro g1 cyc hx
        cases hinfo : st.hasStackUsageInfo with
        | false =>
          rw [hinfo] at hx
          simp only [analyzeMax, Bool.not_false, if_true, Except.ok.injEq, Prod.mk.injEq] at hx
          rw [← hx.1]
          exact SameButMax.refl gk
        | true => rw [hinfo] at hx; exact (analyzeMax_ok hw hu hx).1
      cases hx : analyzeMax st.hasStackUsageInfo gk with
      | error e =>
        rw [hx] at h
        cases h
        cases hinfo : st.hasStackUsageInfo with
        | false => rw [hinfo] at hx; simp [analyzeMax] at hx
        | true =>
          rw [hinfo] at hx
          obtain rfl := C06_only_overflow hw hu hx
          obtain ⟨v, hv, k, hk, hh⟩ := (C06_abort_iff hw hu).mp ⟨_, hx⟩
          obtain ⟨j, hj, hjh, hjk⟩ := k2 v hv k hh
          exact .overflow st g j k hc hj hjk hk hjh (r.info_iff.mp hinfo)
      | ok x =>
        obtain ⟨g1, cyc⟩ := x
        rw [hx] at h
        simp only at h
        cases hs : shortenNodes demangle st.ambiguous g1.nodes with
        | ok nodes =>
          rw [hs] at h
          simp only at h
          cases format <;> cases h
        | error e =>
          rw [hs] at h
          cases h
          obtain ⟨nd, hnd, path, hd, hl, rfl⟩ := shortenNodes_error _ hs
          obtain ⟨k, hk⟩ := List.getElem?_of_mem hnd
          have hat := (hsame g1 cyc hx).at_ k
          rw [hk] at hat
          cases hk0 : gk.nodes[k]? with
          | none => rw [hk0] at hat; simp at hat
          | some nd0 =>
            rw [hk0] at hat
            have hname : nd0.name = nd.name := by simp at hat; exact hat.1.symm
            obtain ⟨v, hv, hkept⟩ := k1 nd0 (List.mem_of_getElem? hk0)
            refine .missingAmbiguous st g v nd0 path hc hv hkept ?_ ?_
            · rw [hname]
              exact (dehash_iff _ _).mp hd
            · intro i other ho hh
              have hamb : st.ambiguous = ambiguousOf demangle cs := by
                rw [r.machine.ambiguous, r.ir.ir.ambiguous, r.ir.sym.ambiguous]
              rw [hamb, lookup_ambiguous] at hl
              split at hl
              · rename_i h0
                rw [List.countP_eq_zero] at h0
                refine h0 other (List.mem_of_getElem? (r.ir.principal.mp ho)) ?_
                simp only [decide_eq_true_eq]
                exact (dehash_iff _ _).mpr hh
              · cases hl

end CallStack
