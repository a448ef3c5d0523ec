import Verif.Spec.AnyReport
import Verif.Proof.AnyAbort
import Verif.Proof.SharedReport

/-! Lemmas for C130: what is the case when a run panics, whatever the names of the functions. -/

namespace CallStack

variable {demangle : Str → Str} {ord : HashOrder} {search : TagSearch} {p : Program} {elf elf0 : Elf}
  {start : Option Str} {cs : List Str} {st0 stIr st : Build} {g : Graph}

theorem SharedFacts.loop_stops_any (f : SharedFacts demangle ord search p elf0 cs st0 stIr st g)
    {stext : Nat} {text : List Nat} (hx : elf.text = some (stext, text)) {rep : Report} (es : List (Nat × Sym)) :
    ∀ (k : Nat) {st1 : Build}, p.defined.drop k = es → MachineInv stIr.g.nodes.length stIr st1 →
    (∀ (m : Nat) (name : Str), cs[m]? = some name →
      ∃ nd, st1.g.nodes[m]? = some nd ∧ p.LocalNodeAfter search elf m k nd.loc) →
    machineLoopReport search (p.target == .thumbv7m) (elfTags elf.symtab) stext text st1 es = .error rep →
    ∃ i e st', p.defined[i]? = some e ∧ MachineInv stIr.g.nodes.length stIr st' ∧
      machineStepReport search (p.target == .thumbv7m) (elfTags elf.symtab) stext text st' e = .error rep ∧
      ∀ (m : Nat) (name : Str), cs[m]? = some name →
        ∃ nd, st'.g.nodes[m]? = some nd ∧ p.LocalNodeAfter search elf m i nd.loc := by
  induction es with
  | nil => intro k st1 _ _ _ h; cases h
  | cons e es ih =>
    intro k st1 hd inv hl h
    have hek : p.defined[k]? = some e := by
      have := congrArg List.head? hd
      simpa using this
    simp only [machineLoopReport] at h
    cases hs : machineStepReport search (p.target == .thumbv7m) (elfTags elf.symtab) stext text st1 e with
    | error err =>
      rw [hs] at h
      cases h
      exact ⟨k, e, st1, hek, inv, hs, hl⟩
    | ok st1' =>
      rw [hs] at h
      have hs' : machineStep search (p.target == .thumbv7m) (elfTags elf.symtab) stext text st1 e = .ok st1' := by
        rw [← erase_machineStep, hs]
        rfl
      obtain ⟨inv1, hl1, _⟩ := f.local_step_any hx hek inv hs' hl
      refine ih (k + 1) ?_ inv1 hl1 h
      have := congrArg List.tail hd
      simpa using this

/-- A panic of the pass over the machine code says what is the case. -/
theorem machineReport_any {stIr : Build} (hir : irGraph demangle p = .ok stIr) {rep : Report}
    (h : machineReport search p elf stIr = .error rep) :
    p.SaysNode demangle ord search elf start rep.kind rep.text := by
  unfold machineReport at h
  by_cases ht : p.target.isThumb = true
  · rw [if_pos ht] at h
    cases hx : elf.text with
    | none => rw [hx] at h; cases h
    | some x =>
      obtain ⟨stext, text⟩ := x
      rw [hx] at h
      simp only at h
      obtain ⟨cs, st0, _, _, f⟩ := irGraph_shared ord search elf.symtab hir
      obtain ⟨i, e, st, hi, inv', hs, hl⟩ := f.loop_stops_any hx p.defined 0 rfl
        (MachineInv.init rfl f.ir.wf f.ir.seen) (fun _ _ hm => f.local_start_any hm) h
      have hmark : Markers elf.symtab (elfTags elf.symtab) := markers_iff.mpr rfl
      have hext : p.Extent search elf i (e.1 % 2 ^ 32)
          (symSize search (elfTags elf.symtab) (e.1 % 2 ^ 32) (e.2.size % 2 ^ 32)) (elfTags elf.symtab) :=
        ⟨ht, e.1, e.2, hi, rfl, hmark, codeSize_iff.mpr rfl⟩
      unfold machineStepReport at hs
      cases hn : e.2.names with
      | nil =>
        rw [hn] at hs
        cases hs
        refine .same nofun nofun nofun (.noNames i e.1 e.2 hi fun n hn' => ?_)
        have := hn'.1
        rw [hn] at this
        cases this
      | cons first rest =>
        rw [hn] at hs
        simp only at hs
        cases hal : mget first st.aliases with
        | none =>
          rw [hal] at hs
          cases hs
          refine .same nofun nofun nofun (.missingKey i e.1 e.2 first rest ht hi hn ?_)
          rw [inv'.aliases, f.ir.aliases, f.sym.dead] at hal
          by_contra hm
          exact hal i ⟨e.1, e.2, hi, by rw [hn]; exact List.mem_cons_self, hm⟩
        | some canonical =>
          rw [hal] at hs
          simp only at hs
          rw [inv'.aliases] at hal
          have hal' := hal
          rw [f.ir.aliases] at hal'
          generalize hsz : symSize search (elfTags elf.symtab) (e.1 % 2 ^ 32) (e.2.size % 2 ^ 32) = size at hs hext
          cases hb : textSlice stext text (e.1 % 2 ^ 32) size with
          | error err =>
            rw [hb] at hs
            cases hs
            unfold textSlice at hb
            by_cases h1 : e.1 % 2 ^ 32 < stext
            · rw [if_pos h1] at hb
              cases hb
              exact .same nofun nofun nofun (.sliceRange i _ size stext _ text hext hx (.inl h1))
            · rw [if_neg h1] at hb
              by_cases h2 : e.1 % 2 ^ 32 - stext + size ≤ text.length
              · rw [if_pos h2] at hb
                cases hb
              · rw [if_neg h2] at hb
                cases hb
                exact .same nofun nofun nofun (.sliceRange i _ size stext _ text hext hx (.inr (by omega)))
          | ok bytes =>
            rw [hb] at hs
            simp only at hs
            have hb' := hb
            unfold textSlice at hb'
            have hlo : ¬ e.1 % 2 ^ 32 < stext := by
              intro h1
              rw [if_pos h1] at hb'
              cases hb'
            rw [if_neg hlo] at hb'
            have hhi : e.1 % 2 ^ 32 - stext + size ≤ text.length := by
              by_contra h2
              rw [if_neg h2] at hb'
              cases hb'
            rw [if_pos hhi] at hb'
            have hbytes := Except.ok.inj hb'
            have hlen : bytes.length = size := by
              rw [← hbytes]
              simp only [List.length_take, List.length_drop]
              omega
            cases hth : thumbReport search bytes (e.1 % 2 ^ 32) (p.target == .thumbv7m) (elfTags elf.symtab) with
            | error err =>
              rw [hth] at hs
              cases hs
              rcases thumbLoopReport_error _ _ (Nat.le_refl _) 0 0 _ hth with
                ⟨pre, ⟨lo, hi'⟩, h1, rfl, h3, h4⟩ | ⟨pre, x, post, h1, h2⟩
              · obtain ⟨code, tail, k1, k2, k3⟩ := chunks2_last bytes h1
                have h5 := tagReport_code hmark.1 h4
                rw [show e.1 % 2 ^ 32 + 2 * (0 + pre.length) = e.1 % 2 ^ 32 + code.length by omega] at h5
                refine .same nofun nofun nofun (.instruction i _ size stext lo hi' _ text code tail _ _ hext hx (by omega) (hbytes.trans k1)
                  (by omega) k3 h5 ?_ (hex02_isHex _).1 (hex02_isHex _).1 (hex02_isHex _).2 (hex02_isHex _).2)
                intro hlo8 hhi8
                by_cases hu : Unallocated16 (p.target == .thumbv7m) hi' lo
                · exact .inr (.inr hu)
                · have e1 : (256 * hi' + lo) / 256 = hi' := by omega
                  have e2 : (256 * hi' + lo) % 256 = lo := by omega
                  have := (C44_width_iff (v7 := p.target == .thumbv7m) (hw := 256 * hi' + lo) (by omega)
                    (by rw [e1, e2]; exact hu)).mp (by rw [e1, e2]; exact h3)
                  rw [e1] at this
                  exact this.imp_right .inl
              · obtain ⟨k, b, k1, k2, rfl⟩ := tagReport_error h2
                have hl := chunks2_length bytes
                rw [h1] at hl
                simp only [List.length_append, List.length_cons] at hl
                have hpos : 2 * pre.length < size := by omega
                exact .same nofun nofun nofun (tag_says hext k1 k2 hpos)
            | ok r =>
              rw [hth] at hs
              simp only at hs
              have hdec : p.Decoded search elf i (e.1 % 2 ^ 32) size r := by
                refine decoded_iff.mpr ⟨e.1, e.2, stext, text, hi, hx, rfl, hsz.symm, by omega, hhi, ?_⟩
                rw [hbytes, ← erase_thumb, hth]
                rfl
              obtain ⟨m, hno⟩ : ∃ m, NodeOf stIr e canonical m := by
                obtain ⟨i', e', _, h5, _⟩ := f.sym.aliases_some first canonical hal'
                obtain ⟨m, hm⟩ := Option.ne_none_iff_exists'.mp (f.sym.indices_ne canonical (List.mem_of_getElem? h5))
                exact ⟨m, first, rest, hn, hal, f.ir.indices _ _ hm⟩
              have hla := (f.nodeOf_any hi canonical m).mp hno
              obtain ⟨_, _, _, _, _, _, _, hls⟩ := id hla
              have hki : mget canonical stIr.indices = some m := by
                obtain ⟨_, _, _, _, h3⟩ := hno
                exact h3
              obtain ⟨name, hm⟩ : ∃ name, cs[m]? = some name :=
                ⟨_, List.getElem?_eq_getElem (by rw [f.sym.len]; exact hla.lt)⟩
              obtain ⟨nd, hnd, hafter⟩ := hl m name hm
              have hloc : st.g.localAt m = .ok nd.loc := by
                unfold Graph.localAt
                rw [hnd]
              have hasm : st.asmFns.contains canonical = false → ∀ x, ¬ p.TakenIn m (.asm x) := by
                intro ha x hx
                rw [inv'.asmFns] at ha
                rw [(f.asm_any hls).mpr ⟨x, hx⟩] at ha
                cases ha
              have hadr : ∀ (st1 : Build), st1.addr2name = st.addr2name → st1.indices = st.indices →
                  (match reported (blLoop m (e.1 % 2 ^ 32) st1 r.bls) with
                    | .error e => .error e
                    | .ok st => reported (bLoop m (e.1 % 2 ^ 32) size st r.bs)) = Except.error rep →
                  p.SaysNode demangle ord search elf start rep.kind rep.text := by
                intro st1 ha1 hi1 hcalls
                have hcalls' : reported (callAddrs m st1 (calledAddrs r (e.1 % 2 ^ 32) size)) = .error rep := by
                  rw [calledAddrs, callAddrs_append, ← hcalls, blLoop_eq]
                  cases callAddrs m st1 (blAddrs (e.1 % 2 ^ 32) r.bls) with
                  | error e => rfl
                  | ok st2 =>
                    simp only [reported]
                    rw [← bLoop_eq]
                cases hce : callAddrs m st1 (calledAddrs r (e.1 % 2 ^ 32) size) with
                | ok x => rw [hce] at hcalls'; cases hcalls'
                | error err =>
                  rw [hce] at hcalls'
                  cases hcalls'
                  obtain ⟨a, m1, m2, rfl⟩ := callAddrs_error m _ (by
                    intro a name hm
                    rw [ha1, inv'.addr, f.ir.addr] at hm
                    rw [hi1, inv'.indices]
                    obtain ⟨j, s, _, h4⟩ := f.sym.addr_some a name hm
                    obtain ⟨k, hk⟩ := Option.ne_none_iff_exists'.mp
                      (f.sym.indices_ne name (List.mem_of_getElem? h4))
                    rw [f.ir.indices _ _ hk]
                    simp) hce
                  refine .same nofun nofun nofun (.symbol i _ size a r _ ht hdec (mem_calledAddrs.mp m1) ?_ (showNat_isDecimal a))
                  rintro j hj
                  obtain ⟨k, name, h4, _⟩ := (f.resolves_iff a).mpr ⟨j, hj⟩
                  rw [ha1, inv'.addr] at m2
                  rw [m2] at h4
                  cases h4
              unfold useThumbReport at hs
              rw [show mget canonical st.indices = some m by rw [inv'.indices]; exact hki] at hs
              simp only [hloc] at hs
              generalize ho : overrideReport canonical nd.loc r.stack
                r.modifiesSp (st.asmFns.contains canonical) (isOutlined canonical) = o at hs
              cases o with
              | error err =>
                cases hs
                have hout := isOutlined_iff canonical
                rcases overrideReport_error (thumbReport_sp hth) ho with
                  ⟨a1, a2, rfl⟩ | ⟨n, k, a1, a2, a3, a4, a5, rfl⟩ | ⟨n, a1, a2, a3, rfl⟩
                · exact stackVsSp_text canonical ▸ .stackVsSp i m _ size r canonical ht hdec hla a1 a2
                · refine .llvmVsOurs i m _ size n k r canonical _ ht hdec hla (a1 ▸ hafter) a2 a3 (hasm a4) ?_
                    (showNat_isDecimal n)
                  rw [← hout, a5]
                  simp
                · refine .llvmVsSp i m _ size n r canonical _ ht hdec hla (a1 ▸ hafter) a2 ?_ (showNat_isDecimal n)
                  exact a3.imp_right fun ⟨b1, b2, b3, b4⟩ => ⟨b1, b2, hout.mp b3, hasm b4⟩
              | ok loc =>
                simp only at hs
                cases hcond : (!st.defined.contains canonical && r.indirect) with
                | true =>
                  simp only [hcond, if_true] at hs
                  refine hadr _ ?_ ?_ hs <;> rfl
                | false =>
                  simp only [hcond, Bool.false_eq_true, if_false] at hs
                  refine hadr _ ?_ ?_ hs <;> rfl
  · rw [if_neg ht] at h
    cases h

end CallStack
