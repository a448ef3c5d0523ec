import Verif.Spec.SharedReport
import Verif.Proof.ReportEnd
import Verif.Proof.SharedAbort

/-! Lemmas for C124: what is the case when a run panics, if functions may have the same names. -/

namespace CallStack

section ir

variable {p : Program} {al : List (Str × Str)}

theorem stmtStep_stops {B : Prop} {st : Build} (inv : Fit al B st) {c : Str} {i : Nat} {s : Stmt} {e : Panic}
    (h : stmtStep p c i st s = .error e) : StmtFails p al s e := by
  unfold stmtStep at h
  split at h
  · cases h
  · cases h
    exact .unnamed
  · cases h
  · rename_i f
    cases hcl : classify p.target.isThumb f with
    | ignored => rw [hcl] at h; cases h
    | memory rs => rw [hcl] at h; cases h
    | unhandled =>
      rw [hcl] at h
      cases h
      exact .intrinsic f hcl
    | plain =>
      rw [hcl] at h
      simp only at h
      unfold plainCall at h
      split at h
      · cases h
      · cases hm : mget f st.aliases with
        | some canon =>
          rw [hm] at h
          simp only at h
          cases hi : mget canon st.indices with
          | some k => rw [hi] at h; cases h
          | none =>
            rw [inv.aliases] at hm
            exact absurd hi (inv.canon _ _ hm)
        | none =>
          rw [hm] at h
          simp only at h
          split at h
          · cases h
          · rename_i hu
            cases h
            rw [inv.aliases] at hm
            exact .callee f hcl hm (by simpa using hu)
  · cases h
  all_goals cases h

theorem stmtsPass_stops {c : Str} {i : Nat} {e : Panic} (ss : List Stmt) : ∀ {B : Prop} {st : Build}, Fit al B st →
    stmtsPass p c i st ss = .error e → ∃ s ∈ ss, StmtFails p al s e := by
  induction ss with
  | nil => intro B st _ h; cases h
  | cons s ss ih =>
    intro B st inv h
    simp only [stmtsPass] at h
    cases hs : stmtStep p c i st s with
    | error e' =>
      rw [hs] at h
      cases h
      exact ⟨s, List.mem_cons_self, stmtStep_stops inv hs⟩
    | ok st1 =>
      rw [hs] at h
      obtain ⟨s', h1, h2⟩ := ih (inv.stmt hs) h
      exact ⟨s', List.mem_cons_of_mem _ h1, h2⟩

theorem definePass_stops {e : Panic} (ds : List Define) : ∀ {B : Prop} {st : Build}, Fit al B st →
    definePass p st ds = .error e →
    ∃ d ∈ ds, mget d.name al ≠ none ∧ ∃ s ∈ d.stmts, StmtFails p al s e := by
  induction ds with
  | nil => intro B st _ h; cases h
  | cons d ds ih =>
    intro B st inv h
    simp only [definePass] at h
    cases hs : defineStep p st d with
    | ok st1 =>
      rw [hs] at h
      obtain ⟨d', h1, h2⟩ := ih (inv.define hs) h
      exact ⟨d', List.mem_cons_of_mem _ h1, h2⟩
    | error e' =>
      rw [hs] at h
      cases h
      refine ⟨d, List.mem_cons_self, ?_⟩
      unfold defineStep at hs
      cases hm : mget d.name st.aliases with
      | none => rw [hm] at hs; cases hs
      | some c =>
        rw [hm] at hs
        simp only at hs
        rw [inv.aliases] at hm
        obtain ⟨k, hk⟩ := Option.ne_none_iff_exists'.mp (inv.canon _ _ hm)
        rw [hk] at hs
        refine ⟨by rw [hm]; simp, stmtsPass_stops (al := al) (B := B) d.stmts ?_ hs⟩
        exact ⟨inv.aliases, inv.canon, inv.memcmp⟩

end ir

variable {demangle : Str → Str} {ord : HashOrder} {search : TagSearch} {p : Program} {elf elf0 : Elf}
  {start : Option Str} {cs : List Str} {st0 stIr st : Build} {g : Graph}

/-- A panic up to the end of the pass over the LLVM-IR says what is the case, for every program. -/
theorem irGraph_tells {S : Panic → Option Str → Prop} (same : ∀ {e : Panic} {text : Option Str}, e ≠ .llvmVsOurs →
      e ≠ .llvmVsSp → e ≠ .stackVsSp → p.Says demangle ord search elf start e text → S e text)
    {e : Panic} (h : irGraph demangle p = .error e) : S (Report.ofPanic e).kind (Report.ofPanic e).text := by
  unfold irGraph at h
  cases h0 : symPass demangle p Build.empty p.defined with
  | error e' =>
    rw [h0] at h
    cases h
    obtain ⟨rfl, x, hx, hn⟩ := symPass_error p.defined h0
    obtain ⟨i, hi⟩ := List.getElem?_of_mem hx
    refine same nofun nofun nofun (.noNames i x.1 x.2 hi (fun n hn' => ?_))
    have := (mem_realNames x.2 n).mpr hn'
    rw [hn] at this
    cases this
  | ok st0 =>
    rw [h0] at h
    simp only at h
    obtain ⟨cs, hsym⟩ := symPass_inv p.defined (SymInv.empty demangle p) h0
    simp only [List.nil_append] at hsym
    have fit : Fit st0.aliases (HasKey st0 c!"memcmp") st0 := by
      refine ⟨rfl, fun n c hn => ?_, Iff.rfl⟩
      obtain ⟨i, e, _, h2, _⟩ := hsym.aliases_some n c hn
      exact hsym.indices_ne c (List.mem_of_getElem? h2)
    obtain ⟨d, hd, hc, s, hs, hf⟩ := definePass_stops p.defines fit h
    obtain ⟨i, hi⟩ : ∃ i, p.LiveAt d.name i := by
      rw [ne_eq, hsym.dead d.name] at hc
      exact not_forall_not.mp hc
    have hcon : p.Contains i s := ⟨d, hd, hi, hs⟩
    cases hf with
    | unnamed => exact same nofun nofun nofun (.unnamed i hcon)
    | intrinsic f hcl =>
      obtain ⟨h1, h2, h3, h4, h5⟩ := classify_unhandled hcl
      refine same nofun nofun nofun (.intrinsic i f hcon h1 ?_ h3 h4 h5)
      cases ht : p.target <;> rw [ht] at h2 <;> first | rfl | cases h2
    | callee f hcl hm hu => exact same nofun nofun nofun (.callee i f hcon (classify_plain.mp hcl) ((hsym.dead f).mp hm) hu)

theorem SharedFacts.loop_stops (f : SharedFacts demangle ord search p elf0 cs st0 stIr st g) (alike : p.NamesAlike)
    {stext : Nat} {text : List Nat} (hx : elf.text = some (stext, text)) {rep : Report} (es : List (Nat × Sym)) :
    ∀ (k : Nat) {st1 : Build}, p.defined.drop k = es → MachineInv stIr.g.nodes.length stIr st1 →
    (∀ (m : Nat) (name : Str), cs[m]? = some name →
      ∃ nd, st1.g.nodes[m]? = some nd ∧ p.LocalAfter search elf m k nd.loc) →
    machineLoopReport search (p.target == .thumbv7m) (elfTags elf.symtab) stext text st1 es = .error rep →
    ∃ i e st', p.defined[i]? = some e ∧ MachineInv stIr.g.nodes.length stIr st' ∧
      machineStepReport search (p.target == .thumbv7m) (elfTags elf.symtab) stext text st' e = .error rep ∧
      ∀ (m : Nat) (name : Str), cs[m]? = some name →
        ∃ nd, st'.g.nodes[m]? = some nd ∧ p.LocalAfter search elf m i nd.loc := by
  induction es with
  | nil => intro k st1 _ _ _ h; cases h
  | cons e es ih =>
    intro k st1 hd inv hl h
    have hek : p.defined[k]? = some e := by
      have := congrArg List.head? hd
      simpa using this
    simp only [machineLoopReport] at h
    cases hs : machineStepReport search (p.target == .thumbv7m) (elfTags elf.symtab) stext text st1 e with
    | error err =>
      rw [hs] at h
      cases h
      exact ⟨k, e, st1, hek, inv, hs, hl⟩
    | ok st1' =>
      rw [hs] at h
      have hs' : machineStep search (p.target == .thumbv7m) (elfTags elf.symtab) stext text st1 e = .ok st1' := by
        rw [← erase_machineStep, hs]
        rfl
      obtain ⟨inv1, hl1, _⟩ := f.local_step alike hx hek inv hs' hl
      refine ih (k + 1) ?_ inv1 hl1 h
      have := congrArg List.tail hd
      simpa using this

/-- A panic of the pass over the machine code says what is the case. -/
theorem machineReport_tells (alike : p.NamesAlike) {stIr : Build} (hir : irGraph demangle p = .ok stIr) {rep : Report}
    (h : machineReport search p elf stIr = .error rep) :
    p.SaysShared demangle ord search elf start rep.kind rep.text := by
  unfold machineReport at h
  by_cases ht : p.target.isThumb = true
  · rw [if_pos ht] at h
    cases hx : elf.text with
    | none => rw [hx] at h; cases h
    | some x =>
      obtain ⟨stext, text⟩ := x
      rw [hx] at h
      simp only at h
      obtain ⟨cs, st0, _, _, f⟩ := irGraph_shared ord search elf.symtab hir
      obtain ⟨i, e, st, hi, inv', hs, hl⟩ := f.loop_stops alike hx p.defined 0 rfl
        (MachineInv.init rfl f.ir.wf f.ir.seen) (fun _ _ hm => f.local_start hm) h
      have hmark : Markers elf.symtab (elfTags elf.symtab) := markers_iff.mpr rfl
      have hext : p.Extent search elf i (e.1 % 2 ^ 32)
          (symSize search (elfTags elf.symtab) (e.1 % 2 ^ 32) (e.2.size % 2 ^ 32)) (elfTags elf.symtab) :=
        ⟨ht, e.1, e.2, hi, rfl, hmark, codeSize_iff.mpr rfl⟩
      unfold machineStepReport at hs
      cases hn : e.2.names with
      | nil =>
        rw [hn] at hs
        cases hs
        refine .same nofun nofun (.noNames i e.1 e.2 hi fun n hn' => ?_)
        have := hn'.1
        rw [hn] at this
        cases this
      | cons first rest =>
        rw [hn] at hs
        simp only at hs
        cases hal : mget first st.aliases with
        | none =>
          rw [hal] at hs
          cases hs
          refine .same nofun nofun (.missingKey i e.1 e.2 first rest ht hi hn ?_)
          rw [inv'.aliases, f.ir.aliases, f.sym.dead] at hal
          by_contra hm
          exact hal i ⟨e.1, e.2, hi, by rw [hn]; exact List.mem_cons_self, hm⟩
        | some canonical =>
          rw [hal] at hs
          simp only at hs
          rw [inv'.aliases] at hal
          have hal' := hal
          rw [f.ir.aliases] at hal'
          generalize hsz : symSize search (elfTags elf.symtab) (e.1 % 2 ^ 32) (e.2.size % 2 ^ 32) = size at hs hext
          cases hb : textSlice stext text (e.1 % 2 ^ 32) size with
          | error err =>
            rw [hb] at hs
            cases hs
            unfold textSlice at hb
            by_cases h1 : e.1 % 2 ^ 32 < stext
            · rw [if_pos h1] at hb
              cases hb
              exact .same nofun nofun (.sliceRange i _ size stext _ text hext hx (.inl h1))
            · rw [if_neg h1] at hb
              by_cases h2 : e.1 % 2 ^ 32 - stext + size ≤ text.length
              · rw [if_pos h2] at hb
                cases hb
              · rw [if_neg h2] at hb
                cases hb
                exact .same nofun nofun (.sliceRange i _ size stext _ text hext hx (.inr (by omega)))
          | ok bytes =>
            rw [hb] at hs
            simp only at hs
            have hb' := hb
            unfold textSlice at hb'
            have hlo : ¬ e.1 % 2 ^ 32 < stext := by
              intro h1
              rw [if_pos h1] at hb'
              cases hb'
            rw [if_neg hlo] at hb'
            have hhi : e.1 % 2 ^ 32 - stext + size ≤ text.length := by
              by_contra h2
              rw [if_neg h2] at hb'
              cases hb'
            rw [if_pos hhi] at hb'
            have hbytes := Except.ok.inj hb'
            have hlen : bytes.length = size := by
              rw [← hbytes]
              simp only [List.length_take, List.length_drop]
              omega
            cases hth : thumbReport search bytes (e.1 % 2 ^ 32) (p.target == .thumbv7m) (elfTags elf.symtab) with
            | error err =>
              rw [hth] at hs
              cases hs
              rcases thumbLoopReport_error _ _ (Nat.le_refl _) 0 0 _ hth with
                ⟨pre, ⟨lo, hi'⟩, h1, rfl, h3, h4⟩ | ⟨pre, x, post, h1, h2⟩
              · obtain ⟨code, tail, k1, k2, k3⟩ := chunks2_last bytes h1
                have h5 := tagReport_code hmark.1 h4
                rw [show e.1 % 2 ^ 32 + 2 * (0 + pre.length) = e.1 % 2 ^ 32 + code.length by omega] at h5
                refine .same nofun nofun (.instruction i _ size stext lo hi' _ text code tail _ _ hext hx (by omega) (hbytes.trans k1)
                  (by omega) k3 h5 ?_ (hex02_isHex _).1 (hex02_isHex _).1 (hex02_isHex _).2 (hex02_isHex _).2)
                intro hlo8 hhi8
                by_cases hu : Unallocated16 (p.target == .thumbv7m) hi' lo
                · exact .inr (.inr hu)
                · have e1 : (256 * hi' + lo) / 256 = hi' := by omega
                  have e2 : (256 * hi' + lo) % 256 = lo := by omega
                  have := (C44_width_iff (v7 := p.target == .thumbv7m) (hw := 256 * hi' + lo) (by omega)
                    (by rw [e1, e2]; exact hu)).mp (by rw [e1, e2]; exact h3)
                  rw [e1] at this
                  exact this.imp_right .inl
              · obtain ⟨k, b, k1, k2, rfl⟩ := tagReport_error h2
                have hl := chunks2_length bytes
                rw [h1] at hl
                simp only [List.length_append, List.length_cons] at hl
                have hpos : 2 * pre.length < size := by omega
                exact .same nofun nofun (tag_says hext k1 k2 hpos)
            | ok r =>
              rw [hth] at hs
              simp only at hs
              have hdec : p.Decoded search elf i (e.1 % 2 ^ 32) size r := by
                refine decoded_iff.mpr ⟨e.1, e.2, stext, text, hi, hx, rfl, hsz.symm, by omega, hhi, ?_⟩
                rw [hbytes, ← erase_thumb, hth]
                rfl
              obtain ⟨m, hno⟩ : ∃ m, NodeOf stIr e canonical m := by
                obtain ⟨i', e', _, h5, _⟩ := f.sym.aliases_some first canonical hal'
                obtain ⟨m, hm⟩ := Option.ne_none_iff_exists'.mp (f.sym.indices_ne canonical (List.mem_of_getElem? h5))
                exact ⟨m, first, rest, hn, hal, f.ir.indices _ _ hm⟩
              obtain ⟨hc, hla⟩ := f.nodeOf alike hi hno
              have hpr : p.Principal i canonical := f.principal.mpr hc
              have hki : mget canonical stIr.indices = some m := by
                obtain ⟨_, _, _, _, h3⟩ := hno
                exact h3
              obtain ⟨name, hm⟩ : ∃ name, cs[m]? = some name :=
                ⟨_, List.getElem?_eq_getElem (by rw [f.sym.len]; exact hla.lt)⟩
              obtain ⟨nd, hnd, hafter⟩ := hl m name hm
              have hloc : st.g.localAt m = .ok nd.loc := by
                unfold Graph.localAt
                rw [hnd]
              have hasm : st.asmFns.contains canonical = false → ∀ x, ¬ p.Contains i (.asm x) := by
                intro ha x hx
                rw [inv'.asmFns] at ha
                rw [(f.asm_iff alike hc).mpr ⟨x, hx⟩] at ha
                cases ha
              have hadr : ∀ (st1 : Build), st1.addr2name = st.addr2name → st1.indices = st.indices →
                  (match reported (blLoop m (e.1 % 2 ^ 32) st1 r.bls) with
                    | .error e => .error e
                    | .ok st => reported (bLoop m (e.1 % 2 ^ 32) size st r.bs)) = Except.error rep →
                  p.SaysShared demangle ord search elf start rep.kind rep.text := by
                intro st1 ha1 hi1 hcalls
                have hcalls' : reported (callAddrs m st1 (calledAddrs r (e.1 % 2 ^ 32) size)) = .error rep := by
                  rw [calledAddrs, callAddrs_append, ← hcalls, blLoop_eq]
                  cases callAddrs m st1 (blAddrs (e.1 % 2 ^ 32) r.bls) with
                  | error e => rfl
                  | ok st2 =>
                    simp only [reported]
                    rw [← bLoop_eq]
                cases hce : callAddrs m st1 (calledAddrs r (e.1 % 2 ^ 32) size) with
                | ok x => rw [hce] at hcalls'; cases hcalls'
                | error err =>
                  rw [hce] at hcalls'
                  cases hcalls'
                  obtain ⟨a, m1, m2, rfl⟩ := callAddrs_error m _ (by
                    intro a name hm
                    rw [ha1, inv'.addr, f.ir.addr] at hm
                    rw [hi1, inv'.indices]
                    obtain ⟨j, s, _, h4⟩ := f.sym.addr_some a name hm
                    obtain ⟨k, hk⟩ := Option.ne_none_iff_exists'.mp
                      (f.sym.indices_ne name (List.mem_of_getElem? h4))
                    rw [f.ir.indices _ _ hk]
                    simp) hce
                  refine .same nofun nofun (.symbol i _ size a r _ ht hdec (mem_calledAddrs.mp m1) ?_ (showNat_isDecimal a))
                  rintro j hj
                  obtain ⟨k, name, h4, _⟩ := (f.resolves_iff a).mpr ⟨j, hj⟩
                  rw [ha1, inv'.addr] at m2
                  rw [m2] at h4
                  cases h4
              unfold useThumbReport at hs
              rw [show mget canonical st.indices = some m by rw [inv'.indices]; exact hki] at hs
              simp only [hloc] at hs
              generalize ho : overrideReport canonical nd.loc r.stack
                r.modifiesSp (st.asmFns.contains canonical) (isOutlined canonical) = o at hs
              cases o with
              | error err =>
                cases hs
                have hout := isOutlined_iff canonical
                rcases overrideReport_error (thumbReport_sp hth) ho with
                  ⟨a1, a2, rfl⟩ | ⟨n, k, a1, a2, a3, a4, a5, rfl⟩ | ⟨n, a1, a2, a3, rfl⟩
                · exact .same nofun nofun (stackVsSp_text canonical ▸ .stackVsSp i _ size r canonical ht hdec hpr a1 a2)
                · refine .llvmVsOurs i m _ size n k r canonical _ ht hdec hpr hla (a1 ▸ hafter) a2 a3 (hasm a4) ?_
                    (showNat_isDecimal n)
                  rw [← hout, a5]
                  simp
                · refine .llvmVsSp i m _ size n r canonical _ ht hdec hpr hla (a1 ▸ hafter) a2 ?_ (showNat_isDecimal n)
                  exact a3.imp_right fun ⟨b1, b2, b3, b4⟩ => ⟨b1, b2, hout.mp b3, hasm b4⟩
              | ok loc =>
                simp only at hs
                cases hcond : (!st.defined.contains canonical && r.indirect) with
                | true =>
                  simp only [hcond, if_true] at hs
                  refine hadr _ ?_ ?_ hs <;> rfl
                | false =>
                  simp only [hcond, Bool.false_eq_true, if_false] at hs
                  refine hadr _ ?_ ?_ hs <;> rfl
  · rw [if_neg ht] at h
    cases h

/-- The graph that is left after filtering, in terms of the one before. -/
theorem SharedFacts.keptGraph (r : SharedFacts demangle ord search p elf cs st0 stIr st g) (sizes : p.SizesU64)
    (fits : elf.Fits32) :
    ∃ gk, applyStart demangle st.indices start g = .ok gk ∧ gk.WF ∧ gk.LocalsU64 ∧
      (∀ nd ∈ gk.nodes, ∃ v, g.nodes[v]? = some nd ∧ ∀ s, start = some s → p.Kept demangle st.indices g s v) ∧
      (∀ v < gk.nodes.length, ∀ k, Heaviest gk.Calls gk.locOf v k →
        ∃ j < g.nodes.length, Heaviest g.Calls g.locOf j k ∧ ∀ s, start = some s → p.Kept demangle st.indices g s j) := by
  have hu := r.u64 sizes fits
  have all : applyStart demangle st.indices start g = .ok g →
      (∀ v s, start = some s → p.Kept demangle st.indices g s v) →
      ∃ gk, applyStart demangle st.indices start g = .ok gk ∧ gk.WF ∧ gk.LocalsU64 ∧
      (∀ nd ∈ gk.nodes, ∃ v, g.nodes[v]? = some nd ∧ ∀ s, start = some s → p.Kept demangle st.indices g s v) ∧
      (∀ v < gk.nodes.length, ∀ k, Heaviest gk.Calls gk.locOf v k →
        ∃ j < g.nodes.length, Heaviest g.Calls g.locOf j k ∧
          ∀ s, start = some s → p.Kept demangle st.indices g s j) := by
    intro ha hk
    refine ⟨g, ha, r.wf, hu, fun nd hnd => ?_, fun v hv k h => ⟨v, hv, h, hk v⟩⟩
    obtain ⟨v, hv⟩ := List.getElem?_of_mem hnd
    exact ⟨v, hv, hk v⟩
  cases start with
  | none => exact all rfl (fun v s h => by cases h)
  | some s =>
    cases hr : resolveStart demangle st.indices s with
    | none =>
      refine all (by simp [applyStart, hr]) ?_
      intro v s' hs n i hn hs'
      cases hs
      rw [(resolve_shown r.indices_nodup r.shown_iff s i).mpr ⟨n, hn, hs'⟩] at hr
      cases hr
    | some i =>
      have hkept : ∀ v, Reach g.Calls i v → ∀ s', some s = some s' → p.Kept demangle st.indices g s' v := by
        intro v h s' hs' n j hn hs
        cases hs'
        have := (resolve_shown r.indices_nodup r.shown_iff s j).mpr ⟨n, hn, hs⟩
        rw [hr] at this
        obtain rfl := Option.some.inj this
        exact h
      obtain ⟨key, hk, hkey⟩ := resolveStart_key hr
      rw [r.machine.indices] at hk
      have hi : i < g.nodes.length := by
        have h1 := r.ir.lt _ _ hk
        obtain ⟨ns, hns⟩ := r.out.nodes
        have h2 := r.machine.len
        rw [hns, List.length_append]
        omega
      obtain ⟨fs, ren, e, hw, h1, h2, h3, h4, h5⟩ := filterGraph_full r.wf hi
      have hemb := filterGraph_embed hw h2 h3 h4 h5
      refine ⟨fs.g2, by simp [applyStart, hr, e], hw, ?_, ?_, ?_⟩
      · apply localsU64_of_nodes
        intro nd hnd
        obtain ⟨k, hk⟩ := List.mem_iff_getElem?.mp hnd
        obtain ⟨j, hj, rfl⟩ := h3 k (List.getElem?_eq_some_iff.mp hk).1
        rw [h4 j hj] at hk
        exact hu.node (List.mem_of_getElem? hk)
      · intro nd hnd
        obtain ⟨k, hk⟩ := List.mem_iff_getElem?.mp hnd
        obtain ⟨j, hj, rfl⟩ := h3 k (List.getElem?_eq_some_iff.mp hk).1
        rw [h4 j hj] at hk
        exact ⟨j, hk, hkept j hj⟩
      · intro v hv k hk
        obtain ⟨j, hj, rfl⟩ := h3 v hv
        have hjl := r.wf.reach_lt hj hi
        obtain ⟨k', hk'⟩ := exists_heaviest (E := g.Calls) (loc := g.locOf) (v := j) (N := g.nodes.length)
          (fun u hu => r.wf.reach_lt hu hjl)
        obtain rfl := hk.unique (hemb.heaviest hj hk')
        exact ⟨j, hjl, hk', hkept j hj⟩

/-- A panic of any other pass says what is the case, for every program. -/
theorem runReport_tells {S : Panic → Option Str → Prop} (same : ∀ {e : Panic} {text : Option Str}, e ≠ .llvmVsOurs →
      e ≠ .llvmVsSp → e ≠ .stackVsSp → p.Says demangle ord search elf start e text → S e text)
    (code : ∀ stIr rep, irGraph demangle p = .ok stIr →
      machineReport search p elf stIr = .error rep → S rep.kind rep.text)
    (sizes : p.SizesU64) (fits : elf.Fits32) {format : OutputFormat}
    {rep : Report} (h : runReport demangle ord search p elf start format = .error rep) :
    S rep.kind rep.text := by
  unfold runReport at h
  cases hir : irGraph demangle p with
  | error e =>
    rw [hir] at h
    cases h
    exact irGraph_tells same hir
  | ok stIr =>
    rw [hir] at h
    simp only [reported] at h
    cases hm : machineReport search p elf stIr with
    | error e =>
      rw [hm] at h
      cases h
      exact code _ _ hir hm
    | ok st =>
      rw [hm] at h
      simp only at h
      have hc : callGraph demangle ord search p elf = .ok (st, addIndirects ord st) := by
        unfold callGraph
        rw [hir]
        simp only
        rw [← erase_machine, hm]
        rfl
      generalize hg : addIndirects ord st = g at h hc
      obtain ⟨cs, st0, stIr', r⟩ := callGraph_shared hc
      obtain ⟨gk, ha, hw, hu, k1, k2⟩ := r.keptGraph (start := start) sizes fits
      rw [ha] at h
      simp only at h
      have hsame : ∀ g1 cyc, analyzeMax st.hasStackUsageInfo gk = .ok (g1, cyc) → SameButMax gk g1 := by
        intro g1 cyc hx
        cases hinfo : st.hasStackUsageInfo with
        | false =>
          rw [hinfo] at hx
          simp only [analyzeMax, Bool.not_false, if_true, Except.ok.injEq, Prod.mk.injEq] at hx
          rw [← hx.1]
          exact SameButMax.refl gk
        | true => rw [hinfo] at hx; exact (analyzeMax_ok hw hu hx).1
      cases hx : analyzeMax st.hasStackUsageInfo gk with
      | error e =>
        rw [hx] at h
        cases h
        cases hinfo : st.hasStackUsageInfo with
        | false => rw [hinfo] at hx; simp [analyzeMax] at hx
        | true =>
          rw [hinfo] at hx
          obtain rfl := C06_only_overflow hw hu hx
          obtain ⟨v, hv, k, hk, hh⟩ := (C06_abort_iff hw hu).mp ⟨_, hx⟩
          obtain ⟨j, hj, hjh, hjk⟩ := k2 v hv k hh
          exact same nofun nofun nofun (.overflow st g j k hc hj hjk hk hjh (r.info_iff.mp hinfo))
      | ok x =>
        obtain ⟨g1, cyc⟩ := x
        rw [hx] at h
        simp only at h
        cases hs : shortenNodes demangle st.ambiguous g1.nodes with
        | ok nodes =>
          rw [hs] at h
          simp only at h
          cases format <;> cases h
        | error e =>
          rw [hs] at h
          cases h
          obtain ⟨nd, hnd, path, hd, hl, rfl⟩ := shortenNodes_error _ hs
          obtain ⟨k, hk⟩ := List.getElem?_of_mem hnd
          have hat := (hsame g1 cyc hx).at_ k
          rw [hk] at hat
          cases hk0 : gk.nodes[k]? with
          | none => rw [hk0] at hat; simp at hat
          | some nd0 =>
            rw [hk0] at hat
            have hname : nd0.name = nd.name := by simp at hat; exact hat.1.symm
            obtain ⟨v, hv, hkept⟩ := k1 nd0 (List.mem_of_getElem? hk0)
            refine same nofun nofun nofun (.missingAmbiguous st g v nd0 path hc hv hkept ?_ ?_)
            · rw [hname]
              exact (dehash_iff _ _).mp hd
            · intro i other ho hh
              rw [r.ambiguous, lookup_ambiguous] at hl
              split at hl
              · rename_i h0
                rw [List.countP_eq_zero] at h0
                refine h0 other (List.mem_of_getElem? (r.principal.mp ho)) ?_
                simp only [decide_eq_true_eq]
                exact (dehash_iff _ _).mpr hh
              · cases hl

end CallStack
