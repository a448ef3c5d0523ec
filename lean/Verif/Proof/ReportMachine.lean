import Verif.Proof.ReportCode
import Verif.Proof.Output

/-! Lemmas for C114: what is the case when the pass over the machine code panics. -/

namespace CallStack

theorem overrideReport_error {name : Str} {llvm : Local} {our : Option Nat} {sp asm outlined : Bool} {rep : Report}
    (hsp : ∀ k, our = some k → k ≠ 0 → sp = true)
    (h : overrideReport name llvm our sp asm outlined = .error rep) :
    (our = some 0 ∧ sp = true ∧ rep = .stackVsSp name 0 true) ∨
    (∃ n k, llvm = .exact n ∧ our = some k ∧ n ≠ k ∧ asm = false ∧ outlined = false ∧ rep = .llvmVsOurs name n) ∨
    (∃ n, llvm = .exact n ∧ ¬ (n ≠ 0 ↔ sp = true) ∧
      (our = none ∨ (our = some 0 ∧ n ≠ 0 ∧ outlined = true ∧ asm = false)) ∧ rep = .llvmVsSp name n) := by
  have hdec : ∀ n : Nat, ((decide (n ≠ 0) != sp) = true) ↔ ¬ (n ≠ 0 ↔ sp = true) := by
    intro n
    by_cases hn : n = 0 <;> cases sp <;> simp [hn]
  unfold overrideReport at h
  cases our with
  | none =>
    cases llvm with
    | unknown => simp only at h; split at h <;> cases h
    | exact n =>
      simp only at h
      split at h
      · rename_i hn
        cases h
        exact .inr (.inr ⟨n, rfl, (hdec n).mp hn, .inl rfl, rfl⟩)
      · cases h
  | some k =>
    simp only at h
    by_cases hk : (decide (k ≠ 0) != sp) = true
    · rw [if_pos hk] at h
      cases h
      have h1 := (hdec k).mp hk
      have hk0 : k = 0 := by
        by_contra hk0
        exact h1 ⟨fun _ => hsp k rfl hk0, fun _ => hk0⟩
      subst hk0
      have : sp = true := by
        cases sp with
        | true => rfl
        | false => exact absurd h1 (by simp)
      subst this
      exact .inl ⟨rfl, rfl, rfl⟩
    · rw [if_neg hk] at h
      have hks : k ≠ 0 ↔ sp = true := by
        by_contra hc
        exact hk ((hdec k).mpr hc)
      cases llvm with
      | unknown => cases h
      | exact n =>
        simp only at h
        generalize ho : overrideExactReport name n (some k) asm outlined = o at h
        unfold overrideExactReport at ho
        simp only at ho
        have good : ∀ x, o = .ok x → x = k → False := by
          rintro x rfl rfl
          simp only at h
          rw [if_neg hk] at h
          cases h
        by_cases h1 : n ≠ k ∧ asm = true
        · rw [if_pos h1] at ho
          exact (good k ho.symm rfl).elim
        · rw [if_neg h1] at ho
          by_cases h2 : outlined = true
          · rw [if_pos h2] at ho
            by_cases h3 : n = 0 ∧ k ≠ n
            · rw [if_pos h3] at ho
              exact (good k ho.symm rfl).elim
            · rw [if_neg h3] at ho
              by_cases hnk : n = k
              · exact (good n ho.symm hnk).elim
              · subst ho
                simp only at h
                split at h
                · rename_i hn
                  cases h
                  have hn' := (hdec n).mp hn
                  have hn0 : n ≠ 0 := fun h0 => h3 ⟨h0, fun hkn => hnk hkn.symm⟩
                  have hk0 : k = 0 := by
                    by_contra hk0
                    exact hn' ⟨fun _ => hks.mp hk0, fun _ => hn0⟩
                  refine .inr (.inr ⟨n, rfl, hn', .inr ⟨by rw [hk0], hn0, h2, ?_⟩, rfl⟩)
                  cases asm with
                  | false => rfl
                  | true => exact absurd ⟨hnk, rfl⟩ h1
                · cases h
          · rw [if_neg h2] at ho
            by_cases hnk : n = k
            · rw [if_pos hnk] at ho
              exact (good n ho.symm hnk).elim
            · rw [if_neg hnk] at ho
              subst ho
              cases h
              refine .inr (.inl ⟨n, k, rfl, rfl, hnk, ?_, by simpa using h2, rfl⟩)
              cases asm with
              | false => rfl
              | true => exact absurd ⟨hnk, rfl⟩ h1

variable {demangle : Str → Str} {ord : HashOrder} {search : TagSearch} {p : Program} {elf : Elf}
  {start : Option Str}

theorem stackVsSp_text (name : Str) : (Report.stackVsSp name 0 true).text =
    some (c!"BUG: our analysis reported that `" ++ name ++
      c!"` both uses 0 bytes of stack and it does modify SP") := by
  simp only [Report.text, List.append_assoc]
  rfl

theorem tag_says {i address size n b k : Nat} {tags : List (Nat × Tag)}
    (hext : p.Extent search elf i address size tags) (k1 : tags[k]? = some (address + 2 * (0 + n), .data))
    (k2 : tags[k + 1]? = some (b, .data)) (hn : 2 * n < size) :
    p.Says demangle ord search elf start (Report.tag b).kind (Report.tag b).text := by
  obtain ⟨blanks, hbl, hlen, htext⟩ : ∃ blanks : Str, (∀ c ∈ blanks, c = ' ') ∧
      blanks.length = 8 - (showHex b).length ∧ (Report.tag b).text =
      some (c!"BUG: expected a thumb tag at " ++ blanks ++ c!"0x" ++ showHex b ++
        c!" but found another data tag") :=
    ⟨List.replicate (10 - (c!"0x" ++ showHex b).length) ' ', fun c hc => List.eq_of_mem_replicate hc, by
      simp only [List.length_replicate, List.length_append, List.length_cons, List.length_nil]; omega, by
      simp only [Report.text, hexAddr, List.append_assoc]⟩
  rw [htext]
  exact .tag i address size (address + 2 * (0 + n)) b k tags blanks (showHex b) hext k1 k2 (by omega) (by omega)
    (by omega) hbl hlen (showHex_isHex b) (showHexAux_head b b (Nat.le_refl b))

/-- A panic of the pass over the machine code says what is the case. -/
theorem machineReport_says (once : p.NamesOnce) {stIr : Build} (hir : irGraph demangle p = .ok stIr) {rep : Report}
    (h : machineReport search p elf stIr = .error rep) :
    p.Says demangle ord search elf start rep.kind rep.text := by
  unfold machineReport at h
  by_cases ht : p.target.isThumb = true
  · rw [if_pos ht] at h
    cases hx : elf.text with
    | none => rw [hx] at h; cases h
    | some x =>
      obtain ⟨stext, text⟩ := x
      rw [hx] at h
      simp only at h
      obtain ⟨cs, ext, st0, f⟩ := irGraph_facts once hir
      have hidx : ∀ (n : Str) (k : Nat), mget n stIr.indices = some k → k < (cs ++ ext).length :=
        fun n k hk => f.ir.shape.lt hk
      have inv : MachineInv (cs ++ ext).length stIr stIr := by
        refine MachineInv.init (irFacts_length f) ?_ f.ir.shape.seen
        intro x hx
        have := f.ir.shape.wf x hx
        simp only [List.length_append] at this ⊢
        omega
      obtain ⟨e, he, st, inv', hs, hsame⟩ := machineLoopReport_error hidx p.defined inv (f.nodes_distinct once) h
      obtain ⟨i, hi⟩ := List.getElem?_of_mem he
      obtain ⟨c, hc⟩ := f.sym.idx_lt hi
      have hcan := f.sym.canon i e c hi hc
      have hmark : Markers elf.symtab (elfTags elf.symtab) := markers_iff.mpr rfl
      have hext : p.Extent search elf i (e.1 % 2 ^ 32)
          (symSize search (elfTags elf.symtab) (e.1 % 2 ^ 32) (e.2.size % 2 ^ 32)) (elfTags elf.symtab) :=
        ⟨ht, e.1, e.2, hi, rfl, hmark, codeSize_iff.mpr rfl⟩
      unfold machineStepReport at hs
      cases hn : e.2.names with
      | nil =>
        rw [hn] at hs
        cases hs
        refine .noNames i e.1 e.2 hi fun n hn' => ?_
        have := hn'.1
        rw [hn] at this
        cases this
      | cons first rest =>
        rw [hn] at hs
        simp only at hs
        cases hal : mget first st.aliases with
        | none =>
          rw [hal] at hs
          cases hs
          refine .missingKey i e.1 e.2 first rest ht hi hn ?_
          rw [inv'.aliases, f.ir.aliases, f.dead] at hal
          by_contra hm
          exact hal i ⟨e.1, e.2, hi, by rw [hn]; exact List.mem_cons_self, hm⟩
        | some canonical =>
          rw [hal] at hs
          simp only at hs
          rw [inv'.aliases] at hal
          have hal' := hal
          rw [f.ir.aliases] at hal'
          generalize hsz : symSize search (elfTags elf.symtab) (e.1 % 2 ^ 32) (e.2.size % 2 ^ 32) = size at hs hext
          cases hb : textSlice stext text (e.1 % 2 ^ 32) size with
          | error err =>
            rw [hb] at hs
            cases hs
            unfold textSlice at hb
            by_cases h1 : e.1 % 2 ^ 32 < stext
            · rw [if_pos h1] at hb
              cases hb
              exact .sliceRange i _ size stext _ text hext hx (.inl h1)
            · rw [if_neg h1] at hb
              by_cases h2 : e.1 % 2 ^ 32 - stext + size ≤ text.length
              · rw [if_pos h2] at hb
                cases hb
              · rw [if_neg h2] at hb
                cases hb
                exact .sliceRange i _ size stext _ text hext hx (.inr (by omega))
          | ok bytes =>
            rw [hb] at hs
            simp only at hs
            have hb' := hb
            unfold textSlice at hb'
            have hlo : ¬ e.1 % 2 ^ 32 < stext := by
              intro h1
              rw [if_pos h1] at hb'
              cases hb'
            rw [if_neg hlo] at hb'
            have hhi : e.1 % 2 ^ 32 - stext + size ≤ text.length := by
              by_contra h2
              rw [if_neg h2] at hb'
              cases hb'
            rw [if_pos hhi] at hb'
            have hbytes := Except.ok.inj hb'
            have hlen : bytes.length = size := by
              rw [← hbytes]
              simp only [List.length_take, List.length_drop]
              omega
            cases hth : thumbReport search bytes (e.1 % 2 ^ 32) (p.target == .thumbv7m) (elfTags elf.symtab) with
            | error err =>
              rw [hth] at hs
              cases hs
              rcases thumbLoopReport_error _ _ (Nat.le_refl _) 0 0 _ hth with
                ⟨pre, ⟨lo, hi'⟩, h1, rfl, h3, h4⟩ | ⟨pre, x, post, h1, h2⟩
              · obtain ⟨code, tail, k1, k2, k3⟩ := chunks2_last bytes h1
                have h5 := tagReport_code hmark.1 h4
                rw [show e.1 % 2 ^ 32 + 2 * (0 + pre.length) = e.1 % 2 ^ 32 + code.length by omega] at h5
                refine .instruction i _ size stext lo hi' _ text code tail _ _ hext hx (by omega) (hbytes.trans k1)
                  (by omega) k3 h5 ?_ (hex02_isHex _).1 (hex02_isHex _).1 (hex02_isHex _).2 (hex02_isHex _).2
                intro hlo8 hhi8
                by_cases hu : Unallocated16 (p.target == .thumbv7m) hi' lo
                · exact .inr (.inr hu)
                · have e1 : (256 * hi' + lo) / 256 = hi' := by omega
                  have e2 : (256 * hi' + lo) % 256 = lo := by omega
                  have := (C44_width_iff (v7 := p.target == .thumbv7m) (hw := 256 * hi' + lo) (by omega)
                    (by rw [e1, e2]; exact hu)).mp (by rw [e1, e2]; exact h3)
                  rw [e1] at this
                  exact this.imp_right .inl
              · obtain ⟨k, b, k1, k2, rfl⟩ := tagReport_error h2
                have hl := chunks2_length bytes
                rw [h1] at hl
                simp only [List.length_append, List.length_cons] at hl
                have hpos : 2 * pre.length < size := by omega
                exact tag_says hext k1 k2 hpos
            | ok r =>
              rw [hth] at hs
              simp only at hs
              have hdec : p.Decoded search elf i (e.1 % 2 ^ 32) size r := by
                refine decoded_iff.mpr ⟨e.1, e.2, stext, text, hi, hx, rfl, hsz.symm, by omega, hhi, ?_⟩
                rw [hbytes, ← erase_thumb, hth]
                rfl
              have hcc : canonical = c := by
                have hl : p.LiveAt first i := by
                  obtain ⟨i', e', h4, h5, h6⟩ := f.sym.aliases_some first canonical hal'
                  refine (liveAt_iff p first i).mpr ⟨e, hi, ?_⟩
                  rw [mem_realNames] at h6 ⊢
                  exact ⟨by rw [hn]; exact List.mem_cons_self, h6.2⟩
                have := (f.live first c i hc).mpr hl
                rw [hal'] at this
                exact Option.some.inj this
              subst hcc
              have hpr : p.Principal i canonical := f.principal.mpr hc
              have hk : (cs ++ ext)[i]? = some canonical := by
                rw [List.getElem?_append_left (List.getElem?_eq_some_iff.mp hc).1]; exact hc
              have hki := (f.ir.shape.idx canonical i).mpr hk
              have hno : NodeOf stIr e canonical i := ⟨first, rest, hn, hal, hki⟩
              have hnd := f.llvm_local hc
              have hnd' : st.g.nodes[i]? = some (mkNode canonical (mget canonical p.stackSizes) false) := by
                rw [hsame canonical i hno (List.getElem?_eq_some_iff.mp hnd).1]; exact hnd
              have hloc : st.g.localAt i = .ok (mkNode canonical (mget canonical p.stackSizes) false).loc := by
                unfold Graph.localAt
                rw [hnd']
              have hframe : ∀ n, (mkNode canonical (mget canonical p.stackSizes) false).loc = .exact n →
                  p.Frame i n := by
                intro n hn
                refine (frame_iff hi hcan n).mpr ?_
                cases hm : mget canonical p.stackSizes with
                | none => rw [hm] at hn; cases hn
                | some k => rw [hm] at hn; cases hn; rfl
              have hasm : st.asmFns.contains canonical = false → ∀ x, ¬ p.Contains i (.asm x) := by
                intro ha x hx
                rw [inv'.asmFns] at ha
                rw [(f.asm_iff hc).mpr ⟨x, hx⟩] at ha
                cases ha
              have hadr : ∀ (st1 : Build), st1.addr2name = st.addr2name → st1.indices = st.indices →
                  (match reported (blLoop i (e.1 % 2 ^ 32) st1 r.bls) with
                    | .error e => .error e
                    | .ok st => reported (bLoop i (e.1 % 2 ^ 32) size st r.bs)) = Except.error rep →
                  p.Says demangle ord search elf start rep.kind rep.text := by
                intro st1 ha1 hi1 hcalls
                have hcalls' : reported (callAddrs i st1 (calledAddrs r (e.1 % 2 ^ 32) size)) = .error rep := by
                  rw [calledAddrs, callAddrs_append, ← hcalls, blLoop_eq]
                  cases callAddrs i st1 (blAddrs (e.1 % 2 ^ 32) r.bls) with
                  | error e => rfl
                  | ok st2 =>
                    simp only [reported]
                    rw [← bLoop_eq]
                cases hce : callAddrs i st1 (calledAddrs r (e.1 % 2 ^ 32) size) with
                | ok x => rw [hce] at hcalls'; cases hcalls'
                | error err =>
                  rw [hce] at hcalls'
                  cases hcalls'
                  obtain ⟨a, m1, m2, rfl⟩ := callAddrs_error i _ (by
                    intro a name hm
                    rw [ha1, inv'.addr, f.ir.addr] at hm
                    rw [hi1, inv'.indices]
                    obtain ⟨j, s, _, h4⟩ := f.sym.addr_some a name hm
                    have h5 : (cs ++ ext)[j]? = some name := by
                      rw [List.getElem?_append_left (List.getElem?_eq_some_iff.mp h4).1]; exact h4
                    rw [(f.ir.shape.idx name j).mpr h5]
                    simp) hce
                  refine .symbol i _ size a r _ ht hdec (mem_calledAddrs.mp m1) ?_ (showNat_isDecimal a)
                  rintro j hj
                  obtain ⟨k, name, h4, _⟩ := (f.resolves_iff a).mpr ⟨j, hj⟩
                  rw [ha1, inv'.addr] at m2
                  rw [m2] at h4
                  cases h4
              unfold useThumbReport at hs
              rw [show mget canonical st.indices = some i by rw [inv'.indices]; exact hki] at hs
              simp only [hloc] at hs
              generalize ho : overrideReport canonical (mkNode canonical (mget canonical p.stackSizes) false).loc r.stack
                r.modifiesSp (st.asmFns.contains canonical) (isOutlined canonical) = o at hs
              cases o with
              | error err =>
                cases hs
                have hout := isOutlined_iff canonical
                rcases overrideReport_error (thumbReport_sp hth) ho with
                  ⟨a1, a2, rfl⟩ | ⟨n, k, a1, a2, a3, a4, a5, rfl⟩ | ⟨n, a1, a2, a3, rfl⟩
                · exact stackVsSp_text canonical ▸ .stackVsSp i _ size r canonical ht hdec hpr a1 a2
                · refine .llvmVsOurs i _ size n k r canonical _ ht hdec hpr (hframe n a1) a2 a3 (hasm a4) ?_
                    (showNat_isDecimal n)
                  rw [← hout, a5]
                  simp
                · refine .llvmVsSp i _ size n r canonical _ ht hdec hpr (hframe n a1) a2 ?_ (showNat_isDecimal n)
                  exact a3.imp_right fun ⟨b1, b2, b3, b4⟩ => ⟨b1, b2, hout.mp b3, hasm b4⟩
              | ok loc =>
                simp only at hs
                cases hcond : (!st.defined.contains canonical && r.indirect) with
                | true =>
                  simp only [hcond, if_true] at hs
                  refine hadr _ ?_ ?_ hs <;> rfl
                | false =>
                  simp only [hcond, Bool.false_eq_true, if_false] at hs
                  refine hadr _ ?_ ?_ hs <;> rfl
  · rw [if_neg ht] at h
    cases h

end CallStack
