import Verif.Spec.SharedFigures
import Verif.Proof.SharedSingle
import Verif.Proof.Figures
import Verif.Props.SharedEdges

/-! The calls between live functions in the finished graph, if several functions may have the same names. -/

namespace CallStack

theorem getOrAddNode_asm (st : Build) (n : Str) : (st.getOrAddNode n).1.asmFns = st.asmFns := by
  unfold Build.getOrAddNode
  split <;> rfl

theorem stmtStep_asm {p : Program} {c : Str} {i : Nat} {st st' : Build} {s : Stmt}
    (h : stmtStep p c i st s = .ok st') :
    (∀ n ∈ st.asmFns, n ∈ st'.asmFns) ∧ ∀ x, s = .asm x → c ∈ st'.asmFns := by
  unfold stmtStep at h
  split at h
  · cases h
    exact ⟨fun n hn => (mem_sinsert _ _ _).mpr (.inr hn), fun x _ => (mem_sinsert _ _ _).mpr (.inl rfl)⟩
  · cases h
  · rename_i sym
    rw [← Except.ok.inj h]
    exact ⟨fun n hn => (getOrAddNode_asm st sym).symm ▸ hn, fun x hx => by cases hx⟩
  · rename_i func
    refine ⟨?_, fun x hx => by cases hx⟩
    split at h
    · cases h
      exact fun _ h => h
    · rename_i rs hk
      cases h
      have : (st.callRoutines i rs).asmFns = st.asmFns := by
        unfold Build.callRoutines
        clear hk
        induction rs generalizing st with
        | nil => rfl
        | cons r rs ih =>
          simp only [List.foldl_cons]
          rw [ih]
          split
          · unfold Build.call
            split <;> rfl
          · rfl
      rw [this]
      exact fun _ h => h
    · cases h
    · unfold plainCall at h
      have hcall : ∀ (st : Build) (i j : Nat), (st.call i j).asmFns = st.asmFns := by
        intro st i j
        unfold Build.call
        split <;> rfl
      split at h
      · cases h
        exact fun _ h => h
      · split at h
        · split at h
          · cases h
            rw [hcall]
            exact fun _ h => h
          · cases h
        · split at h
          · have he := Except.ok.inj h
            change (st.getOrAddNode func).1.call i (st.getOrAddNode func).2 = st' at he
            rw [← he, hcall, getOrAddNode_asm]
            exact fun _ h => h
          · cases h
  all_goals
    cases h
    exact ⟨fun _ h => h, fun x hx => by cases hx⟩

theorem stmtsPass_asm {p : Program} {c : Str} {i : Nat} (ss : List Stmt) : ∀ {st st' : Build},
    stmtsPass p c i st ss = .ok st' →
    (∀ n ∈ st.asmFns, n ∈ st'.asmFns) ∧ ∀ x, .asm x ∈ ss → c ∈ st'.asmFns := by
  induction ss with
  | nil =>
    intro st st' h
    cases h
    exact ⟨fun _ h => h, fun x hx => by cases hx⟩
  | cons s ss ih =>
    intro st st' h
    simp only [stmtsPass] at h
    split at h
    · cases h
    · rename_i st1 h1
      obtain ⟨k1, k2⟩ := stmtStep_asm h1
      obtain ⟨k3, k4⟩ := ih h
      refine ⟨fun n hn => k3 n (k1 n hn), fun x hx => ?_⟩
      rcases List.mem_cons.mp hx with rfl | hx
      · exact k3 _ (k2 x rfl)
      · exact k4 x hx

theorem definePass_asm {p : Program} (ds : List Define) : ∀ {st st' : Build}, definePass p st ds = .ok st' →
    (∀ n ∈ st.asmFns, n ∈ st'.asmFns) ∧
      ∀ d ∈ ds, ∀ c x, mget d.name st.aliases = some c → .asm x ∈ d.stmts → c ∈ st'.asmFns := by
  induction ds with
  | nil =>
    intro st st' h
    cases h
    simp
  | cons d ds ih =>
    intro st st' h
    simp only [definePass] at h
    split at h
    · cases h
    · rename_i st1 h1
      obtain ⟨i1, i2⟩ := ih h
      have key : st1.aliases = st.aliases ∧ (∀ c ∈ st.asmFns, c ∈ st1.asmFns) ∧
          ∀ c x, mget d.name st.aliases = some c → .asm x ∈ d.stmts → c ∈ st1.asmFns := by
        unfold defineStep at h1
        split at h1
        · rename_i hn
          cases h1
          exact ⟨rfl, fun _ h => h, fun c x hc => by rw [hn] at hc; cases hc⟩
        · rename_i canonical hcn
          split at h1
          · cases h1
          · obtain ⟨k1, k2⟩ := stmtsPass_asm d.stmts h1
            have ha := (EdgeStep.stmts d.stmts h1).aliases
            refine ⟨ha, k1, fun c x hc hx => ?_⟩
            rw [hcn] at hc
            cases hc
            exact k2 x hx
      refine ⟨fun c hc => i1 c (key.2.1 c hc), fun d' hd' c x hc hx => ?_⟩
      rcases List.mem_cons.mp hd' with rfl | hd'
      · exact i1 c (key.2.2 c x hc hx)
      · exact i2 d' hd' c x (by rw [key.1]; exact hc) hx

section

variable {demangle : Str → Str} {ord : HashOrder} {search : TagSearch} {p : Program} {elf : Elf}
  {cs : List Str} {st0 stIr st : Build} {g : Graph}

theorem SharedFacts.live_length (f : SharedFacts demangle ord search p elf cs st0 stIr st g) :
    p.defined.length ≤ stIr.g.nodes.length ∧ stIr.g.nodes.length ≤ st.g.nodes.length := by
  obtain ⟨ext, he⟩ := f.ir.nodes
  refine ⟨?_, f.machine.len⟩
  rw [he, List.length_append, f.sym.nodes, List.length_map, f.sym.len]
  omega

theorem SharedFacts.asm_iff (f : SharedFacts demangle ord search p elf cs st0 stIr st g) (alike : p.NamesAlike)
    {i : Nat} {c : Str} (hc : cs[i]? = some c) : stIr.asmFns.contains c = true ↔ ∃ x, p.Contains i (.asm x) := by
  obtain ⟨e, he⟩ : ∃ e, p.defined[i]? = some e :=
    ⟨_, List.getElem?_eq_getElem (f.sym.len ▸ (List.getElem?_eq_some_iff.mp hc).1 : i < p.defined.length)⟩
  obtain ⟨c', hc', _, hcm⟩ := f.canon_at he
  rw [hc] at hc'
  cases hc'
  rw [List.contains_iff_mem]
  constructor
  · intro h
    obtain ⟨d, hd, hal, x, hx⟩ := f.ir.asm c h
    obtain ⟨i', e', h1, h2, h3⟩ := f.sym.aliases_some d.name c hal
    obtain ⟨h4, _⟩ := canonicalOf_spec (f.sym.canon i' e' c h1 h2)
    have := alike i' i e'.1 e'.2 e.1 e.2 c h1 he ((mem_realNames _ _).mp h4) ((mem_realNames _ _).mp hcm)
    have h5 := (mem_realNames _ _).mp h3
    exact ⟨x, d, hd, ⟨e.1, e.2, he, this ▸ h5.1, h5.2⟩, hx⟩
  · rintro ⟨x, d, hd, ⟨a, s, h1, h2⟩, hx⟩
    exact (definePass_asm p.defines f.definesOk).2 d hd c x (f.alias alike h1 hc h2) hx

theorem SharedFacts.registered (f : SharedFacts demangle ord search p elf cs st0 stIr st g)
    (defs : p.DefinesOnce) (decls : p.DeclaresOnce) (sig : FnSig) :
    (∃ i0, (sig, i0) ∈ stIr.indirects) ↔ ∃ j, p.TakenAs j sig := by
  constructor
  · rintro ⟨i0, he⟩
    have h4 := List.mem_map_of_mem (f := fun e => (e.1, e.2.callees)) he
    rw [f.ir.sigs] at h4
    obtain ⟨e0, h5, h6⟩ := List.mem_map.mp h4
    simp only [Prod.mk.injEq] at h6
    have h7 := (f.sym.fresh _ h5).2.2
    rw [h6.2] at h7
    obtain ⟨j, hj⟩ := List.exists_mem_of_ne_nil _ h7
    exact ⟨j, (takenAs_iff defs decls j _).mpr ((f.callees_iff he j).mp hj)⟩
  · rintro ⟨j, hj⟩
    obtain ⟨ind, h1, _⟩ := (f.sym.callee sig j).mpr ((takenAs_iff defs decls j _).mp hj)
    have h4 := List.mem_map_of_mem (f := fun e => (e.1, e.2.callees)) h1
    rw [← f.ir.sigs] at h4
    obtain ⟨e0, h5, h6⟩ := List.mem_map.mp h4
    simp only [Prod.mk.injEq] at h6
    exact ⟨e0.2, h6.1 ▸ h5⟩

theorem SharedFacts.keys (f : SharedFacts demangle ord search p elf cs st0 stIr st g) :
    (st.indirects.map (·.1)).Nodup := by
  have h1 := congrArg (List.map (fun (x : FnSig × List Nat) => x.1)) f.ir.sigs
  simp only [List.map_map] at h1
  rw [f.machine.indirects, show (stIr.indirects.map (·.1)) = st0.indirects.map (·.1) from h1]
  exact f.sym.keys

theorem SharedFacts.chosen (f : SharedFacts demangle ord search p elf cs st0 stIr st g)
    (defs : p.DefinesOnce) (decls : p.DeclaresOnce) : p.Chosen (voidOf ord st) := by
  refine chosen_of (fun v => ?_) ?_
  · rw [List.mem_filterMap]
    simp only [(ord.isPerm _ _ _).mem_iff, maybeVoid_iff, f.machine.indirects]
    constructor
    · rintro ⟨e, he, hv⟩
      obtain ⟨j, hj⟩ := (f.registered defs decls e.1).mp ⟨_, he⟩
      exact ⟨j, e.1, hj, hv⟩
    · rintro ⟨j, sig, hj, hv⟩
      obtain ⟨i0, he⟩ := (f.registered defs decls sig).mpr ⟨j, hj⟩
      exact ⟨_, he, hv⟩
  · have hp : ((ord.perm _ 0 st.indirects).map (·.1)).Nodup :=
      (((ord.isPerm _ _ _).map _).nodup_iff).mpr f.keys
    have hm : (ord.perm _ 0 st.indirects).filterMap (fun e => maybeVoid e.1) =
        ((ord.perm _ 0 st.indirects).map (·.1)).filterMap maybeVoid := by
      rw [List.filterMap_map]; rfl
    rw [hm]
    refine hp.filterMap ?_
    intro a a' b h1 h2
    obtain ⟨h3, h4⟩ := (maybeVoid_iff a b).mp h1
    obtain ⟨h5, h6⟩ := (maybeVoid_iff a' b).mp h2
    cases a; cases a'
    simp only at h3 h4 h5 h6
    rw [h3, h4, h5, h6]

theorem SharedFacts.untyped (f : SharedFacts demangle ord search p elf cs st0 stIr st g)
    (once : p.DeclaresOnce) : st.hasUntypedSymbols = true ↔
      ∃ j n, p.Untyped j ∧ p.Principal j n ∧ ¬ OutlinedName n := by
  simp only [← isOutlined_iff, Bool.not_eq_true]
  rw [f.machine.untyped, f.ir.untyped, f.sym.untyped]
  constructor
  · rintro ⟨j, e, c, h1, h2, h3, h4⟩
    obtain ⟨c', hc', _, hcm⟩ := f.canon_at h1
    rw [h2] at hc'
    cases hc'
    exact ⟨j, c, ⟨⟨c, e.1, e.2, h1, (mem_realNames _ _).mp hcm⟩, (symSig_none once h1).mp h3⟩, f.principal.mpr h2, h4⟩
  · rintro ⟨j, n, ⟨⟨m, hm⟩, h1⟩, h2, h3⟩
    obtain ⟨e, he, _⟩ := (liveAt_iff p _ j).mp hm
    exact ⟨j, e, n, he, f.principal.mp h2, (symSig_none once he).mpr h1, h3⟩

theorem SharedFacts.candidate_iff (f : SharedFacts demangle ord search p elf cs st0 stIr st g)
    (defs : p.DefinesOnce) (decls : p.DeclaresOnce) {e : FnSig × Indirect} (he : e ∈ stIr.indirects) (j : Nat) :
    j ∈ dashedCallees st.fmts (voidOf ord st) e ↔ p.Candidate (voidOf ord st) e.1 j := by
  unfold dashedCallees Program.Candidate
  rw [← isFormatter_iff]
  split
  · rename_i hf
    rw [f.fmt]
    simp only [hf, not_true, false_and, true_and, false_or]
    constructor
    · rintro ⟨s, d, h1, h2, h3⟩
      exact ⟨d.sig, (firstDefined_iff defs h1 _).mpr ⟨d, h2, rfl⟩, h3⟩
    · rintro ⟨s, h1, h2⟩
      obtain ⟨a, s', _, _, _, h3, _⟩ := id h1
      obtain ⟨d, h4, rfl⟩ := (firstDefined_iff defs h3 _).mp h1
      exact ⟨_, d, h3, h4, h2⟩
  · rename_i hf
    simp only [hf, Bool.false_eq_true, false_and, or_false, not_false_eq_true, true_and]
    rw [takenAs_iff defs decls, ← f.callees_iff he]

theorem SharedFacts.callees_live (f : SharedFacts demangle ord search p elf cs st0 stIr st g)
    {e : FnSig × Indirect} (he : e ∈ stIr.indirects) {void : Option Str} {j : Nat}
    (hj : j ∈ dashedCallees st.fmts void e) : j < p.defined.length := by
  unfold dashedCallees at hj
  split at hj
  · obtain ⟨e', _, h1, _⟩ := (f.fmt j).mp hj
    exact (List.getElem?_eq_some_iff.mp h1).1
  · obtain ⟨s, h1, _⟩ := (f.callees_iff he j).mp hj
    exact (List.getElem?_eq_some_iff.mp h1).1

theorem SharedFacts.callers_iff (f : SharedFacts demangle ord search p elf cs st0 stIr st g) (alike : p.NamesAlike)
    {e : FnSig × Indirect} (he : e ∈ stIr.indirects) (a : Nat) :
    a ∈ e.2.callers ↔ ∃ i sig', p.LastOf i a ∧ p.Contains i (.indirectCall sig') ∧ e.1.Compatible sig' := by
  constructor
  · intro ha
    rcases (EdgeStep.defines p.defines f.definesOk).callers e he a ha with ⟨e0, k1, _, k2⟩ |
      ⟨sig, ⟨d, hd, hs, c, hc, hi⟩, k2⟩
    · rw [(f.sym.fresh e0 k1).2.1] at k2
      cases k2
    · rw [f.ir.aliases] at hc
      obtain ⟨i, hli, hla⟩ := f.alias_last alike hc hi
      exact ⟨i, sig, hla, ⟨d, hd, hli, hs⟩, (C39_signatures _ _).mp k2⟩
  · rintro ⟨i, sig', hla, ⟨d, hd, ⟨ai, si, hi, hni⟩, hs⟩, hco⟩
    obtain ⟨ci, hci, _⟩ := f.canon_at hi
    obtain ⟨m, hm, hlm⟩ := f.lookup alike hi hci
    obtain rfl := hla.unique hlm
    exact (f.marked d hd ci a sig' (f.alias alike hi hci hni) hm hs e he ((C39_signatures _ _).mpr hco)).2

/-- A name that got a node in the LLVM-IR was asked for. -/
theorem SharedFacts.key_made (f : SharedFacts demangle ord search p elf cs st0 stIr st g) (alike : p.NamesAlike)
    {n : Str} (h : mget n stIr.indices ≠ none) (hno : ∀ j, ¬ p.Principal j n) :
    ∃ i s, p.Contains i s ∧ p.Creates s n := by
  rcases ((HasKey.defines p.defines f.definesOk).2 n).mp h with h | ⟨d, hd, hal, s, hs, h⟩
  · obtain ⟨k, hk⟩ := Option.ne_none_iff_exists'.mp h
    exact absurd (f.principal.mpr (f.sym.indices_some n k hk)) (hno k)
  · obtain ⟨c, hc⟩ := Option.ne_none_iff_exists'.mp hal
    obtain ⟨j, e, h1, _, h3⟩ := f.sym.aliases_some _ c hc
    have hcon : p.Contains j s := ⟨d, hd, ⟨e.1, e.2, h1, (mem_realNames _ _).mp h3⟩, hs⟩
    refine ⟨j, s, hcon, ?_⟩
    rcases h with h | ⟨rfl, h2, h3, h4⟩
    · exact .inl h
    · obtain ⟨a, c, _, _, st1, st2, w, _, hs, _⟩ := f.contains alike hcon
      refine .inr ⟨rfl, classify_plain.mp h2, ?_, (f.dead n).mp h3, ?_⟩
      · rintro rfl
        exact h4 (by simp [symbollessIntrinsics])
      · simp only [stmtStep, h2] at hs
        unfold plainCall at hs
        rw [w.aliases, h3] at hs
        have : symbollessIntrinsics.contains n = false := by simpa using h4
        simp only [this, Bool.false_and, Bool.false_eq_true, if_false] at hs
        split at hs
        · rename_i hund
          simpa using hund
        · cases hs

theorem isThumb_other {t : Target} (h : t.isThumb = false) : t = .other := by
  cases t <;> first | rfl | cases h

/-- What an edge of the LLVM-IR stands for. -/
theorem SharedFacts.ir_exact (f : SharedFacts demangle ord search p elf cs st0 stIr st g) (alike : p.NamesAlike)
    (safe : p.OrderSafe) {a b : Nat} (h : (a, b) ∈ stIr.g.edges) :
    ∃ i s, p.LastOf i a ∧ p.Contains i s ∧ ((∃ j, p.StmtCalls s j ∧ p.LastOf j b) ∨
      (p.defined.length ≤ b ∧ p.StmtLeaves s)) := by
  rcases (EdgeStep.defines p.defines f.definesOk).sound _ h with h | ⟨s, n, ⟨d, hd, hs, c, hc, hi⟩, hask, hn, hsym⟩
  · rw [f.sym.gedges] at h
    cases h
  · simp only at hi hn
    rw [f.ir.aliases] at hc
    obtain ⟨i, hli, hla⟩ := f.alias_last alike hc hi
    have hcon : p.Contains i s := ⟨d, hd, hli, hs⟩
    have hb : (p.Principal b n ∧ p.LastOf b b) ∨ (p.defined.length ≤ b ∧ ∀ j, ¬ p.Principal j n) := by
      rcases f.index_last alike hn with ⟨h1, h2, _⟩ | h1
      · exact .inl ⟨f.principal.mpr h1, h2⟩
      · refine .inr ⟨h1, fun j hj => ?_⟩
        have h2 := f.sym.indices_ne n (List.mem_of_getElem? (f.principal.mp hj))
        obtain ⟨k, hk⟩ := Option.ne_none_iff_exists'.mp h2
        have h3 := (List.getElem?_eq_some_iff.mp (f.sym.indices_some n k hk)).1
        rw [f.ir.indices _ _ hk] at hn
        cases hn
        rw [f.sym.len] at h3
        omega
    have hneed : p.Needs s n → (∀ j, ¬ p.Principal j n) → ∃ s', p.Contains i s' ∧ p.StmtLeaves s' := by
      intro h1 h2
      rcases safe i s n hcon h1 with ⟨j, hj⟩ | ⟨⟨s', h3, h4⟩, _⟩ | h3
      · exact absurd hj (h2 j)
      · refine ⟨s', h3, ?_⟩
        rcases h4 with rfl | ⟨rfl, h5, h6, h7, _⟩
        · exact .bitcast h2
        · exact .direct h5 h7 h6
      · obtain ⟨k, s', h4, h5⟩ := f.key_made alike (by rw [hn]; exact Option.some_ne_none b) h2
        exact absurd h5 (h3 k s' h4)
    cases hask with
    | bitcast =>
      rcases hb with ⟨h1, h2⟩ | ⟨h1, h2⟩
      · exact ⟨i, _, hla, hcon, .inl ⟨b, .bitcast h1, h2⟩⟩
      · exact ⟨i, _, hla, hcon, .inr ⟨h1, .bitcast h2⟩⟩
    | @routine fn _ rs hk hr =>
      have hthumb : p.target.isThumb = false := by
        cases hb : p.target.isThumb with
        | false => rfl
        | true => rw [hb] at hk; exact absurd hk classify_thumb_memory
      rcases hb with ⟨h1, h2⟩ | ⟨h1, h2⟩
      · refine ⟨i, _, hla, hcon, .inl ⟨b, ?_, h2⟩⟩
        rcases classify_memory hk with ⟨h3, rfl⟩ | ⟨h3, rfl⟩
        · exact .copy hthumb h3 hr h1
        · exact .fill hthumb h3 hr h1
      · have : p.Needs (.directCall fn) n := by
          rcases classify_memory hk with ⟨h3, rfl⟩ | ⟨h3, rfl⟩
          · exact .copy (isThumb_other hthumb) h3 hr
          · exact .fill (isThumb_other hthumb) h3 hr
        obtain ⟨s', h3, h4⟩ := hneed this h2
        exact ⟨i, s', hla, h3, .inr ⟨h1, h4⟩⟩
    | @live fn _ hk ha =>
      obtain ⟨j, hj, hlj⟩ := f.alias_last alike ha hn
      refine ⟨i, _, hla, hcon, .inl ⟨j, .direct (classify_plain.mp hk) hj ?_, hlj⟩⟩
      rintro rfl
      have hkey := hsym rfl
      have hex : ∃ k, p.Principal k c!"memcmp" := by
        by_contra hno
        have hno' := not_exists.mp hno
        rcases safe i _ _ hcon .memcmp with h1 | ⟨_, h1⟩ | h1
        · exact hno h1
        · exact (h1 rfl).1 j hj
        · obtain ⟨k, s', h4, h5⟩ := f.key_made alike hkey hno'
          exact h1 k s' h4 h5
      obtain ⟨k, hk'⟩ := hex
      obtain ⟨ak, sk, h1⟩ : ∃ ak sk, p.defined[k]? = some (ak, sk) := by
        obtain ⟨a, s, _, _, h1, _⟩ := id hk'
        exact ⟨a, s, h1⟩
      obtain ⟨aj, sj, h2, h3⟩ := id hj
      obtain ⟨ck, hck, _, hcm⟩ := f.canon_at h1
      have hck' := f.principal.mp hk'
      rw [hck] at hck'
      cases hck'
      have h4 := f.alias alike h1 hck ((mem_realNames _ _).mp hcm)
      obtain ⟨cj, hcj, _⟩ := f.canon_at h2
      rw [f.alias alike h2 hcj h3] at h4
      cases h4
      exact f.principal.mpr hcj
    | external hk ha hu =>
      have hdead := (f.dead _).mp ha
      rcases hb with ⟨h1, _⟩ | ⟨h1, h2⟩
      · obtain ⟨e, he⟩ : ∃ e, p.defined[b]? = some e := by
          obtain ⟨a, s, _, _, h1, _⟩ := id h1
          exact ⟨_, h1⟩
        obtain ⟨cb, hcb, _, hcm⟩ := f.canon_at he
        rw [f.principal.mp h1] at hcb
        cases hcb
        exact absurd ⟨e.1, e.2, he, (mem_realNames _ _).mp hcm⟩ (hdead b)
      · by_cases hm : n = c!"memcmp"
        · subst hm
          obtain ⟨s', h3, h4⟩ := hneed .memcmp h2
          exact ⟨i, s', hla, h3, .inr ⟨h1, h4⟩⟩
        · exact ⟨i, _, hla, hcon, .inr ⟨h1, .direct (classify_plain.mp hk) hdead hm⟩⟩

/-- What an edge stands for before the indirect calls are added. -/
theorem SharedFacts.edge_st (f : SharedFacts demangle ord search p elf cs st0 stIr st g) (alike : p.NamesAlike)
    (safe : p.OrderSafe) {a b : Nat} (h : (a, b) ∈ st.g.edges) :
    a < p.defined.length ∧ b < st.g.nodes.length ∧ ∃ i, p.LastOf i a ∧
      ((∃ s j, p.Contains i s ∧ p.StmtCalls s j ∧ p.LastOf j b) ∨
      (∃ j, p.CodeCalls search elf i j ∧ p.LastOf j b) ∨
      (p.defined.length ≤ b ∧ ((∃ s, p.Contains i s ∧ p.StmtLeaves s) ∨ p.CodeLeaves search elf i))) := by
  have hb := (f.machine.wf _ h).2
  have lt : ∀ {i}, p.LastOf i a → a < p.defined.length := by
    rintro i ⟨_, _, _, _, _, h1, _⟩
    exact (List.getElem?_eq_some_iff.mp h1).1
  have hir : (a, b) ∈ stIr.g.edges → ∃ i, p.LastOf i a ∧
      ((∃ s j, p.Contains i s ∧ p.StmtCalls s j ∧ p.LastOf j b) ∨
      (∃ j, p.CodeCalls search elf i j ∧ p.LastOf j b) ∨
      (p.defined.length ≤ b ∧ ((∃ s, p.Contains i s ∧ p.StmtLeaves s) ∨ p.CodeLeaves search elf i))) := by
    intro h
    obtain ⟨i, s, h1, h2, ⟨j, h3, h4⟩ | ⟨h3, h4⟩⟩ := f.ir_exact alike safe h
    · exact ⟨i, h1, .inl ⟨s, j, h2, h3, h4⟩⟩
    · exact ⟨i, h1, .inr (.inr ⟨h3, .inl ⟨s, h2, h4⟩⟩)⟩
  suffices hs : ∃ i, p.LastOf i a ∧
      ((∃ s j, p.Contains i s ∧ p.StmtCalls s j ∧ p.LastOf j b) ∨
      (∃ j, p.CodeCalls search elf i j ∧ p.LastOf j b) ∨
      (p.defined.length ≤ b ∧ ((∃ s, p.Contains i s ∧ p.StmtLeaves s) ∨ p.CodeLeaves search elf i))) by
    obtain ⟨i, h1, h2⟩ := hs
    exact ⟨lt h1, hb, i, h1, h2⟩
  have hpass := f.pass
  unfold machinePass at hpass
  split at hpass
  · rename_i ht
    split at hpass
    · cases hpass
      exact hir h
    · rename_i stext text hx
      obtain ⟨_, m⟩ := f.loop stext text ht hx
      rcases m.sound _ h with h2 | ⟨e, he, c, r, h3, h4, h5⟩
      · exact hir h2
      · obtain ⟨i, hi⟩ := List.getElem?_of_mem he
        obtain ⟨hc, hla⟩ := f.nodeOf alike hi h3
        have hd := decoded_of hi hx h4
        refine ⟨i, hla, ?_⟩
        rcases h5 with ⟨t, h5, h6⟩ | ⟨h5, h6, h7, h8⟩
        · obtain ⟨j, hj, hlj⟩ := f.resolves_last alike h6
          exact .inr (.inl ⟨j, ⟨ht, _, _, r, t, hd, mem_calledAddrs.mp h5, hj⟩, hlj⟩)
        · refine .inr (.inr ⟨Nat.le_trans f.live_length.1 h8, .inr ⟨ht, ?_, _, _, r, hd, h6⟩⟩)
          rintro d hd1 ⟨_, _, hd2, hd3⟩
          rw [hi] at hd2
          cases hd2
          exact h5 ((definePass_defined_all p.defines f.definesOk).2 d hd1 c (f.alias alike hi hc hd3))
  · cases hpass
    exact hir h

theorem SharedFacts.from_fict (f : SharedFacts demangle ord search p elf cs st0 stIr st g) (alike : p.NamesAlike)
    (safe : p.OrderSafe) {a b : Nat} (ha : p.defined.length ≤ a) (hab : (a, b) ∈ g.edges) :
    ∃ e ∈ stIr.indirects, DashedFor st.hasUntypedSymbols st.fmts (voidOf ord st) e g a := by
  rcases f.edge_cases hab with h1 | ⟨k, e, h1, _, rfl | rfl, h3⟩
  · have := (f.edge_st alike safe h1).1
    omega
  · exact ⟨e, f.machine.indirects ▸ h1, h3⟩
  · obtain ⟨i, _, ⟨_, _, _, _, _, h4, _⟩, _⟩ :=
      (f.callers_iff alike (f.machine.indirects ▸ h1) a).mp ((h3.pred a).mp hab)
    have := (List.getElem?_eq_some_iff.mp h4).1
    omega

theorem SharedFacts.node_zero (f : SharedFacts demangle ord search p elf cs st0 stIr st g) {a : Nat}
    (ha : p.defined.length ≤ a) : (g.locOf a).bytes = 0 ∧ (a < st.g.nodes.length → g.locOf a = .unknown) := by
  obtain ⟨ns, hns⟩ := f.out.nodes
  by_cases h1 : a < stIr.g.nodes.length
  · have := f.ext_unknown (k := a) (by rw [f.sym.nodes, List.length_map, f.sym.len]; exact ha) h1
    exact ⟨by rw [this]; rfl, fun _ => this⟩
  · by_cases h2 : a < st.g.nodes.length
    · have h3 := f.machine.new a (by omega) h2
      have : g.locOf a = .unknown := by
        unfold Graph.locOf
        rw [hns, List.getElem?_append_left h2, h3]
        rfl
      exact ⟨by rw [this]; rfl, fun _ => this⟩
    · refine ⟨?_, fun h => absurd h h2⟩
      unfold Graph.locOf
      by_cases h3 : a < g.nodes.length
      · rcases f.out.new a (by omega) h3 with ⟨e, _, _, hd⟩ | ⟨_, h4, _⟩
        · rw [hd.node]
          rfl
        · rw [h4]
          rfl
      · rw [List.getElem?_eq_none (by omega)]
        rfl

theorem SharedFacts.liveGraph (f : SharedFacts demangle ord search p elf cs st0 stIr st g) (alike : p.NamesAlike)
    (safe : p.OrderSafe) : LiveGraph p.defined.length g.Calls g.locOf := by
  refine ⟨fun a ha => (f.node_zero ha).1, ?_⟩
  intro a b c ha hb hab hbc
  obtain ⟨e, h0, h1⟩ := f.from_fict alike safe ha hab
  obtain ⟨e', _, h2⟩ := f.from_fict alike safe hb hbc
  rcases (h1.succ b).mp hab with h3 | ⟨h3, rfl⟩
  · have := f.callees_live h0 h3
    omega
  · have k1 := h1.extern h3
    have k2 := h2.node
    rw [k1] at k2
    have := congrArg Node.dashed (Option.some.inj k2)
    simp [questionNode, dashedNode, mkNode] at this

theorem SharedFacts.fict (f : SharedFacts demangle ord search p elf cs st0 stIr st g) (alike : p.NamesAlike)
    (defs : p.DefinesOnce) (decls : p.DeclaresOnce) {i a : Nat} {sig : FnSig} (hl : p.LastOf i a)
    (h : p.MayCallType i sig) :
    ∃ e ∈ stIr.indirects, e.1 = sig ∧ ∃ k, p.defined.length ≤ k ∧ g.Calls a k ∧
      DashedFor st.hasUntypedSymbols st.fmts (voidOf ord st) e g k := by
  obtain ⟨h1, sig', h2, h3⟩ := h
  obtain ⟨i0, he⟩ := (f.registered defs decls sig).mpr h1
  have ha := (f.callers_iff alike he a).mpr ⟨i, sig', hl, h2, h3⟩
  obtain ⟨d, hd, ⟨ai, si, hi, hni⟩, hs⟩ := id h2
  obtain ⟨ci, hci, _⟩ := f.canon_at hi
  obtain ⟨m, hm, hlm⟩ := f.lookup alike hi hci
  have hc := (f.marked d hd ci m sig' (f.alias alike hi hci hni) hm hs _ he ((C39_signatures _ _).mpr h3)).1
  obtain ⟨k, h4, h5⟩ := f.out.called _ ((ord.isPerm _ _ _).mem_iff.mpr (f.machine.indirects ▸ he)) hc
  have := f.live_length
  exact ⟨_, he, rfl, k, by omega, (h5.pred a).mpr ha, h5⟩

theorem Program.Principal.named (f : SharedFacts demangle ord search p elf cs st0 stIr st g) {j : Nat} {n : Str}
    (h : p.Principal j n) : ∃ a s, p.defined[j]? = some (a, s) ∧ s.Named n := by
  obtain ⟨a, s, _, _, h1, _⟩ := id h
  obtain ⟨c, hc, _, hm⟩ := f.canon_at h1
  rw [f.principal.mp h] at hc
  cases hc
  exact ⟨a, s, h1, (mem_realNames _ _).mp hm⟩

/-- A statement that leads to a live function. -/
theorem SharedFacts.stmt_edge (f : SharedFacts demangle ord search p elf cs st0 stIr st g) (alike : p.NamesAlike)
    {i j a b : Nat} {s : Stmt} (hs : p.Contains i s) (hc : p.StmtCalls s j) (ha : p.LastOf i a)
    (hb : p.LastOf j b) : g.Calls a b := by
  cases hc with
  | @bitcast n _ hp =>
    obtain ⟨a', c, hla, hix, st1, st2, w, hlt, hstep, he⟩ := f.contains alike hs
    obtain rfl := ha.unique hla
    obtain ⟨aj, sj, hdj, hn⟩ := hp.named f
    obtain ⟨b', hb', hlb⟩ := f.lookup alike hdj (f.principal.mp hp)
    obtain rfl := hb.unique hlb
    have h2 := Except.ok.inj hstep
    refine f.edge_ir (he _ ?_)
    have hgot : (st1.getOrAddNode n).2 = b := by
      unfold Build.getOrAddNode
      rw [w.indices _ _ hb']
    rw [← h2, ← hgot]
    exact List.mem_append.mpr (.inr (List.mem_singleton.mpr rfl))
  | @direct fn _ hint hlive hm =>
    obtain ⟨d, hd', ⟨ai, si, hi, hni⟩, hst⟩ := id hs
    obtain ⟨aj, sj, hj, hnj⟩ := id hlive
    obtain ⟨c, hc, _⟩ := f.canon_at hi
    obtain ⟨c', hc', hcan', _⟩ := f.canon_at hj
    obtain ⟨a', ha', hla⟩ := f.lookup alike hi hc
    obtain ⟨b', hb', hlb⟩ := f.lookup alike hj hc'
    obtain rfl := ha.unique hla
    obtain rfl := hb.unique hlb
    refine f.edge_ir (f.direct d hd' c a fn c' b (f.alias alike hi hc hni) ha' hst (classify_plain.mpr hint) ?_
      (f.alias alike hj hc' hnj) hb')
    intro hmem
    obtain rfl : fn = c!"memcmp" := by simpa [symbollessIntrinsics] using hmem
    rw [(principal_iff hj hcan' _).mp (hm rfl), hb']
    simp
  | @copy fn r _ h1 h2 h3 h4 =>
    obtain ⟨a', b', k1, k2, k3⟩ := f.memory alike h1 hs h4 (.inl ⟨h2, h3⟩)
    obtain rfl := ha.unique k1
    obtain rfl := hb.unique k2
    exact k3
  | @fill fn r _ h1 h2 h3 h4 =>
    obtain ⟨a', b', k1, k2, k3⟩ := f.memory alike h1 hs h4 (.inr ⟨h2, h3⟩)
    obtain rfl := ha.unique k1
    obtain rfl := hb.unique k2
    exact k3

theorem SharedFacts.code_edge (f : SharedFacts demangle ord search p elf cs st0 stIr st g) (alike : p.NamesAlike)
    (addressed : p.Addressed) {i j a b : Nat} (hc : p.CodeCalls search elf i j) (ha : p.LastOf i a)
    (hb : p.LastOf j b) : g.Calls a b := by
  obtain ⟨ht, address, size, r, t, hdec, hleave, sj, hj⟩ := hc
  obtain ⟨ai, si, stext, text, hi, hx, _⟩ := decoded_iff.mp hdec
  obtain ⟨han, rfl, rfl⟩ := analyzed_of hi hx hdec
  obtain ⟨_, mf⟩ := f.loop stext text ht hx
  obtain ⟨c, a', r', hno, han', hcalls, _⟩ := mf.complete _ (List.mem_of_getElem? hi)
  obtain rfl := han.unique han'
  obtain ⟨hc, hla⟩ := f.nodeOf alike hi hno
  obtain rfl := ha.unique hla
  obtain ⟨b', hres, hedge⟩ := hcalls t (mem_calledAddrs.mpr hleave)
  obtain ⟨j', ⟨s', h3⟩, hlb⟩ := f.resolves_last alike hres
  obtain rfl : j' = j := addressed_inj addressed h3 hj
  obtain rfl := hb.unique hlb
  exact f.edge_machine hedge

/-- A node that was looked up for a name that no function is shown under. -/
theorem SharedFacts.got_out (f : SharedFacts demangle ord search p elf cs st0 stIr st g)
    {st1 : Build} (w : WeakIr p st0 st1) {n : Str} (hno : ∀ j, ¬ p.Principal j n) :
    p.defined.length ≤ (st1.getOrAddNode n).2 := by
  have hlen : st0.g.nodes.length = p.defined.length := by rw [f.sym.nodes, List.length_map, f.sym.len]
  unfold Build.getOrAddNode
  cases hm : mget n st1.indices with
  | some k =>
    rcases w.fresh n k hm with h1 | h1
    · exact absurd (f.principal.mpr (f.sym.indices_some n k h1)) (hno k)
    · exact hlen ▸ h1
  | none =>
    simp only [Graph.addNode]
    obtain ⟨ext, he⟩ := w.nodes
    rw [he, List.length_append]
    omega

/-- A statement that leads out of the executable. -/
theorem SharedFacts.stmt_out (f : SharedFacts demangle ord search p elf cs st0 stIr st g) (alike : p.NamesAlike)
    {i a : Nat} {s : Stmt} (hs : p.Contains i s) (hc : p.StmtLeaves s) (ha : p.LastOf i a) :
    ∃ k, p.defined.length ≤ k ∧ g.Calls a k ∧ ¬ (g.locOf k).Known := by
  have out : ∀ {k}, (a, k) ∈ stIr.g.edges → p.defined.length ≤ k →
      ∃ k, p.defined.length ≤ k ∧ g.Calls a k ∧ ¬ (g.locOf k).Known := by
    intro k he h1
    have h2 := (f.ir.wf _ he).2
    have := f.live_length
    refine ⟨k, h1, f.edge_ir he, ?_⟩
    rw [(f.node_zero h1).2 (by omega)]
    exact fun h => h
  obtain ⟨a', c, hla, hix, st1, st2, w, hlt, hstep, he⟩ := f.contains alike hs
  obtain rfl := ha.unique hla
  cases hc with
  | @bitcast n hno =>
    have h2 := Except.ok.inj hstep
    refine out (he (a, (st1.getOrAddNode n).2) ?_) (f.got_out w hno)
    rw [← h2]
    exact List.mem_append.mpr (.inr (List.mem_singleton.mpr rfl))
  | @direct n hint hno hm =>
    simp only [stmtStep, classify_plain.mpr hint] at hstep
    have hal : mget n st1.aliases = none := by
      rw [w.aliases]
      exact (f.dead n).mpr hno
    have hns : symbollessIntrinsics.contains n = false := by
      simpa [symbollessIntrinsics] using hm
    unfold plainCall at hstep
    simp only [hns, hal, Bool.false_and, Bool.false_eq_true, if_false] at hstep
    split at hstep
    · obtain ⟨w1, _⟩ := w.getOrAdd n
      have h2 := Except.ok.inj hstep
      change (st1.getOrAddNode n).1.call a (st1.getOrAddNode n).2 = st2 at h2
      refine out (he (a, (st1.getOrAddNode n).2) ?_) (f.got_out w fun j hj => ?_)
      · rw [← h2]
        exact (mem_call_edges (w1.seen _ _) _).mpr (.inr rfl)
      · obtain ⟨b, s, h3, h4⟩ := hj.named f
        exact hno j ⟨b, s, h3, h4⟩
    · cases hstep

theorem SharedFacts.code_out (f : SharedFacts demangle ord search p elf cs st0 stIr st g) (alike : p.NamesAlike)
    {i a : Nat} (hc : p.CodeLeaves search elf i) (ha : p.LastOf i a) :
    ∃ k, p.defined.length ≤ k ∧ g.Calls a k ∧ ¬ (g.locOf k).Known := by
  obtain ⟨ht, hno, address, size, r, hd, hind⟩ := hc
  obtain ⟨ai, si, stext, text, hi, hx, _⟩ := decoded_iff.mp hd
  obtain ⟨han, rfl, rfl⟩ := analyzed_of hi hx hd
  obtain ⟨_, mf⟩ := f.loop stext text ht hx
  obtain ⟨c, a', r', hn, han', _, hq⟩ := mf.complete _ (List.mem_of_getElem? hi)
  obtain rfl := han.unique han'
  obtain ⟨hc, hla⟩ := f.nodeOf alike hi hn
  obtain rfl := ha.unique hla
  obtain ⟨c', hc', _, hcm⟩ := f.canon_at hi
  rw [hc] at hc'
  cases hc'
  have hnd : c ∉ stIr.defined := by
    intro hm
    obtain ⟨d, hd, hal⟩ := f.ir.defined c hm
    obtain ⟨i', e', h1, h2, h3⟩ := f.sym.aliases_some d.name c hal
    obtain ⟨h4, _⟩ := canonicalOf_spec (f.sym.canon i' e' c h1 h2)
    have := alike i' i e'.1 e'.2 ai si c h1 hi ((mem_realNames _ _).mp h4) ((mem_realNames _ _).mp hcm)
    have h5 := (mem_realNames _ _).mp h3
    exact hno d hd ⟨ai, si, hi, this ▸ h5.1, h5.2⟩
  obtain ⟨k, h1, h3, h4⟩ := hq hnd hind
  have hk := Nat.le_trans f.live_length.1 h1
  refine ⟨k, hk, f.edge_machine h4, ?_⟩
  rw [(f.node_zero hk).2 (List.getElem?_eq_some_iff.mp h3).1]
  exact fun h => h

/-- The calls between live functions. -/
theorem SharedFacts.mayCall_iff (f : SharedFacts demangle ord search p elf cs st0 stIr st g) (alike : p.NamesAlike)
    (defs : p.DefinesOnce) (decls : p.DeclaresOnce) (addressed : p.Addressed) (safe : p.OrderSafe) :
    LiveHop g.Calls p.defined.length = p.MayCallShared search elf (voidOf ord st) := by
  funext a b
  apply propext
  have hlen := f.live_length
  constructor
  · rintro ⟨ha, hb, h1 | ⟨d, hd, h1, h2⟩⟩
    · rcases f.edge_cases h1 with h2 | ⟨k, e, _, _, h2, h3⟩
      · obtain ⟨_, _, i, h3, h4⟩ := f.edge_st alike safe h2
        refine ⟨i, h3, ?_⟩
        rcases h4 with h4 | h4 | ⟨h4, _⟩
        · exact .inl h4
        · exact .inr (.inl h4)
        · omega
      · have hk : k < cs.length := by
          rw [f.sym.len]
          rcases h2 with rfl | rfl <;> assumption
        obtain ⟨nd, hnd, _, hdash, _⟩ := f.live_node (List.getElem?_eq_getElem hk)
        rw [h3.node] at hnd
        cases hnd
        cases hdash
    · obtain ⟨e, he, h3⟩ := f.from_fict alike safe hd h2
      obtain ⟨i, sig', h4, h5, h6⟩ := (f.callers_iff alike he a).mp ((h3.pred a).mp h1)
      refine ⟨i, h4, .inr (.inr ⟨e.1, ⟨(f.registered defs decls e.1).mp ⟨_, he⟩, sig', h5, h6⟩, ?_⟩)⟩
      rcases (h3.succ b).mp h2 with h7 | ⟨_, h7⟩
      · exact (f.candidate_iff defs decls he b).mp h7
      · omega
  · have lt : ∀ {i a}, p.LastOf i a → a < p.defined.length := by
      rintro i a ⟨_, _, _, _, _, h1, _⟩
      exact (List.getElem?_eq_some_iff.mp h1).1
    rintro ⟨i, hi, ⟨s, j, h1, h2, h3⟩ | ⟨j, h1, h2⟩ | ⟨sig, h1, h2⟩⟩
    · exact ⟨lt hi, lt h3, .inl (f.stmt_edge alike h1 h2 hi h3)⟩
    · exact ⟨lt hi, lt h2, .inl (f.code_edge alike addressed h1 hi h2)⟩
    · obtain ⟨e, he, rfl, k, h3, h4, h5⟩ := f.fict alike defs decls hi h1
      have h6 := (f.candidate_iff defs decls he b).mpr h2
      exact ⟨lt hi, f.callees_live he h6, .inr ⟨k, h3, h4, (h5.succ b).mpr (.inl h6)⟩⟩

/-- Which functions may leave the executable. -/
theorem SharedFacts.mayLeave_iff (f : SharedFacts demangle ord search p elf cs st0 stIr st g) (alike : p.NamesAlike)
    (defs : p.DefinesOnce) (decls : p.DeclaresOnce) (safe : p.OrderSafe) (a : Nat) :
    a < p.defined.length ∧ UnknownHop g.Calls g.locOf p.defined.length a ↔ p.MayLeaveShared search elf a := by
  have hlen := f.live_length
  constructor
  · rintro ⟨ha, d, hd, h1, h2⟩
    rcases f.edge_cases h1 with h3 | ⟨k, e, he, _, h3, h4⟩
    · obtain ⟨_, _, i, h5, h6⟩ := f.edge_st alike safe h3
      refine ⟨i, h5, ?_⟩
      rcases h6 with ⟨_, j, _, _, h6⟩ | ⟨j, _, h6⟩ | ⟨_, h6 | h6⟩
      · obtain ⟨_, _, _, _, _, h7, _⟩ := h6
        have := (List.getElem?_eq_some_iff.mp h7).1
        omega
      · obtain ⟨_, _, _, _, _, h7, _⟩ := h6
        have := (List.getElem?_eq_some_iff.mp h7).1
        omega
      · exact .inl h6
      · exact .inr (.inl h6)
    · rcases h3 with rfl | rfl
      · have hk : k < cs.length := by
          rw [f.sym.len]
          exact ha
        obtain ⟨nd, hnd, _, hdash, _⟩ := f.live_node (List.getElem?_eq_getElem hk)
        rw [h4.node] at hnd
        cases hnd
        cases hdash
      · have he' : e ∈ stIr.indirects := f.machine.indirects ▸ he
        obtain ⟨i, sig', h5, h6, h7⟩ := (f.callers_iff alike he' a).mp ((h4.pred a).mp h1)
        refine ⟨i, h5, .inr (.inr ⟨⟨e.1, (f.registered defs decls e.1).mp ⟨_, he'⟩, sig', h6, h7⟩, ?_⟩)⟩
        rw [← f.untyped decls]
        rcases h2 with h2 | ⟨d', hd', h8, _⟩
        · refine absurd ?_ h2
          unfold Graph.locOf
          rw [h4.node]
          trivial
        · rcases (h4.succ d').mp h8 with h9 | ⟨h9, _⟩
          · have := f.callees_live he' h9
            omega
          · exact h9
  · rintro ⟨i, hi, h1⟩
    refine ⟨?_, ?_⟩
    · obtain ⟨_, _, _, _, _, h1, _⟩ := hi
      exact (List.getElem?_eq_some_iff.mp h1).1
    rcases h1 with ⟨s, h2, h3⟩ | h2 | ⟨⟨sig, h2⟩, h3⟩
    · obtain ⟨k, h4, h5, h6⟩ := f.stmt_out alike h2 h3 hi
      exact ⟨k, h4, h5, .inl h6⟩
    · obtain ⟨k, h4, h5, h6⟩ := f.code_out alike h2 hi
      exact ⟨k, h4, h5, .inl h6⟩
    · obtain ⟨e, he, rfl, k, h4, h5, h6⟩ := f.fict alike defs decls hi h2
      have hu := (f.untyped decls).mpr h3
      refine ⟨k, h4, h5, .inr ⟨k + 1, by omega, (h6.succ _).mpr (.inr ⟨hu, rfl⟩), ?_⟩⟩
      unfold Graph.locOf
      rw [h6.extern hu]
      exact fun h => h

end

section loop

variable {demangle : Str → Str} {ord : HashOrder} {search : TagSearch} {p : Program} {elf : Elf}
  {cs : List Str} {st0 stIr st : Build} {g : Graph}

theorem local_figure (l : Local) : ∃ o, l = figureLocal o := by
  cases l with
  | exact n => exact ⟨some n, rfl⟩
  | unknown => exact ⟨none, rfl⟩

/-- The comparison with the machine code, function by function. -/
theorem SharedFacts.local_loop (f : SharedFacts demangle ord search p elf cs st0 stIr st g) (alike : p.NamesAlike)
    {stext : Nat} {text : List Nat} (hx : elf.text = some (stext, text)) {m : Nat} {name : Str}
    (hm : cs[m]? = some name) (es : List (Nat × Sym)) : ∀ (k : Nat) {st1 st2 : Build},
    p.defined.drop k = es → k + es.length = p.defined.length → MachineInv stIr.g.nodes.length stIr st1 →
    machineLoop search (p.target == .thumbv7m) (elfTags elf.symtab) stext text st1 es = .ok st2 →
    (∃ nd, st1.g.nodes[m]? = some nd ∧ p.LocalAfter search elf m k nd.loc) →
    ∃ nd, st2.g.nodes[m]? = some nd ∧ p.LocalAfter search elf m p.defined.length nd.loc := by
  induction es with
  | nil =>
    intro k st1 st2 _ hk _ h hl
    simp only [machineLoop, Except.ok.injEq] at h
    subst h
    simp only [List.length_nil, Nat.add_zero] at hk
    exact hk ▸ hl
  | cons e es ih =>
    intro k st1 st2 hdrop hk inv h ⟨nd, hnd, hloc⟩
    unfold machineLoop at h
    split at h
    · simp at h
    · rename_i st1' h1
      obtain ⟨inv1, c, i, r, hno, han, hu⟩ := machineStep_spec inv f.ir.lt h1
      have hek : p.defined[k]? = some e := by
        have := congrArg List.head? hdrop
        simpa using this
      obtain ⟨hc, hla⟩ := f.nodeOf alike hek hno
      refine ih (k + 1) ?_ (by simp only [List.length_cons] at hk; omega) inv1 h ?_
      · have := congrArg List.tail hdrop
        simpa using this
      · by_cases hi : i = m
        · subst hi
          obtain ⟨nd0, nd', h2, h3, h4⟩ := hu.loc
          rw [hnd] at h2
          cases h2
          refine ⟨nd', h3, ?_⟩
          obtain ⟨known, hkn⟩ := local_figure nd.loc
          rw [hkn] at h4 hloc
          have hcm : name = c := by
            obtain ⟨_, s, _, t, e1, e2, e3, _⟩ := hla
            rw [hek] at e1
            cases e1
            have c1 := f.sym.canon k _ c hek hc
            have c2 := f.sym.canon i _ name e2 hm
            have hr : realNames t = realNames s := by unfold realNames; rw [e3]
            simp only at c1 c2
            rw [hr, c1] at c2
            exact (Except.ok.inj c2).symm
          subst hcm
          have h5 := (C50_override_policy known r.stack r.modifiesSp _ _ _).mp h4
          rw [inv.asmFns, f.asm_iff alike hm, isOutlined_iff] at h5
          exact .code hloc hla (decoded_of hek hx han) (f.principal.mpr hm) h5
        · refine ⟨nd, ?_, .other hloc fun hl => hi (hla.unique hl)⟩
          rw [hu.other m (fun h => hi h.symm) (List.getElem?_eq_some_iff.mp hnd).1]
          exact hnd

/-- The local usages. -/
theorem SharedFacts.localShared (f : SharedFacts demangle ord search p elf cs st0 stIr st g) (alike : p.NamesAlike)
    {m : Nat} (hm : m < p.defined.length) : p.LocalShared search elf m (g.locOf m) := by
  have hlt : m < cs.length := by rw [f.sym.len]; exact hm
  have hc := List.getElem?_eq_getElem hlt
  have he := List.getElem?_eq_getElem hm
  have hcan := f.sym.canon m _ _ he hc
  have hopt : p.FrameOpt m (mget cs[m] p.stackSizes) := by
    cases hs : mget cs[m] p.stackSizes with
    | none =>
      intro k hk
      rw [(frame_iff he hcan k).mp hk] at hs
      simp at hs
    | some k => exact (frame_iff he hcan k).mpr hs
  have hnode : stIr.g.nodes[m]? = some (mkNode cs[m] (mget cs[m] p.stackSizes) false) := by
    obtain ⟨ext, hex⟩ := f.ir.nodes
    have h0 : (cs.map (fun c => mkNode c (mget c p.stackSizes) false))[m]? =
        some (mkNode cs[m] (mget cs[m] p.stackSizes) false) := by
      rw [List.getElem?_map, hc]
      rfl
    rw [hex, f.sym.nodes, List.getElem?_append_left (List.getElem?_eq_some_iff.mp h0).1, h0]
  have hloc : (mkNode cs[m] (mget cs[m] p.stackSizes) false).loc = figureLocal (mget cs[m] p.stackSizes) := by
    unfold mkNode figureLocal
    cases mget cs[m] p.stackSizes <;> rfl
  have hg : ∀ nd, st.g.nodes[m]? = some nd → g.locOf m = nd.loc := by
    intro nd h
    obtain ⟨ns, hns⟩ := f.out.nodes
    unfold Graph.locOf
    rw [hns, List.getElem?_append_left (List.getElem?_eq_some_iff.mp h).1, h]
  have hpass := f.pass
  unfold machinePass at hpass
  split at hpass
  · rename_i ht
    split at hpass
    · rename_i hx
      cases hpass
      rw [hg _ hnode, hloc]
      exact .compiler (.inr hx) hopt
    · rename_i stext text hx
      obtain ⟨nd, h1, h2⟩ := f.local_loop alike hx hc p.defined 0 rfl (by omega)
        (MachineInv.init rfl f.ir.wf f.ir.seen) hpass ⟨_, hnode, hloc ▸ .compiler hopt⟩
      rw [hg _ h1]
      exact .code ht (by rw [hx]; exact Option.some_ne_none _) h2
  · rename_i ht
    cases hpass
    rw [hg _ hnode, hloc]
    exact .compiler (.inl (by simpa using ht)) hopt

end loop

/-- There is only one local usage. -/
theorem SharedFacts.localShared_iff (f : SharedFacts demangle ord search p elf cs st0 stIr st g)
    (alike : p.NamesAlike) {m : Nat} (hm : m < p.defined.length) (l : Local) :
    p.LocalShared search elf m l ↔ l = g.locOf m := by
  have hfig : ∀ {a b : Option Nat}, figureLocal a = figureLocal b → a = b := by
    intro a b h
    cases a <;> cases b <;> simp_all [figureLocal]
  have hopt : ∀ {a b : Option Nat}, p.FrameOpt m a → p.FrameOpt m b → a = b := by
    intro a b h1 h2
    have hlt : m < cs.length := by rw [f.sym.len]; exact hm
    have he := List.getElem?_eq_getElem hm
    have hcan := f.sym.canon m _ _ he (List.getElem?_eq_getElem hlt)
    cases a <;> cases b
    · rfl
    · exact absurd h2 (h1 _)
    · exact absurd h1 (h2 _)
    · have h3 := (frame_iff he hcan _).mp h1
      rw [(frame_iff he hcan _).mp h2] at h3
      exact h3.symm
  have hafter : ∀ (k : Nat) (l l' : Local), p.target.isThumb = true → p.LocalAfter search elf m k l →
      p.LocalAfter search elf m k l' → l = l' := by
    intro k
    induction k with
    | zero =>
      intro l l' _ h1 h2
      cases h1 with
      | compiler a1 =>
        cases h2 with
        | compiler b1 => rw [hopt a1 b1]
    | succ k ih =>
      intro l l' ht h1 h2
      cases h1 with
      | code a1 a2 a3 a4 a5 =>
        cases h2 with
        | code b1 b2 b3 b4 b5 =>
          cases hfig (ih _ _ ht a1 b1)
          obtain rfl := (codeOf_iff.mpr ⟨ht, a3⟩).unique (codeOf_iff.mpr ⟨ht, b3⟩)
          have e1 := f.principal.mp a4
          rw [f.principal.mp b4] at e1
          cases e1
          exact a5.unique b5
        | other b1 b2 => exact absurd a2 b2
      | other a1 a2 =>
        cases h2 with
        | code b1 b2 b3 b4 b5 => exact absurd b2 a2
        | other b1 b2 => exact ih _ _ ht a1 b1
  have hg := f.localShared alike hm
  constructor
  · intro hl
    generalize g.locOf m = l2 at hg ⊢
    cases hl with
    | code a1 a2 a3 =>
      cases hg with
      | code b1 b2 b3 => exact hafter _ _ _ a1 a3 b3
      | compiler b1 b2 => rcases b1 with b1 | b1 <;> simp_all
    | compiler a1 a2 =>
      cases hg with
      | code b1 b2 b3 => rcases a1 with a1 | a1 <;> simp_all
      | compiler b1 b2 => rw [hopt a2 b2]
  · rintro rfl
    exact hg

end CallStack
