import Verif.Proof.CallGraph
import Verif.Proof.Str
import Verif.Proof.Analysis

/-! Lemmas behind the properties of direct calls. -/

namespace CallStack

theorem isIntrinsic_of_prefix {q f : Str} (h1 : c!"llvm." <+: q) (h2 : q <+: f) : IsIntrinsic f :=
  h1.trans h2

theorem startsWith_dec {q : Str} (h : startsWith q c!"llvm." = true) : c!"llvm." <+: q :=
  (startsWith_iff _ _).mp h

theorem classify_plain {t : Bool} {f : Str} : classify t f = .plain ↔ ¬ IsIntrinsic f := by
  constructor
  · intro h hi
    have hs : startsWith f c!"llvm." = true := (startsWith_iff _ _).mpr hi
    unfold classify at h
    simp only [hs] at h
    repeat' split at h
    all_goals simp_all
  · intro hi
    have hs : startsWith f c!"llvm." = false := by
      rw [← Bool.not_eq_true, startsWith_iff]; exact hi
    have hno : ∀ q, startsWith q c!"llvm." = true → startsWith f q = false := by
      intro q hq
      rw [← Bool.not_eq_true, startsWith_iff]
      exact fun h => hi (isIntrinsic_of_prefix (startsWith_dec hq) h)
    have hany : ∀ l : List Str, l.all (fun q => startsWith q c!"llvm.") = true →
        l.any (startsWith f) = false := by
      intro l hl
      rw [← Bool.not_eq_true, List.any_eq_true]
      rintro ⟨q, hq, h⟩
      rw [hno q (List.all_eq_true.mp hl q hq)] at h
      simp at h
    have hcon : noopIntrinsics.contains f = false := by
      rw [← Bool.not_eq_true]
      intro h
      have hm : f ∈ noopIntrinsics := by simpa using h
      have : noopIntrinsics.all (fun q => startsWith q c!"llvm.") = true := by decide
      have := List.all_eq_true.mp this f hm
      rw [hs] at this
      simp at this
    have e1 : (f == c!"llvm.x86.sse2.pause") = false := by
      rw [← Bool.not_eq_true, beq_iff_eq]
      rintro rfl
      revert hs; decide
    have e2 : (f == c!"llvm.experimental.noalias.scope.decl") = false := by
      rw [← Bool.not_eq_true, beq_iff_eq]
      rintro rfl
      revert hs; decide
    unfold classify
    rw [hcon, hany lifetimePrefixes (by decide), hs, hno c!"llvm.memcpy." (by decide),
      hno c!"llvm.memset." (by decide), hno c!"llvm.memmove." (by decide),
      hany inlinePrefixes (by decide), e1, e2]
    simp

theorem classify_memory {t : Bool} {f : Str} {rs : List Str} (h : classify t f = .memory rs) :
    (c!"llvm.memcpy." <+: f ∧ rs = memcpyRoutines) ∨
    ((c!"llvm.memset." <+: f ∨ c!"llvm.memmove." <+: f) ∧ rs = memsetRoutines) := by
  unfold classify at h
  split at h
  · simp at h
  split at h
  · simp at h
  split at h
  · simp at h
  split at h
  · rename_i h4
    simp only [CallKind.memory.injEq] at h
    exact Or.inl ⟨(startsWith_iff _ _).mp h4, h.symm⟩
  split at h
  · rename_i h5
    simp only [CallKind.memory.injEq] at h
    simp only [Bool.or_eq_true, startsWith_iff] at h5
    exact Or.inr ⟨h5, h.symm⟩
  split at h
  · simp at h
  split at h
  · simp at h
  split at h <;> simp at h

theorem prefix_append_ne {a b r f : Str} (h1 : a ++ r <+: f) (h2 : b <+: f)
    (h : startsWith (a ++ r) b = false) (hl : b.length ≤ (a ++ r).length) : False := by
  have := List.prefix_of_prefix_length_le h2 h1 hl
  rw [← startsWith_iff, h] at this
  simp at this

/-- `q` and `q'` are prefixes of a common string only if one is a prefix of the other. -/
theorem startsWith_clash {f q q' : Str} (h1 : startsWith f q = true) (h2 : startsWith f q' = true) :
    startsWith q q' = true ∨ startsWith q' q = true := by
  rw [startsWith_iff] at h1 h2
  simp only [startsWith_iff]
  rcases Nat.le_total q.length q'.length with hl | hl
  · exact Or.inr (List.prefix_of_prefix_length_le h1 h2 hl)
  · exact Or.inl (List.prefix_of_prefix_length_le h2 h1 hl)

theorem not_startsWith {f q q' : Str} (h1 : startsWith f q = true)
    (h : startsWith q q' = false ∧ startsWith q' q = false) : startsWith f q' = false := by
  rw [← Bool.not_eq_true]
  intro h2
  rcases startsWith_clash h1 h2 with h' | h'
  · rw [h.1] at h'; simp at h'
  · rw [h.2] at h'; simp at h'

theorem classify_memcpy {f : Str} (h : c!"llvm.memcpy." <+: f) :
    classify false f = .memory memcpyRoutines := by
  have hs := (startsWith_iff _ _).mpr h
  have hcon : noopIntrinsics.contains f = false := by
    rw [← Bool.not_eq_true]
    intro hc
    have hm : f ∈ noopIntrinsics := by simpa using hc
    have : noopIntrinsics.all (fun q => !startsWith q c!"llvm.memcpy.") = true := by decide
    have := List.all_eq_true.mp this f hm
    rw [hs] at this
    simp at this
  have hany : lifetimePrefixes.any (startsWith f) = false := by
    rw [← Bool.not_eq_true, List.any_eq_true]
    rintro ⟨q, hq, hf⟩
    have : lifetimePrefixes.all (fun q => !startsWith c!"llvm.memcpy." q && !startsWith q c!"llvm.memcpy.")
      = true := by decide
    have := List.all_eq_true.mp this q hq
    simp only [Bool.and_eq_true, Bool.not_eq_true'] at this
    rw [not_startsWith hs this] at hf
    simp at hf
  unfold classify
  rw [hcon, hany, hs]
  simp

theorem classify_memset {f : Str} (h : c!"llvm.memset." <+: f ∨ c!"llvm.memmove." <+: f) :
    classify false f = .memory memsetRoutines := by
  have key : ∀ pre : Str, startsWith f pre = true →
      noopIntrinsics.all (fun q => !startsWith q pre) = true →
      lifetimePrefixes.all (fun q => !startsWith pre q && !startsWith q pre) = true →
      startsWith pre c!"llvm.memcpy." = false ∧ startsWith c!"llvm.memcpy." pre = false →
      (startsWith f c!"llvm.memset." || startsWith f c!"llvm.memmove.") = true →
      classify false f = .memory memsetRoutines := by
    intro pre hs hn hl hm hor
    have hcon : noopIntrinsics.contains f = false := by
      rw [← Bool.not_eq_true]
      intro hc
      have hm : f ∈ noopIntrinsics := by simpa using hc
      have := List.all_eq_true.mp hn f hm
      rw [hs] at this
      simp at this
    have hany : lifetimePrefixes.any (startsWith f) = false := by
      rw [← Bool.not_eq_true, List.any_eq_true]
      rintro ⟨q, hq, hf⟩
      have := List.all_eq_true.mp hl q hq
      simp only [Bool.and_eq_true, Bool.not_eq_true'] at this
      rw [not_startsWith hs this] at hf
      simp at hf
    unfold classify
    rw [hcon, hany, not_startsWith hs hm, hor]
    simp
  rcases h with h | h
  · have hs := (startsWith_iff _ _).mpr h
    exact key c!"llvm.memset." hs (by decide) (by decide) (by decide) (by rw [hs]; rfl)
  · have hs := (startsWith_iff _ _).mpr h
    exact key c!"llvm.memmove." hs (by decide) (by decide) (by decide) (by rw [hs]; simp)

theorem mem_noop (f : Str) : noopIntrinsics.contains f = true ↔
    f = c!"llvm.dbg.value" ∨ f = c!"llvm.dbg.declare" ∨ f = c!"llvm.assume" ∨ f = c!"llvm.trap" := by
  simp [noopIntrinsics]

theorem any_lifetime (f : Str) : lifetimePrefixes.any (startsWith f) = true ↔
    c!"llvm.lifetime.start" <+: f ∨ c!"llvm.lifetime.end" <+: f := by
  simp only [lifetimePrefixes, List.any_cons, List.any_nil, Bool.or_false, Bool.or_eq_true,
    startsWith_iff]

theorem any_inline (f : Str) : inlinePrefixes.any (startsWith f) = true ↔ InlineIntrinsic f := by
  have e : inlinePrefixes = [c!"abs", c!"bswap", c!"ctlz", c!"cttz", c!"sadd.with.overflow",
      c!"smul.with.overflow", c!"ssub.with.overflow", c!"uadd.sat", c!"uadd.with.overflow", c!"umax",
      c!"umin", c!"umul.with.overflow", c!"usub.sat", c!"usub.with.overflow", c!"vector.reduce",
      c!"x86.sse2.pmovmskb"].map (fun op => c!"llvm." ++ op ++ c!".") := by decide
  rw [e, List.any_eq_true]
  unfold InlineIntrinsic
  constructor
  · rintro ⟨x, hx, hs⟩
    obtain ⟨op, hop, rfl⟩ := List.mem_map.mp hx
    exact ⟨op, hop, (startsWith_iff _ _).mp hs⟩
  · rintro ⟨op, hop, hs⟩
    exact ⟨_, List.mem_map_of_mem hop, (startsWith_iff _ _).mpr hs⟩

theorem noCode_iff (f : Str) : NoCodeIntrinsic f ↔
    noopIntrinsics.contains f = true ∨ lifetimePrefixes.any (startsWith f) = true ∨
    (f == c!"llvm.x86.sse2.pause") = true ∨ (f == c!"llvm.experimental.noalias.scope.decl") = true := by
  rw [mem_noop, any_lifetime, beq_iff_eq, beq_iff_eq]
  unfold NoCodeIntrinsic
  generalize (f = c!"llvm.dbg.value") = a1
  generalize (f = c!"llvm.dbg.declare") = a2
  generalize (f = c!"llvm.assume") = a3
  generalize (f = c!"llvm.trap") = a4
  generalize (f = c!"llvm.x86.sse2.pause") = a5
  generalize (f = c!"llvm.experimental.noalias.scope.decl") = a6
  generalize (c!"llvm.lifetime.start" <+: f) = a7
  generalize (c!"llvm.lifetime.end" <+: f) = a8
  tauto

/-- Names handled by `classify` without an effect. -/
theorem classify_ignored {t : Bool} {f : Str} : classify t f = .ignored ↔
    NoCodeIntrinsic f ∨ (t = true ∧ IsIntrinsic f) ∨ InlineIntrinsic f := by
  have h4 : startsWith f c!"llvm." = true ↔ IsIntrinsic f := startsWith_iff _ _
  -- names of inline intrinsics and of the two single ones are no memory intrinsics
  have hno : inlinePrefixes.any (startsWith f) = true ∨ (f == c!"llvm.x86.sse2.pause") = true ∨
      (f == c!"llvm.experimental.noalias.scope.decl") = true →
      startsWith f c!"llvm.memcpy." = false ∧
      (startsWith f c!"llvm.memset." || startsWith f c!"llvm.memmove.") = false := by
    intro hc
    have hmem : startsWith f c!"llvm.mem" = false := by
      rcases hc with hc | hc | hc
      · obtain ⟨q, hq, hs⟩ := List.any_eq_true.mp hc
        have hall : inlinePrefixes.all (fun q => !startsWith q c!"llvm.mem" &&
          !startsWith c!"llvm.mem" q) = true := by decide
        have := List.all_eq_true.mp hall q hq
        simp only [Bool.and_eq_true, Bool.not_eq_true'] at this
        exact not_startsWith hs this
      · rw [beq_iff_eq.mp hc]; decide
      · rw [beq_iff_eq.mp hc]; decide
    have hlong : ∀ q : Str, startsWith q c!"llvm.mem" = true → startsWith f q = false := by
      intro q hq
      rw [← Bool.not_eq_true]
      intro hf
      have : startsWith f c!"llvm.mem" = true := by
        rw [startsWith_iff] at *
        exact hq.trans hf
      rw [hmem] at this
      simp at this
    rw [hlong c!"llvm.memcpy." (by decide), hlong c!"llvm.memset." (by decide),
      hlong c!"llvm.memmove." (by decide)]
    exact ⟨rfl, rfl⟩
  rw [noCode_iff, ← any_inline, ← h4]
  unfold classify
  generalize inlinePrefixes.any (startsWith f) = b1 at *
  generalize (f == c!"llvm.x86.sse2.pause") = b2 at *
  generalize (f == c!"llvm.experimental.noalias.scope.decl") = b3 at *
  generalize noopIntrinsics.contains f = b4 at *
  generalize lifetimePrefixes.any (startsWith f) = b5 at *
  generalize startsWith f c!"llvm." = b6 at *
  generalize startsWith f c!"llvm.memcpy." = b7 at *
  generalize (startsWith f c!"llvm.memset." || startsWith f c!"llvm.memmove.") = b8 at *
  clear h4
  revert hno
  cases b1 <;> cases b2 <;> cases b3 <;> cases b4 <;> cases b5 <;> cases b6 <;> cases b7 <;>
    cases b8 <;> cases t <;> simp

theorem canonicalOf_iff {ss : List (Str × Nat)} {names : List Str} {c : Str} :
    canonicalOf ss names = .ok c ↔
      names.find? (fun n => (mget n ss).isSome) = some c ∨
      (names.find? (fun n => (mget n ss).isSome) = none ∧ names.head? = some c) := by
  match names with
  | [] => simp [canonicalOf]
  | [n] =>
    simp only [canonicalOf, Except.ok.injEq, List.head?_cons, Option.some.injEq]
    by_cases h : (mget n ss).isSome = true
    · simp [h]
    · simp [h]
  | n :: m :: rest =>
    simp only [canonicalOf, List.head?_cons, Option.some.injEq]
    cases (n :: m :: rest).find? (fun n => (mget n ss).isSome) with
    | some x => simp
    | none => simp

theorem principal_iff {p : Program} {i : Nat} {e : Nat × Sym} {c : Str} (he : p.defined[i]? = some e)
    (hc : canonicalOf p.stackSizes (realNames e.2) = .ok c) (n : Str) :
    p.Principal i n ↔ n = c := by
  have hreal : ∀ n, isTag n = false ↔ ¬ IsMappingSymbol n := by
    intro n
    rw [← isTag_iff]
    simp
  have hrep : ∀ n, (mget n p.stackSizes).isSome = true ↔ ∃ k, p.Reported n k :=
    fun n => Option.isSome_iff_exists
  have key : p.Principal i n ↔ canonicalOf p.stackSizes (realNames e.2) = .ok n := by
    rw [canonicalOf_iff]
    unfold realNames
    rw [List.find?_filter, List.head?_filter, List.find?_eq_some_iff_append,
      List.find?_eq_some_iff_append, List.find?_eq_none]
    constructor
    · rintro ⟨a, s, pre, post, h1, h2, h3, h4⟩
      rw [he] at h1
      have := Option.some.inj h1
      subst this
      simp only at h2 ⊢
      rcases h4 with ⟨⟨k, h4⟩, h5⟩ | ⟨h4, h5⟩
      · left
        refine ⟨?_, pre, post, h2, ?_⟩
        · simp [(hreal n).mpr h3, (hrep n).mpr ⟨k, h4⟩]
        · intro n' hn'
          rcases h5 n' hn' with h | h
          · simp [(isTag_iff n').mpr h]
          · have : ¬ (mget n' p.stackSizes).isSome = true := fun hx =>
              let ⟨k, hk⟩ := (hrep n').mp hx; h k hk
            simp [this]
      · right
        refine ⟨?_, by simp [(hreal n).mpr h3], pre, post, h2, ?_⟩
        · intro n' hn'
          simp only [Bool.not_eq_true', decide_eq_true_eq, not_and]
          intro ht hx
          obtain ⟨k, hk⟩ := (hrep n').mp hx
          exact h4 n' ⟨hn', (hreal n').mp ht⟩ k hk
        · intro n' hn'
          simp [(isTag_iff n').mpr (h5 n' hn')]
    · rintro (⟨h1, pre, post, h2, h3⟩ | ⟨h0, h1, pre, post, h2, h3⟩)
      · simp only [Bool.not_eq_true', decide_eq_true_eq] at h1
        refine ⟨e.1, e.2, pre, post, he, h2, (hreal n).mp h1.1, Or.inl ⟨(hrep n).mp h1.2, ?_⟩⟩
        intro n' hn'
        have := h3 n' hn'
        by_cases ht : isTag n' = true
        · exact Or.inl ((isTag_iff n').mp ht)
        · right
          intro k hk
          have hx := (hrep n').mpr ⟨k, hk⟩
          simp [ht, hx] at this
      · simp only [Bool.not_eq_true'] at h1
        refine ⟨e.1, e.2, pre, post, he, h2, (hreal n).mp h1, Or.inr ⟨?_, ?_⟩⟩
        · intro n' hn' k hk
          have := h0 n' hn'.1
          have hx := (hrep n').mpr ⟨k, hk⟩
          simp [(hreal n').mpr hn'.2, hx] at this
        · intro n' hn'
          have := h3 n' hn'
          rw [← isTag_iff]
          simpa using this
  rw [key, hc]
  simp [eq_comm]

section facts

variable {demangle : Str → Str} {ord : HashOrder} {search : TagSearch} {p : Program} {elf : Elf}
  {cs ext : List Str} {st0 stIr st : Build} {g : Graph}

theorem IrFacts.canon_of_live (h : IrFacts demangle p cs ext st0 stIr) {f : Str} {j : Nat}
    (hl : p.LiveAt f j) : ∃ c, cs[j]? = some c ∧ mget f st0.aliases = some c ∧
      (cs ++ ext)[j]? = some c := by
  obtain ⟨e, he, _⟩ := (liveAt_iff p f j).mp hl
  obtain ⟨c, hc⟩ := h.sym.idx_lt he
  refine ⟨c, hc, (h.live f c j hc).mpr hl, ?_⟩
  rw [List.getElem?_append_left (List.getElem?_eq_some_iff.mp hc).1]
  exact hc

theorem IrFacts.principal (h : IrFacts demangle p cs ext st0 stIr) {n : Str} {j : Nat} :
    p.Principal j n ↔ cs[j]? = some n := by
  constructor
  · intro hp
    have hp' := hp
    obtain ⟨a, s, _, _, he, _⟩ := hp'
    obtain ⟨c, hc⟩ := h.sym.idx_lt he
    rw [(principal_iff he (h.sym.canon j _ c he hc) n).mp hp, hc]
  · intro hc
    obtain ⟨e, he, _⟩ := (liveAt_iff p n j).mp (h.self n j hc)
    exact (principal_iff he (h.sym.canon j _ n he hc) n).mpr rfl

theorem IrFacts.inj (h : IrFacts demangle p cs ext st0 stIr) {name : Str} {i j : Nat}
    (hi : (cs ++ ext)[i]? = some name) (hj : (cs ++ ext)[j]? = some name) : i = j :=
  h.ir.shape.idx.inj hi hj

/-- Edges of the final graph on a target without machine code analysis. -/
theorem RunFacts.edge_cases (h : RunFacts demangle ord search p elf cs ext st0 stIr st g)
    {a b : Nat} (hab : (a, b) ∈ g.edges) :
    (a, b) ∈ st.g.edges ∨ ∃ k void e, e ∈ st.indirects ∧ e.2.called = true ∧
      st.g.nodes.length ≤ k ∧ (k = a ∨ k = b) ∧
      DashedFor st.hasUntypedSymbols st.fmts void e g k := by
  obtain ⟨void, out⟩ := h.void
  obtain ⟨es, h1, h2⟩ := out.edges
  have hmem : ∀ e, e ∈ ord.perm _ 1 st.indirects ↔ e ∈ st.indirects :=
    fun e => (ord.isPerm _ _ _).mem_iff
  have hab' := hab
  rw [h1, List.mem_append] at hab
  rcases hab with hab | hab
  · exact Or.inl hab
  · right
    obtain ⟨h3, h4, h5⟩ := h2 _ hab
    simp only at h3 h4 h5
    rcases h3 with h3 | h3
    · rcases out.new a h3 h4 with ⟨e, he, hc, hd⟩ | ⟨_, _, hno, _⟩
      · exact ⟨a, void, e, (hmem e).mp he, hc, h3, Or.inl rfl, hd⟩
      · exact absurd hab' (hno b)
    · rcases out.new b h3 h5 with ⟨e, he, hc, hd⟩ | ⟨_, _, _, k', _, hk', ⟨e, he, hc, hd⟩, hp⟩
      · exact ⟨b, void, e, (hmem e).mp he, hc, h3, Or.inr rfl, hd⟩
      · exact ⟨k', void, e, (hmem e).mp he, hc, hk', Or.inl (hp a hab').symm, hd⟩

theorem RunFacts.wf (h : RunFacts demangle ord search p elf cs ext st0 stIr st g) : g.WF := by
  obtain ⟨void, out⟩ := h.void
  obtain ⟨es, h1, h2⟩ := out.edges
  have hl := h.len
  intro x hx
  rw [h1, List.mem_append] at hx
  rcases hx with hx | hx
  · have := h.machine.wf x hx
    have hm := h.machine.len
    omega
  · exact (h2 x hx).2

/-- No node has a max before the analysis. -/
theorem RunFacts.max_none (h : RunFacts demangle ord search p elf cs ext st0 stIr st g) {k : Nat}
    {nd : Node} (hk : g.nodes[k]? = some nd) : nd.max = none := by
  obtain ⟨void, out⟩ := h.void
  have hlt := (List.getElem?_eq_some_iff.mp hk).1
  by_cases h1 : k < (cs ++ ext).length
  · obtain ⟨name, hn⟩ : ∃ name, (cs ++ ext)[k]? = some name := ⟨_, List.getElem?_eq_getElem h1⟩
    obtain ⟨nd', h2, _, _, h3⟩ := h.node hn
    rw [hk] at h2
    rw [Option.some.inj h2]
    exact h3
  · by_cases h2 : k < st.g.nodes.length
    · have h3 := h.machine.new k (by omega) h2
      obtain ⟨ns, hn⟩ := out.nodes
      rw [hn, List.getElem?_append_left h2, h3] at hk
      rw [← Option.some.inj hk]
      rfl
    · rcases out.new k (by omega) hlt with ⟨e, _, _, hd⟩ | ⟨_, h3, _⟩
      · rw [hd.node] at hk
        rw [← Option.some.inj hk]
        rfl
      · rw [h3] at hk
        rw [← Option.some.inj hk]
        rfl

/-- On targets without machine code analysis, local usages are reported sizes. -/
theorem RunFacts.loc_reported (h : RunFacts demangle ord search p elf cs ext st0 stIr st g)
    (other : p.target.isThumb = false) {k : Nat} {n : Nat} (hk : g.locOf k = .exact n) :
    n = 0 ∨ ∃ name, p.Reported name n := by
  have hq := h.quiet other
  obtain ⟨void, out⟩ := h.void
  unfold Graph.locOf at hk
  cases hnd : g.nodes[k]? with
  | none => rw [hnd] at hk; simp at hk
  | some nd =>
    rw [hnd] at hk
    simp only at hk
    have hlt := (List.getElem?_eq_some_iff.mp hnd).1
    by_cases h1 : k < st.g.nodes.length
    · obtain ⟨ns, hn⟩ := out.nodes
      rw [hn, List.getElem?_append_left h1, hq, h.ir.ir.shape.nodes, h.ir.sym.nodes] at hnd
      have := List.mem_of_getElem? hnd
      simp only [List.mem_append, List.mem_map] at this
      rcases this with ⟨c, _, rfl⟩ | ⟨c, _, rfl⟩
      · right
        refine ⟨c, ?_⟩
        unfold mkNode at hk
        unfold Program.Reported
        cases hm : mget c p.stackSizes with
        | none => rw [hm] at hk; simp at hk
        | some v =>
          rw [hm] at hk
          simp at hk
          rw [hk]
      · simp [mkNode] at hk
    · rcases out.new k (by omega) hlt with ⟨e, _, _, hd⟩ | ⟨_, h3, _⟩
      · rw [hd.node] at hnd
        have := Option.some.inj hnd
        subst this
        left
        simp [dashedNode, mkNode] at hk
        exact hk.symm
      · rw [h3] at hnd
        have := Option.some.inj hnd
        subst this
        simp [questionNode, mkNode] at hk

theorem RunFacts.localsU64 (h : RunFacts demangle ord search p elf cs ext st0 stIr st g)
    (other : p.target.isThumb = false) (hu : ∀ n k, p.Reported n k → k < 2 ^ 64) : g.LocalsU64 := by
  intro i
  cases hl : g.locOf i with
  | unknown => simp [Local.bytes]
  | exact n =>
    simp only [Local.bytes]
    rcases h.loc_reported other hl with rfl | ⟨name, hn⟩
    · decide
    · exact hu _ _ hn

end facts

end CallStack
