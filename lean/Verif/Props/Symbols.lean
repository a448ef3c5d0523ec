import Verif.Proof.Build
import Verif.Proof.CallGraph
import Verif.Proof.Prepare
import Verif.Proof.Shared

/-!
Properties C25-C28: names, addresses and nodes of the live functions (main.rs:397-543).
-/

namespace CallStack

/-! ### Example program -/

/-- Three live functions; the first has two names, only the second of which has a stack size. -/
def exSymbols : Program :=
  { target := .other
    defined := [(8, ⟨[c!"$x", c!"memcpy", c!"__aeabi_memcpy"], 4⟩), (16, ⟨[c!"main"], 8⟩),
      (32, ⟨[c!"start"], 8⟩)]
    undefined := []
    stackSizes := [(c!"__aeabi_memcpy", 24), (c!"main", 8)]
    defines := []
    declares := [] }

/-- Two live functions at different addresses with the same name, as local symbols may have. -/
def exSameName : Program :=
  { target := .other
    defined := [(8, ⟨[c!"helper"], 4⟩), (16, ⟨[c!"helper"], 8⟩)]
    undefined := []
    stackSizes := []
    defines := []
    declares := [] }

/-! ### C25 -/

/-- **C25** Every name of a live function leads, through the alias table and the index table, to the
node at the position of that function. The name of that node is a name of the function, one with a
stack size if any of its names has one. Names of different functions therefore lead to different
nodes, and other names lead nowhere. -/
theorem C25_aliases {demangle : Str → Str} {p : Program} (once : p.NamesOnce) {st : Build}
    (h : symPass demangle p Build.empty p.defined = .ok st) :
    (∀ n i, p.LiveAt n i → ∃ c nd, mget n st.aliases = some c ∧ mget c st.indices = some i ∧
      st.g.nodes[i]? = some nd ∧ nd.name = c ∧ p.LiveAt c i ∧
      ((∃ n' k, p.LiveAt n' i ∧ p.Reported n' k) → ∃ k, p.Reported c k)) ∧
    (∀ n, p.NotLive n → mget n st.aliases = none) := by
  obtain ⟨cs, inv⟩ := symPass_inv p.defined (SymInv.empty demangle p) h
  simp only [List.nil_append] at inv
  refine ⟨?_, fun n hn => (inv.dead n).mpr hn⟩
  intro n i hi
  obtain ⟨e, he, _⟩ := (liveAt_iff p n i).mp hi
  obtain ⟨c, hc⟩ := inv.idx_lt he
  refine ⟨c, mkNode c (mget c p.stackSizes) false, (inv.live once hc).mpr hi,
    (inv.indexed once c i).mpr hc, ?_, rfl, inv.self hc, ?_⟩
  · rw [inv.nodes, List.getElem?_map, hc]
    rfl
  · rintro ⟨n', k, h1, h2⟩
    obtain ⟨e', he', hn'⟩ := (liveAt_iff p n' i).mp h1
    rw [he] at he'
    have := Option.some.inj he'
    subst this
    have h3 := (canonicalOf_spec (inv.canon i e c he hc)).2 ⟨n', hn', by
      unfold Program.Reported at h2
      rw [h2]; rfl⟩
    exact Option.isSome_iff_exists.mp h3

example : ∃ st, symPass id exSymbols Build.empty exSymbols.defined = .ok st ∧
    mget c!"memcpy" st.aliases = some c!"__aeabi_memcpy" ∧
    mget c!"__aeabi_memcpy" st.indices = some 0 ∧
    mget c!"start" st.indices = some 2 := ⟨_, rfl, by decide, by decide, by decide⟩

/-- The hypothesis that no name is given to two addresses is needed: with two functions of the same
name, both resolve to the node of the later one. -/
theorem C25_same_name_merged :
    ∃ st, symPass id exSameName Build.empty exSameName.defined = .ok st ∧
      exSameName.LiveAt c!"helper" 0 ∧ mget c!"helper" st.aliases = some c!"helper" ∧
      mget c!"helper" st.indices = some 1 ∧ st.g.nodes.length = 2 := by
  refine ⟨_, rfl, ⟨8, ⟨[c!"helper"], 4⟩, rfl, by simp, ?_⟩, by decide, by decide, by decide⟩
  rw [← isTag_iff]
  decide

/-! ### C26 -/

/-- **C26** On thumb targets: if no two addresses differ only in the lowest bit, then clearing that
bit keeps every function, in the same order, at its own even address. -/
theorem C26_thumb_bit {defined : List (Nat × Sym)}
    (addressed : defined.Pairwise (fun x y => x.1 < y.1))
    (apart : ∀ x ∈ defined, ∀ y ∈ defined, x.1 < y.1 → ¬ (x.1 % 2 = 0 ∧ y.1 = x.1 + 1)) :
    clearThumb true defined = defined.map (fun e => (e.1 - e.1 % 2, e.2)) ∧
    (clearThumb true defined).Pairwise (fun x y => x.1 < y.1) ∧
    clearThumb false defined = defined := by
  have hp : defined.Pairwise (fun x y => x.1 / 2 < y.1 / 2) := by
    refine List.Pairwise.imp_of_mem ?_ addressed
    intro x y hx hy hlt
    have := apart x hx y hy hlt
    omega
  have heq : clearThumb true defined = defined.map (fun e => (e.1 - e.1 % 2, e.2)) := by
    unfold clearThumb
    rw [if_pos rfl, clearThumb_fold defined [] (by simp) (hp.imp (by intro x y h; omega))]
    simp only [List.nil_append]
    apply List.map_congr_left
    intro e _
    simp only [Prod.mk.injEq, and_true]
    omega
  refine ⟨heq, ?_, rfl⟩
  rw [heq, List.pairwise_map]
  refine hp.imp ?_
  intro x y h
  simp only
  omega

example : clearThumb true [(9, ⟨[c!"a"], 2⟩), (13, ⟨[c!"b"], 4⟩), (20, ⟨[c!"c"], 4⟩)] =
    [(8, ⟨[c!"a"], 2⟩), (12, ⟨[c!"b"], 4⟩), (20, ⟨[c!"c"], 4⟩)] := by decide

/-- Without the hypothesis a function can be lost. -/
theorem C26_collision :
    clearThumb true [(8, ⟨[c!"a"], 2⟩), (9, ⟨[c!"b"], 4⟩)] = [(8, ⟨[c!"b"], 4⟩)] := by decide

/-! ### C27 -/

/-- `s` has exactly one occurrence of `@@`, between `name` and `version`. -/
def OnlyVersion (s name version : Str) : Prop :=
  s = name ++ c!"@@" ++ version ∧ ∀ x y, s = x ++ c!"@@" ++ y → x = name

/-- **C27** -/
theorem C27_version_suffix :
    (∀ s name version, OnlyVersion s name version → stripVersion s = name) ∧
    (∀ s, ¬ c!"@@" <:+: s → stripVersion s = s) := by
  constructor
  · rintro s name version ⟨h1, h2⟩
    unfold stripVersion
    cases hr : rsplitAt2 s with
    | none => exact absurd h1 (rsplitAt2_none hr _ _)
    | some ab =>
      obtain ⟨a, b⟩ := ab
      have ha := h2 a b (rsplitAt2_some hr)
      subst ha
      simp only
      cases hr2 : rsplitAt2 a with
      | none => rfl
      | some cd =>
        obtain ⟨c, d⟩ := cd
        have h3 := rsplitAt2_some hr2
        have h4 := h2 c (d ++ c!"@@" ++ version) (by rw [h1, h3]; simp)
        rw [h4] at h3
        have := congrArg List.length h3
        simp at this
  · intro s hs
    unfold stripVersion
    cases hr : rsplitAt2 s with
    | none => rfl
    | some ab =>
      obtain ⟨a, b⟩ := ab
      exact absurd ⟨a, b, (rsplitAt2_some hr).symm⟩ hs

example : stripVersion c!"memcpy@@GLIBC_2.14" = c!"memcpy" ∧ stripVersion c!"memcpy" = c!"memcpy" ∧
    stripVersion c!"a@b" = c!"a@b" := by decide

/-- With two separators the middle part is kept. -/
theorem C27_two_separators : stripVersion c!"a@@b@@c" = c!"b" := by decide

/-! ### C28 -/

/-- **C28** The graph after reading the symbols has exactly one node per live function, in address
order, and no edge. The node of a function bears one of its names, its local usage is the compiler's
figure for it, or unknown if there is none. -/
theorem C28_one_node_per_function {demangle : Str → Str} {p : Program} {st : Build}
    (h : symPass demangle p Build.empty p.defined = .ok st) :
    st.g.nodes.length = p.defined.length ∧ st.g.edges = [] ∧
    ∀ i a s, p.defined[i]? = some (a, s) → ∃ nd, st.g.nodes[i]? = some nd ∧
      s.Named nd.name ∧ nd.dashed = false ∧ nd.max = none ∧
      (∀ k, nd.loc = .exact k ↔ p.Frame i k) := by
  obtain ⟨cs, inv⟩ := symPass_inv p.defined (SymInv.empty demangle p) h
  simp only [List.nil_append] at inv
  refine ⟨by rw [inv.nodes]; simp [inv.len], inv.gedges, ?_⟩
  intro i a s he
  obtain ⟨c, hc⟩ := inv.idx_lt he
  have hcan := inv.canon i _ c he hc
  refine ⟨mkNode c (mget c p.stackSizes) false, ?_, ?_, rfl, rfl, ?_⟩
  · rw [inv.nodes, List.getElem?_map, hc]
    rfl
  · exact (mem_realNames s c).mp (canonicalOf_spec hcan).1
  · intro k
    rw [frame_iff he hcan]
    unfold mkNode
    cases mget c p.stackSizes with
    | none => simp
    | some n => simp

/-- **C28** The pass does not abort if every symbol has a name that is no mapping symbol. -/
theorem C28_no_abort (demangle : Str → Str) {p : Program}
    (named : ∀ e ∈ p.defined, ∃ n, e.2.Named n) :
    ∃ st, symPass demangle p Build.empty p.defined = .ok st := by
  apply symPass_ok
  intro e he
  obtain ⟨n, hn⟩ := named e he
  intro h0
  have := (mem_realNames e.2 n).mpr hn
  rw [h0] at this
  simp at this

/-- **C28** On a target without machine code analysis the nodes are still there, at the same place, in
the finished call graph. -/
theorem C28_in_call_graph {demangle : Str → Str} {ord : HashOrder} {search : TagSearch} {p : Program}
    {elf : Elf} {st : Build} {g : Graph} (other : p.target = .other)
    (h : callGraph demangle ord search p elf = .ok (st, g)) :
    ∀ i a s, p.defined[i]? = some (a, s) → ∃ nd, g.nodes[i]? = some nd ∧
      s.Named nd.name ∧ nd.dashed = false ∧ nd.max = none ∧
      (∀ k, nd.loc = .exact k ↔ p.Frame i k) := by
  intro i a s he
  obtain ⟨cs, st0, stIr, f⟩ := callGraph_shared h
  have hq : st = stIr := by
    have := f.pass
    simp only [machinePass, other, Target.isThumb, Bool.false_eq_true, if_false, Except.ok.injEq] at this
    exact this.symm
  have inv := f.sym
  obtain ⟨c, hc⟩ := inv.idx_lt he
  have hcan := inv.canon i _ c he hc
  have hlt := (List.getElem?_eq_some_iff.mp hc).1
  refine ⟨mkNode c (mget c p.stackSizes) false, ?_, ?_, rfl, rfl, ?_⟩
  · obtain ⟨ns, hn⟩ := f.out.nodes
    obtain ⟨ext, he'⟩ := f.ir.nodes
    rw [hn, hq, he', inv.nodes, List.append_assoc,
      List.getElem?_append_left (by simpa using hlt), List.getElem?_map, hc]
    rfl
  · exact (mem_realNames s c).mp (canonicalOf_spec hcan).1
  · intro k
    rw [frame_iff he hcan]
    unfold mkNode
    cases mget c p.stackSizes with
    | none => simp
    | some n => simp

example : ∃ st, symPass id exSymbols Build.empty exSymbols.defined = .ok st ∧
    st.g.nodes = [mkNode c!"__aeabi_memcpy" (some 24) false, mkNode c!"main" (some 8) false,
      mkNode c!"start" none false] := ⟨_, rfl, by decide⟩

example : exSymbols.Frame 0 24 := by
  refine ⟨8, _, [c!"$x", c!"memcpy"], c!"__aeabi_memcpy", [], rfl, rfl, ?_, rfl, ?_⟩
  · rw [← isTag_iff]; decide
  · intro n' hn'
    simp only [List.mem_cons, List.not_mem_nil, or_false] at hn'
    rcases hn' with rfl | rfl
    · exact Or.inl (Or.inr (Or.inr (Or.inl rfl)))
    · right
      intro k hk
      simp [Program.Reported, exSymbols, mget] at hk

end CallStack
