import Verif.Proof.MachineRun

/-!
When the pass over the machine code goes through.
-/

namespace CallStack

theorem callAddr_of {caller addr j : Nat} {st : Build} (h : Resolves st addr j) :
    callAddr caller st addr = .ok (st.call caller j) := by
  obtain ⟨name, h1, h2⟩ := h
  unfold callAddr
  rw [h1]
  simp only [h2]

theorem resolves_call (st : Build) (a b addr j : Nat) :
    Resolves (st.call a b) addr j ↔ Resolves st addr j := by
  obtain ⟨_, f2, _, _, _, _, _, _, f9, _⟩ := call_frame st a b
  unfold Resolves
  rw [f2, f9]

theorem callAddrs_of (caller : Nat) (addrs : List Nat) : ∀ {st : Build},
    (∀ addr ∈ addrs, ∃ j, Resolves st addr j) → ∃ st', callAddrs caller st addrs = .ok st' := by
  induction addrs with
  | nil => exact fun _ => ⟨_, rfl⟩
  | cons a addrs ih =>
    intro st h
    obtain ⟨j, hj⟩ := h a List.mem_cons_self
    obtain ⟨st', hs⟩ := ih (st := st.call caller j) (fun x hx => by
      obtain ⟨k, hk⟩ := h x (List.mem_cons_of_mem _ hx)
      exact ⟨k, (resolves_call st caller j x k).mpr hk⟩)
    exact ⟨st', by simp only [callAddrs, callAddr_of hj]; exact hs⟩

theorem useThumb_of {st : Build} {r : ThumbState} {canonical : Str} {address size i : Nat} {nd : Node}
    {loc : Local} (hi : mget canonical st.indices = some i) (hnd : st.g.nodes[i]? = some nd)
    (hloc : overrideLocal nd.loc r.stack r.modifiesSp (st.asmFns.contains canonical)
      (isOutlined canonical) = .ok loc)
    (hres : ∀ addr ∈ calledAddrs r address size, ∃ j, Resolves st addr j) :
    ∃ st', useThumb r canonical address size st = .ok st' := by
  have key : ∀ st1 : Build, st1.addr2name = st.addr2name → st1.indices = st.indices →
      ∃ st', (match blLoop i address st1 r.bls with
        | .error e => Except.error e
        | .ok st => bLoop i address size st r.bs) = Except.ok st' := by
    intro st1 h1 h2
    simp only [blLoop_eq, bLoop_eq]
    have := callAddrs_of i (calledAddrs r address size) (st := st1) (fun a ha => by
      obtain ⟨j, hj⟩ := hres a ha
      exact ⟨j, by unfold Resolves at hj ⊢; rw [h1, h2]; exact hj⟩)
    rw [calledAddrs, callAddrs_append] at this
    exact this
  unfold useThumb
  have hl : st.g.localAt i = .ok nd.loc := by
    unfold Graph.localAt
    rw [hnd]
  simp only [hi, hl, hloc]
  cases !st.defined.contains canonical && r.indirect
  · exact key _ rfl rfl
  · exact key _ rfl rfl

/-- The step for one symbol goes through. -/
theorem machineStep_of {st : Build} {search : TagSearch} {v7 : Bool} {tags : List (Nat × Tag)}
    {stext : Nat} {text : List Nat} {e : Nat × Sym} {c : Str} {i : Nat} {r : ThumbState} {nd : Node}
    {loc : Local} (hn : NodeOf st e c i) (ha : Analyzed search v7 tags stext text e r)
    (hnd : st.g.nodes[i]? = some nd)
    (hloc : overrideLocal nd.loc r.stack r.modifiesSp (st.asmFns.contains c) (isOutlined c) = .ok loc)
    (hres : ∀ addr ∈ calledAddrs r (e.1 % 2 ^ 32) (sizeOf' search tags e), ∃ j, Resolves st addr j) :
    ∃ st', machineStep search v7 tags stext text st e = .ok st' := by
  obtain ⟨first, rest, h1, h2, h3⟩ := hn
  obtain ⟨bytes, h4, h5⟩ := ha
  unfold sizeOf' at h4
  unfold machineStep
  simp only [h1, h2, h4, h5]
  exact useThumb_of h3 hnd hloc hres

theorem NodeOf.inv {m : Nat} {st0 st : Build} (inv : MachineInv m st0 st) {e : Nat × Sym} {c : Str}
    {i : Nat} (h : NodeOf st0 e c i) : NodeOf st e c i := by
  unfold NodeOf at h ⊢
  rw [inv.aliases, inv.indices]
  exact h

theorem machineLoop_of {m : Nat} {st0 : Build} {search : TagSearch} {v7 : Bool}
    {tags : List (Nat × Tag)} {stext : Nat} {text : List Nat}
    (hidx : ∀ (n : Str) (k : Nat), mget n st0.indices = some k → k < m) (es : List (Nat × Sym)) :
    ∀ {st : Build}, MachineInv m st0 st →
      es.Pairwise (fun e e' => ∀ c i c' i', NodeOf st0 e c i → NodeOf st0 e' c' i' → i ≠ i') →
      (∀ e ∈ es, ∃ c i r nd loc, NodeOf st0 e c i ∧ Analyzed search v7 tags stext text e r ∧
        st.g.nodes[i]? = some nd ∧
        overrideLocal nd.loc r.stack r.modifiesSp (st0.asmFns.contains c) (isOutlined c) = .ok loc ∧
        ∀ addr ∈ calledAddrs r (e.1 % 2 ^ 32) (sizeOf' search tags e), ∃ j, Resolves st0 addr j) →
      ∃ st', machineLoop search v7 tags stext text st es = .ok st' := by
  induction es with
  | nil => exact fun _ _ _ => ⟨_, rfl⟩
  | cons e es ih =>
    intro st inv hp h
    rw [List.pairwise_cons] at hp
    obtain ⟨c, i, r, nd, loc, h1, h2, h3, h4, h5⟩ := h e List.mem_cons_self
    obtain ⟨st1, hs⟩ := machineStep_of (h1.inv inv) h2 h3 (by rw [inv.asmFns]; exact h4)
      (fun a ha => by
        obtain ⟨j, hj⟩ := h5 a ha
        exact ⟨j, (inv.resolves a j).mpr hj⟩)
    obtain ⟨inv1, c', i', r', n1, _, hu⟩ := machineStep_spec inv hidx hs
    obtain ⟨rfl, rfl⟩ := h1.unique n1
    obtain ⟨st', hs'⟩ := ih inv1 hp.2 (fun e' he' => by
      obtain ⟨c', i', r', nd', loc', k1, k2, k3, k4, k5⟩ := h e' (List.mem_cons_of_mem _ he')
      refine ⟨c', i', r', nd', loc', k1, k2, ?_, k4, k5⟩
      have hne : i ≠ i' := hp.1 e' he' c i c' i' h1 k1
      rw [hu.other i' (Ne.symm hne) (List.getElem?_eq_some_iff.mp k3).1]
      exact k3)
    exact ⟨st', by unfold machineLoop; rw [hs]; exact hs'⟩

end CallStack
