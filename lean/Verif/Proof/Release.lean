import Verif.Model.Release
import Verif.Proof.Words

/-!
The run with machine words follows the run of `Model/Run`, unless a sum of stack usages overflows.
-/

namespace CallStack

/-- `y` is what `x` is, up to the kind of panic, unless `x` is an overflow. -/
def Follows {α : Type} (x y : Except Panic α) : Prop := x ≠ .error .overflow → y.toOption = x.toOption

theorem Follows.rfl {α : Type} {x : Except Panic α} : Follows x x := fun _ => Eq.refl _

theorem Follows.of_eq {α : Type} {x y : Except Panic α} (h : y.toOption = x.toOption) : Follows x y :=
  fun _ => h

theorem Follows.bind {α β : Type} {x y : Except Panic α} {f f' : α → Except Panic β} (h : Follows x y)
    (hf : ∀ a, x = .ok a → Follows (f a) (f' a)) : Follows (x.bind f) (y.bind f') := by
  intro hne
  cases x with
  | error e =>
    have h' := h (by intro he; rw [he] at hne; exact hne (Eq.refl _))
    cases y with
    | error e' => exact Eq.refl _
    | ok b => cases h'
  | ok a =>
    have h' := h (by intro he; cases he)
    cases y with
    | error e' => cases h'
    | ok b =>
      cases h'
      exact hf a (Eq.refl _) hne

theorem addU64W_follows (m : Overflow) (a b : Nat) : Follows (addU64 a b) (addU64W m a b) := by
  unfold addU64 addU64W
  split
  · exact .rfl
  · intro h
    exact absurd (Eq.refl _) h

theorem okMax_follows {mk : Nat → Max} {x y : Except Panic Nat} (h : Follows x y) :
    Follows (okMax mk x) (okMax mk y) := by
  have e : ∀ x, okMax mk x = x.bind fun n => .ok (mk n) := by intro x; cases x <;> rfl
  rw [e, e]
  exact h.bind fun _ _ => .rfl

theorem addLocalW_follows (m : Overflow) (x : Max) (l : Local) :
    Follows (x.addLocal l) (x.addLocalW m l) := by
  cases x <;> cases l <;> first | exact .rfl | exact okMax_follows (addU64W_follows _ _ _)

theorem addW_follows (m : Overflow) (x y : Max) : Follows (x.add y) (x.addW m y) := by
  cases x <;> cases y <;> exact okMax_follows (addU64W_follows _ _ _)

theorem nodeStepW_follows (m : Overflow) (g : Graph) (i : Nat) : Follows (nodeStep g i) (nodeStepW m g i) := by
  unfold nodeStep nodeStepW
  cases mapPanic g.maxAt (g.out i) with
  | error e => exact .rfl
  | ok ms =>
    simp only
    cases g.localAt i with
    | error e => exact .rfl
    | ok l =>
      simp only
      cases maxOf ms with
      | none => exact .rfl
      | some mx =>
        have h := (addLocalW_follows m mx l).bind (f := fun x => .ok (g.setMax i x))
          (f' := fun x => .ok (g.setMax i x)) fun _ _ => .rfl
        simp only
        convert h using 1
        · cases mx.addLocal l <;> rfl
        · cases mx.addLocalW m l <;> rfl

theorem cycleStepW_follows (m : Overflow) (g : Graph) (scc : List Nat) :
    Follows (cycleStep g scc) (cycleStepW m g scc) := by
  unfold cycleStep cycleStepW
  cases mapPanic g.localAt scc with
  | error e => exact .rfl
  | ok ls =>
    simp only
    cases maxOf (ls.map Local.toMax) with
    | none => exact .rfl
    | some l0 =>
      simp only
      cases mapPanic g.maxAt ((scc.flatMap g.out).filter (fun n => !scc.contains n)) with
      | error e => exact .rfl
      | ok ms =>
        simp only
        cases maxOf ms with
        | none => exact .rfl
        | some mx =>
          have h := (addW_follows m mx (demote l0)).bind
            (f := fun x => .ok (scc.foldl (fun g i => g.setMax i x) g))
            (f' := fun x => .ok (scc.foldl (fun g i => g.setMax i x) g)) fun _ _ => .rfl
          simp only
          convert h using 1
          · cases mx.add (demote l0) <;> rfl
          · cases mx.addW m (demote l0) <;> rfl

theorem sccStepW_follows (m : Overflow) (g : Graph) (cycles : List (List Nat)) (scc : List Nat) :
    Follows (sccStep g cycles scc) (sccStepW m g cycles scc) := by
  cases scc with
  | nil => exact .rfl
  | cons first rest =>
    unfold sccStep sccStepW
    simp only
    split
    · have h := (cycleStepW_follows m g (first :: rest)).bind
        (f := fun g' => .ok (g', cycles ++ [first :: rest]))
        (f' := fun g' => .ok (g', cycles ++ [first :: rest])) fun _ _ => .rfl
      convert h using 1
      · cases cycleStep g (first :: rest) <;> rfl
      · cases cycleStepW m g (first :: rest) <;> rfl
    · have h := (nodeStepW_follows m g first).bind
        (f := fun g' => .ok (g', cycles))
        (f' := fun g' => .ok (g', cycles)) fun _ _ => .rfl
      convert h using 1
      · cases nodeStep g first <;> rfl
      · cases nodeStepW m g first <;> rfl

theorem sccLoopW_follows (m : Overflow) (sccs : List (List Nat)) : ∀ (g : Graph) (cycles : List (List Nat)),
    Follows (sccLoop g cycles sccs) (sccLoopW m g cycles sccs) := by
  induction sccs with
  | nil => intro g cycles; exact .rfl
  | cons scc sccs ih =>
    intro g cycles
    have h := (sccStepW_follows m g cycles scc).bind
      (f := fun x => sccLoop x.1 x.2 sccs) (f' := fun x => sccLoopW m x.1 x.2 sccs)
      fun x _ => ih x.1 x.2
    unfold sccLoop sccLoopW
    convert h using 1
    · cases sccStep g cycles scc <;> rfl
    · cases sccStepW m g cycles scc <;> rfl

theorem topoLoopW_follows (m : Overflow) (order : List Nat) : ∀ g : Graph,
    Follows (topoLoop g order) (topoLoopW m g order) := by
  induction order with
  | nil => intro g; exact .rfl
  | cons node rest ih =>
    intro g
    have h := (nodeStepW_follows m g node).bind (f := fun x => topoLoop x rest)
      (f' := fun x => topoLoopW m x rest) fun x _ => ih x
    unfold topoLoop topoLoopW
    convert h using 1
    · cases nodeStep g node <;> rfl
    · cases nodeStepW m g node <;> rfl

theorem analyzeMaxW_follows (m : Overflow) (info : Bool) (g : Graph) :
    Follows (analyzeMax info g) (analyzeMaxW m info g) := by
  unfold analyzeMax analyzeMaxW
  split
  · exact .rfl
  · cases isCyclic g.nodes.length g.out with
    | none => exact .rfl
    | some b =>
      cases b with
      | true =>
        simp only
        unfold analyzeCyclic analyzeCyclicW
        cases kosaraju g.nodes.length g.out g.inc with
        | none => exact .rfl
        | some sccs => exact sccLoopW_follows m sccs g []
      | false =>
        simp only
        have h : Follows (analyzeAcyclic g) (analyzeAcyclicW m g) := by
          unfold analyzeAcyclic analyzeAcyclicW
          cases topoOrder g.nodes.length g.inc g.out with
          | none => exact .rfl
          | some order => exact topoLoopW_follows m order g
        have h' := h.bind (f := fun x => .ok (x, ([] : List (List Nat))))
          (f' := fun x => .ok (x, ([] : List (List Nat)))) fun _ _ => .rfl
        convert h' using 1
        · cases analyzeAcyclic g <;> rfl
        · cases analyzeAcyclicW m g <;> rfl

section
variable {m : Overflow} {demangle : Str → Str} {ord : HashOrder} {search : TagSearch} {p : Program}
  {elf : Elf}

theorem callGraphW_eq (placed : elf.Placed m) :
    (callGraphW m demangle ord search p elf).toOption = (callGraph demangle ord search p elf).toOption := by
  unfold callGraphW callGraph
  cases irGraph demangle p with
  | error e => rfl
  | ok st =>
    have h := machinePassW_eq (search := search) (p := p) placed st
    simp only
    cases hx : machinePass search p elf st with
    | error e =>
      rw [hx] at h
      cases hy : machinePassW m search p elf st with
      | error e' => rfl
      | ok b => rw [hy] at h; cases h
    | ok st' =>
      rw [hx] at h
      cases hy : machinePassW m search p elf st with
      | error e' => rw [hy] at h; cases h
      | ok b => rw [hy] at h; cases h; rfl

theorem finalGraphW_follows (placed : elf.Placed m) (start : Option Str) :
    Follows (finalGraph demangle ord search p elf start) (finalGraphW m demangle ord search p elf start) := by
  have h := (Follows.of_eq (callGraphW_eq (demangle := demangle) (ord := ord) (search := search) (p := p)
    placed)).bind
    (f := fun x => (applyStart demangle x.1.indices start x.2).bind fun g =>
      (analyzeMax x.1.hasStackUsageInfo g).bind fun y =>
        (shortenNodes demangle x.1.ambiguous y.1.nodes).bind fun nodes =>
          .ok ({ y.1 with nodes }, y.2))
    (f' := fun x => (applyStart demangle x.1.indices start x.2).bind fun g =>
      (analyzeMaxW m x.1.hasStackUsageInfo g).bind fun y =>
        (shortenNodes demangle x.1.ambiguous y.1.nodes).bind fun nodes =>
          .ok ({ y.1 with nodes }, y.2))
    fun x _ => Follows.rfl.bind fun g _ => (analyzeMaxW_follows m _ g).bind fun y _ => .rfl
  convert h using 1
  · unfold finalGraph
    cases callGraph demangle ord search p elf with
    | error e => rfl
    | ok x =>
      simp only [Except.ok_bind']
      cases applyStart demangle x.1.indices start x.2 with
      | error e => rfl
      | ok g =>
        simp only [Except.ok_bind']
        cases analyzeMax x.1.hasStackUsageInfo g with
        | error e => rfl
        | ok y =>
          simp only [Except.ok_bind']
          cases shortenNodes demangle x.1.ambiguous y.1.nodes <;> rfl
  · unfold finalGraphW
    cases callGraphW m demangle ord search p elf with
    | error e => rfl
    | ok x =>
      simp only [Except.ok_bind']
      cases applyStart demangle x.1.indices start x.2 with
      | error e => rfl
      | ok g =>
        simp only [Except.ok_bind']
        cases analyzeMaxW m x.1.hasStackUsageInfo g with
        | error e => rfl
        | ok y =>
          simp only [Except.ok_bind']
          cases shortenNodes demangle x.1.ambiguous y.1.nodes <;> rfl

theorem runTextW_follows (placed : elf.Placed m) (start : Option Str) (format : OutputFormat) :
    Follows (runText demangle ord search p elf start format)
      (runTextW m demangle ord search p elf start format) := by
  have h := (finalGraphW_follows (demangle := demangle) (ord := ord) (search := search) (p := p) placed
    start).bind
    (f := fun x => match format with
      | .dot => .ok (dotText demangle x.1 x.2)
      | .top => .ok (topText demangle x.1))
    (f' := fun x => match format with
      | .dot => .ok (dotText demangle x.1 x.2)
      | .top => .ok (topText demangle x.1)) fun _ _ => .rfl
  convert h using 1
  · unfold runText
    cases finalGraph demangle ord search p elf start <;> rfl
  · unfold runTextW
    cases finalGraphW m demangle ord search p elf start <;> rfl

end

/-! ### With overflow checks -/

theorem addLocalW_checked (x : Max) (l : Local) : x.addLocalW .checked l = x.addLocal l := by
  cases x <;> cases l <;> rfl

theorem addW_checked (x y : Max) : x.addW .checked y = x.add y := by
  cases x <;> cases y <;> rfl

theorem nodeStepW_checked (g : Graph) (i : Nat) : nodeStepW .checked g i = nodeStep g i := by
  unfold nodeStep nodeStepW
  simp only [addLocalW_checked]
  rfl

theorem cycleStepW_checked (g : Graph) (scc : List Nat) : cycleStepW .checked g scc = cycleStep g scc := by
  unfold cycleStep cycleStepW
  simp only [addW_checked]
  rfl

theorem sccLoopW_checked (sccs : List (List Nat)) : ∀ (g : Graph) (cycles : List (List Nat)),
    sccLoopW .checked g cycles sccs = sccLoop g cycles sccs := by
  induction sccs with
  | nil => intro g cycles; rfl
  | cons scc sccs ih =>
    intro g cycles
    have h : sccStepW .checked g cycles scc = sccStep g cycles scc := by
      unfold sccStep sccStepW
      simp only [cycleStepW_checked, nodeStepW_checked]
      rfl
    unfold sccLoop sccLoopW
    rw [h]
    simp only [ih]
    rfl

theorem topoLoopW_checked (order : List Nat) : ∀ g : Graph, topoLoopW .checked g order = topoLoop g order := by
  induction order with
  | nil => intro g; rfl
  | cons node rest ih =>
    intro g
    unfold topoLoop topoLoopW
    rw [nodeStepW_checked]
    simp only [ih]
    rfl

/-- The analysis with overflow checks is the one with unbounded numbers that stops above 64 bits. -/
theorem analyzeMaxW_checked (info : Bool) (g : Graph) : analyzeMaxW .checked info g = analyzeMax info g := by
  unfold analyzeMax analyzeMaxW analyzeCyclic analyzeCyclicW analyzeAcyclic analyzeAcyclicW
  simp only [sccLoopW_checked, topoLoopW_checked]
  rfl

theorem runTextW_checked {demangle : Str → Str} {ord : HashOrder} {search : TagSearch} {p : Program} {elf : Elf}
    (placed : elf.Placed .checked) (start : Option Str) (format : OutputFormat) :
    (runTextW .checked demangle ord search p elf start format).toOption =
      (runText demangle ord search p elf start format).toOption := by
  have hcg := callGraphW_eq (demangle := demangle) (ord := ord) (search := search) (p := p) placed
  unfold runTextW runText finalGraphW finalGraph
  cases hw : callGraphW .checked demangle ord search p elf with
  | error e =>
    cases hc : callGraph demangle ord search p elf with
    | error e' => rfl
    | ok x => rw [hw, hc] at hcg; cases hcg
  | ok x =>
    cases hc : callGraph demangle ord search p elf with
    | error e' => rw [hw, hc] at hcg; cases hcg
    | ok x' =>
      rw [hw, hc] at hcg
      cases hcg
      simp only [analyzeMaxW_checked]
      rfl

end CallStack
