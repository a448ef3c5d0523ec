import Verif.Props.ThumbRun
import Verif.Props.EndToEnd

/-!
Helper lemmas for C94: the activations of an execution are a chain of calls, and each has at most the local usage
of its function on the stack.
-/

namespace CallStack

variable {demangle : Str → Str} {ord : HashOrder} {search : TagSearch} {p : Program} {elf : Elf}

/-- The functions of the activations, innermost first. -/
inductive ActivePath (E : Nat → Nat → Prop) (i : Nat) : List Nat → Prop
  | entry : ActivePath E i [i]
  | call {u w : Nat} {l : List Nat} : ActivePath E i (u :: l) → E u w → ActivePath E i (w :: u :: l)

theorem ActivePath.ne_nil {E : Nat → Nat → Prop} {i : Nat} {l : List Nat} (h : ActivePath E i l) : l ≠ [] := by
  cases h <;> simp

theorem CallChain.snoc {E : Nat → Nat → Prop} {v u w : Nat} {l : List Nat}
    (h : CallChain E v (l ++ [u])) (hw : E u w) : CallChain E v (l ++ [u] ++ [w]) := by
  induction l generalizing v with
  | nil =>
    simp only [List.nil_append] at h
    generalize hl : [u] = l' at h
    cases h with
    | single =>
      simp only [List.cons.injEq, and_true] at hl
      subst hl
      exact .call hw (.single w)
    | @call _ x l'' h1 h2 =>
      simp only [List.cons.injEq] at hl
      obtain ⟨_, rfl⟩ := hl
      cases h2
  | cons x l ih =>
    simp only [List.cons_append] at h ⊢
    generalize hl : x :: (l ++ [u]) = l' at h
    cases h with
    | single => simp at hl
    | @call _ y l'' h1 h2 =>
      simp only [List.cons.injEq] at hl
      obtain ⟨rfl, rfl⟩ := hl
      have := ih h2
      simp only [List.append_assoc] at this ⊢
      exact .call h1 this

theorem ActivePath.chain {E : Nat → Nat → Prop} {i : Nat} {l : List Nat} (h : ActivePath E i l) :
    CallChain E i l.reverse := by
  induction h with
  | entry => exact .single i
  | @call u w l _ hw ih =>
    rw [List.reverse_cons] at ih ⊢
    rw [List.reverse_cons]
    exact ih.snoc hw

/-- The outer part of a path is a path. -/
theorem ActivePath.drop {E : Nat → Nat → Prop} {i : Nat} {l l' : List Nat} (h : ActivePath E i (l' ++ l))
    (hl : l ≠ []) : ActivePath E i l := by
  induction l' with
  | nil => exact h
  | cons x l' ih =>
    refine ih ?_
    have hne : l' ++ l ≠ [] := by simp [hl]
    generalize hm : l' ++ l = m at h hne
    generalize hx : (x :: l' ++ l) = y at h
    cases h with
    | entry =>
      simp only [List.cons_append, List.cons.injEq] at hx
      exact absurd (hm ▸ hx.2) hne
    | call h1 h2 =>
      simp only [List.cons_append, List.cons.injEq] at hx
      rw [← hm, hx.2]
      exact h1

/-- A BL, or a branch out of the function, leads to its target. -/
theorem Program.HasCode.leavesTo {i address : Nat} {items : List CodeItem}
    (hc : p.HasCode search elf i address items) {pos t : Nat} {ins : Instr} {off : Int}
    (hi : InstrAt items pos ins) (hto : (t : Int) = address + pos + 4 + off)
    (hk : (ins = .bl off ∧ t < 2 ^ 64) ∨
      (ins.IsBranch off ∧ t < 2 ^ 32 ∧ (t < address ∨ address + (codeBytes items).length ≤ t))) :
    LeavesTo (codeFacts items) address (codeBytes items).length t := by
  have hfit : CodeFits (p.target == .thumbv7m) (elfTags elf.symtab) address items := by
    obtain ⟨_, _, _, _, _, _, _, _, hm, _, _, _, _, hf⟩ := hc
    exact markers_iff.mp hm ▸ hf
  have hres := thumbAnalyze_eq (search := search) hfit.sorted hfit.valid hfit.tags
  rcases hk with ⟨rfl, h64⟩ | ⟨hb, h32, hout⟩
  · left
    refine ⟨_, (C42_bl_targets hfit hres _).mpr ⟨pos, off, hi, rfl⟩, ?_⟩
    rw [show (address : Int) + (pos + 4 + off) = t by omega]
    omega
  · right
    refine ⟨_, (C43_b_targets_partial hfit hres _).mpr ⟨pos, ins, off, hi, hb, rfl⟩, ?_, hout⟩
    rw [show (address : Int) + (pos + 4 + off) = t by omega]
    omega

/-- A known local usage bounds what an activation of the function takes. -/
theorem local_bounds_runs {st : Build} {g : Graph} (once : p.NamesOnce) (ht : p.target.isThumb = true)
    (h : callGraph demangle ord search p elf = .ok (st, g)) {i address : Nat} {items : List CodeItem}
    (hc : p.HasCode search elf i address items) (tame : TameCode items)
    (trust : ∀ k, p.Frame i k →
      BranchesInside items ∨ (∃ name, p.Principal i name ∧ OutlinedName name) →
      ∀ pos d, CodeRuns items pos d → d ≤ k)
    (hk : (g.locOf i).Known) {pos : Nat} {d : Int} (hrun : CodeRuns items pos d) :
    d ≤ (g.locOf i).bytes := by
  have hd := hc.decoded
  have hfit : CodeFits (p.target == .thumbv7m) (elfTags elf.symtab) address items := by
    obtain ⟨_, _, _, _, _, _, _, _, hm, _, _, _, _, hf⟩ := hc
    exact markers_iff.mp hm ▸ hf
  have hres := C44_instruction_sequence_partial (search := search) hfit
  obtain ⟨a, s, stext, text, _, he, hx, _⟩ := id hd
  obtain ⟨address', size', r', llvm, name, hd', hf, hpr, hpol⟩ :=
    C50_in_call_graph once ht hx h (List.getElem?_eq_some_iff.mp he).1
  obtain ⟨k1, _⟩ := analyzed_of he hx hd
  obtain ⟨k2, _⟩ := analyzed_of he hx hd'
  rw [← k1.unique k2] at hpol
  have hours : ∀ k, (codeFacts items).stack = some k → d ≤ k := fun k hs =>
    C93_figure_bounds_executions_partial hfit tame hres hs hrun
  have hzero : (codeFacts items).modifiesSp = false → d ≤ 0 := fun hs =>
    C93_untouched_partial hfit tame hres hs hrun
  have hinside : (codeFacts items).stack = none → BranchesInside items := by
    intro hs
    by_contra hno
    have := ((C46_stack_sum_partial hfit hres).1 _).mpr ⟨fun pos i off h1 h2 h3 => hno
      ⟨pos, i, off, h1, h2, h3⟩, rfl⟩
    rw [hs] at this
    simp at this
  generalize hl : g.locOf i = l at hpol hk ⊢
  generalize hs : (codeFacts items).stack = ours at hpol hours hinside
  cases hpol with
  | ours k _ => exact hours k rfl
  | zero h0 => exact hzero (by simpa using h0)
  | giveUp _ => exact hk.elim
  | only n _ => exact trust n hf (.inl (hinside rfl)) pos d hrun
  | agree n _ => exact hours n rfl
  | asm n k _ _ _ => exact hours k rfl
  | outlinedZero k _ _ _ _ => exact hours k rfl
  | outlined n k _ _ _ _ ho _ => exact trust n hf (.inr ⟨name, hpr, ho⟩) pos d hrun

theorem call_lt {i j : Nat} (hc : p.Call i j) : j < p.defined.length := by
  have lt_of : ∀ {n j}, p.LiveAt n j → j < p.defined.length := by
    rintro n j ⟨a, s, h, _⟩
    exact (List.getElem?_eq_some_iff.mp h).1
  rcases hc with ⟨f, _, _, h⟩ | ⟨sig, sig', _, _, ⟨d, _, h, _⟩ | ⟨_, d, _, h, _⟩⟩
  · exact lt_of h
  · exact lt_of h
  · exact lt_of h

theorem machineCall_lt {i j : Nat} (hc : p.MachineCall search elf i j) : j < p.defined.length := by
  obtain ⟨_, _, _, _, _, _, s, h⟩ := hc
  exact (List.getElem?_eq_some_iff.mp h).1

/-- The functions on a path are live. -/
theorem ActivePath.live {i : Nat} (hi : i < p.defined.length) {l : List Nat}
    (h : ActivePath (fun a b => p.Call a b ∨ p.MachineCall search elf a b) i l) :
    ∀ j ∈ l, j < p.defined.length := by
  induction h with
  | entry => simpa using hi
  | @call u w l _ hw ih =>
    intro j hj
    rcases List.mem_cons.mp hj with rfl | hj
    · rcases hw with hw | hw
      · exact call_lt hw
      · exact machineCall_lt hw
    · exact ih j hj

theorem ActivePath.reach {E F : Nat → Nat → Prop} {i : Nat} (hEF : ∀ {a b}, E a b → Reach F a b)
    {l : List Nat} (h : ActivePath E i l) : ∀ j ∈ l, Reach F i j := by
  induction h with
  | entry => intro j hj; simp at hj; subst hj; exact .refl _
  | @call u w l _ hw ih =>
    intro j hj
    rcases List.mem_cons.mp hj with rfl | hj
    · exact (ih u List.mem_cons_self).trans (hEF hw)
    · exact ih j hj

/-- What holds of the activations at any time. -/
structure ActsOk (p : Program) (search : TagSearch) (elf : Elf) (code : Nat → Nat × List CodeItem) (i : Nat)
    (acts : List Activation) : Prop where
  path : acts = [] ∨ ActivePath (fun a b => p.Call a b ∨ p.MachineCall search elf a b) i
    (acts.map Activation.fn)
  runs : ∀ a ∈ acts, CodeRuns (code a.fn).2 a.pos a.depth

theorem ActsOk.push {code : Nat → Nat × List CodeItem} {i j k pos pos' : Nat} {d : Int} {b : Bool}
    {rest : List Activation} (h : ActsOk p search elf code i (⟨k, pos, d, false⟩ :: rest))
    (hr : CodeRuns (code k).2 pos' d) (hc : p.Call k j ∨ p.MachineCall search elf k j) :
    ActsOk p search elf code i (⟨j, 0, 0, false⟩ :: ⟨k, pos', d, b⟩ :: rest) := by
  refine ⟨Or.inr (.call ?_ hc), ?_⟩
  · rcases h.path with h1 | h1
    · simp at h1
    · exact h1
  · intro a ha
    rcases List.mem_cons.mp ha with rfl | ha
    · exact .entry
    · rcases List.mem_cons.mp ha with rfl | ha
      · exact hr
      · exact h.runs a (List.mem_cons_of_mem _ ha)

theorem Execution.ok {code : Nat → Nat × List CodeItem} {i : Nat}
    (hcode : ∀ j, Reach (fun a b => p.Call a b ∨ p.MachineCall search elf a b) i j →
      p.HasCode search elf j (code j).1 (code j).2)
    (hind : ∀ j, Reach (fun a b => p.Call a b ∨ p.MachineCall search elf a b) i j →
      (codeFacts (code j).2).indirect = true → ¬ p.NoIr j)
    {acts : List Activation} (h : Execution p code i acts) : ActsOk p search elf code i acts := by
  induction h with
  | entry =>
    refine ⟨Or.inr .entry, ?_⟩
    intro a ha
    simp only [List.mem_cons, List.not_mem_nil, or_false] at ha
    subst ha
    exact .entry
  | @step acts acts' _ hs ih =>
    have topPath : ∀ {a rest}, acts = a :: rest →
        ActivePath (fun a b => p.Call a b ∨ p.MachineCall search elf a b) i (a.fn :: rest.map Activation.fn) := by
      intro a rest h
      rcases ih.path with h1 | h1
      · rw [h1] at h; simp at h
      · rw [h] at h1; exact h1
    have topReach : ∀ {a rest}, acts = a :: rest →
        Reach (fun a b => p.Call a b ∨ p.MachineCall search elf a b) i a.fn := by
      intro a rest h
      exact (topPath h).reach (fun h => .single h) _ List.mem_cons_self
    have noIr : ∀ {k pos d rest} {ins : Instr}, acts = ⟨k, pos, d, false⟩ :: rest →
        InstrAt (code k).2 pos ins → ((∃ rm, ins = .blx rm) ∨ ∃ rm, ins = .bx rm ∧ rm ≠ 14) → ¬ p.NoIr k := by
      intro k pos d rest ins h hi' hins hno
      have hc := hcode k (topReach h)
      have hfit : CodeFits (p.target == .thumbv7m) (elfTags elf.symtab) (code k).1 (code k).2 := by
        obtain ⟨_, _, _, _, _, _, _, _, hm, _, _, _, _, hf⟩ := hc
        exact markers_iff.mp hm ▸ hf
      have hres := C44_instruction_sequence_partial (search := search) hfit
      have hb := (C48_indirect hfit hres).mpr ⟨ins, by
        rw [← instrsAt_snd (code k).2 0]
        exact List.mem_map.mpr ⟨_, instrAt_iff.mp hi', rfl⟩, hins⟩
      exact hind k (topReach h) hb hno
    have target : ∀ {k pos t j : Nat} {d rest} {ins : Instr} {off : Int}, acts = ⟨k, pos, d, false⟩ :: rest →
        InstrAt (code k).2 pos ins → (t : Int) = (code k).1 + pos + 4 + off →
        ((ins = .bl off ∧ t < 2 ^ 64) ∨ (ins.IsBranch off ∧ t < 2 ^ 32 ∧
          (t < (code k).1 ∨ (code k).1 + (codeBytes (code k).2).length ≤ t))) → p.StartsAt j t →
        p.MachineCall search elf k j := by
      intro k pos t j d rest ins off h h1 h2 h3 h4
      have hc := hcode k (topReach h)
      exact ⟨_, _, _, t, hc.decoded, hc.leavesTo h1 h2 h3, h4⟩
    have topRun : ∀ {k pos d b rest}, acts = ⟨k, pos, d, b⟩ :: rest → CodeRuns (code k).2 pos d := by
      intro k pos d b rest h
      exact ih.runs ⟨k, pos, d, b⟩ (by rw [h]; simp)
    cases hs with
    | @inner k pos pos' d d' rest hstep =>
      refine ⟨?_, ?_⟩
      · rcases ih.path with h1 | h1
        · simp at h1
        · exact Or.inr h1
      · intro a ha
        rcases List.mem_cons.mp ha with rfl | ha
        · exact .step (topRun rfl) hstep
        · exact ih.runs a (List.mem_cons_of_mem _ ha)
    | @call k j pos t d off rest h1 h2 h3 h4 =>
      refine ih.push (.step (topRun rfl) (.run h1 rfl ?_)) (Or.inr (target rfl h1 h2 (.inl ⟨rfl, by omega⟩) h4))
      rfl
    | @jump k j pos t ins d off rest h1 h2 h3 h4 h5 h6 =>
      exact ih.push (topRun rfl) (Or.inr (target rfl h1 h3 (.inr ⟨h2, h4, h5⟩) h6))
    | @callRegister k j pos rm d rest h1 h2 =>
      refine ih.push (.step (topRun rfl) (.run h1 rfl ?_)) ?_
      · rfl
      · rcases h2 with h2 | ⟨h2, _⟩
        · exact Or.inl h2
        · exact absurd h2 (noIr rfl h1 (.inl ⟨rm, rfl⟩))
    | @jumpRegister k j pos rm d rest h1 h2 h3 =>
      refine ih.push (topRun rfl) ?_
      rcases h3 with h3 | ⟨h3, _⟩
      · exact Or.inl h3
      · exact absurd h3 (noIr rfl h1 (.inr ⟨rm, rfl, h2⟩))
    | @ret k pos ins d d' gone rest h1 h2 h3 h4 h5 =>
      refine ⟨?_, ?_⟩
      · by_cases hr : acts' = []
        · exact Or.inl hr
        · right
          have hp := topPath (a := ⟨k, pos, d, false⟩) (rest := gone ++ acts') rfl
          rw [List.map_append, ← List.cons_append] at hp
          exact hp.drop (by simpa using hr)
      · intro a ha
        exact ih.runs a (by simp [ha])

end CallStack
