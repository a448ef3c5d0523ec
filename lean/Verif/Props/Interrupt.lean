import Verif.Props.Exec
import Verif.Props.IrExec
import Verif.Proof.Interrupt

/-!
Property C109: interrupts. The README says that exception handlers appear as functions that nobody calls, with
figures of their own. These figures can be put together to a bound for the whole program.
-/

namespace CallStack

/-- **C109** On thumb targets, for every program: the sum of the printed maxima bounds the stack in use, however
handlers interrupt; or else a function that can be reached from `main` or from a handler has code that is not readable
or not tame, or relies on a wrong figure of the compiler, or has a call of one of the kinds that may be dropped. -/
theorem C109_reasons {demangle : Str → Str} {ord : HashOrder} {search : TagSearch}
    {p : Program} {elf : Elf} {g' : Graph} {cycles : List (List Nat)} (once : p.NamesOnce)
    (addressed : p.Addressed) (declares : p.DeclaresOnce) (sizes : p.SizesU64)
    (fits : elf.Fits32) (ht : p.target.isThumb = true)
    (h : finalGraph demangle ord search p elf none = .ok (g', cycles))
    {code : Nat → Nat × List CodeItem} {main n saved top : Nat} {handler : Nat → Prop} {prio need : Nat → Nat}
    (hi : main < p.defined.length) (hmax : g'.maxOf? main = some (.exact n)) (hprio : prio main = 0)
    (hh : ∀ i, handler i → i < p.defined.length ∧ prio i ≤ top ∧
      ∃ k, g'.maxOf? i = some (.exact k) ∧ k ≤ need (prio i))
    {ls : List (Nat × List Activation)} (hex : ThumbNested p code handler prio main ls) :
    nestedInUse saved ls ≤ withInterrupts n saved top need ∨
    ∃ i a, (i = main ∨ handler i) ∧ Reach (fun a b => p.Call a b ∨ p.MachineCall search elf a b) i a ∧
      (¬ p.HasCode search elf a (code a).1 (code a).2 ∨ ¬ TameCode (code a).2 ∨ ¬ p.FrameHolds code a ∨
        ∃ b, p.Dropped a b) := by
  rw [or_iff_not_imp_right]
  intro hno
  refine Levels.bound (hex.levels (run := Execution p code) (fun _ => .entry) fun _ _ _ h1 h2 => .step h1 h2) ?_
    hprio ?_
  · intro s hs
    rcases C94_reasons once addressed declares sizes fits ht h hi hmax hs with h1 | ⟨a, h1, h2⟩
    · exact h1
    · exact absurd ⟨main, a, .inl rfl, h1, h2⟩ hno
  · intro i hi'
    obtain ⟨h1, h2, k, h3, h4⟩ := hh i hi'
    refine ⟨h2, fun s hs => ?_⟩
    rcases C94_reasons once addressed declares sizes fits ht h h1 h3 hs with h5 | ⟨a, h5, h6⟩
    · omega
    · exact absurd ⟨i, a, .inr hi', h5, h6⟩ hno

/-- **C109** On thumb targets: a program starts with `main`, for which the tool prints `max = n`, and is interrupted by
handlers, for each of which the tool prints a maximum. `need q` is at least the maximum of each handler of priority
`q`. Then at any time at most `n` bytes of stack are in use, plus for each priority what is saved on entry and the
largest maximum of this priority. Partial: as `C94_executions_bounded_partial`, applied to all code. -/
theorem C109_interrupts_partial {demangle : Str → Str} {ord : HashOrder} {search : TagSearch}
    {p : Program} {elf : Elf} {g' : Graph} {cycles : List (List Nat)} (once : p.NamesOnce)
    (addressed : p.Addressed) (declares : p.DeclaresOnce) (un : p.Unambiguous) (sizes : p.SizesU64)
    (fits : elf.Fits32) (ht : p.target.isThumb = true)
    (h : finalGraph demangle ord search p elf none = .ok (g', cycles))
    {code : Nat → Nat × List CodeItem}
    (hcode : ∀ j < p.defined.length, p.HasCode search elf j (code j).1 (code j).2 ∧ TameCode (code j).2)
    (frames : p.FramesHold code) {main n saved top : Nat} {handler : Nat → Prop} {prio need : Nat → Nat}
    (hi : main < p.defined.length) (hmax : g'.maxOf? main = some (.exact n)) (hprio : prio main = 0)
    (hh : ∀ i, handler i → i < p.defined.length ∧ prio i ≤ top ∧
      ∃ k, g'.maxOf? i = some (.exact k) ∧ k ≤ need (prio i))
    {ls : List (Nat × List Activation)} (hex : ThumbNested p code handler prio main ls) :
    nestedInUse saved ls ≤ withInterrupts n saved top need := by
  refine Levels.bound (hex.levels (run := Execution p code) (fun _ => .entry) fun _ _ _ h1 h2 => .step h1 h2) ?_
    hprio ?_
  · intro s hs
    exact C94_executions_bounded_partial once addressed declares un sizes fits ht h hcode frames hi hmax hs
  · intro i hi'
    obtain ⟨h1, h2, k, h3, h4⟩ := hh i hi'
    refine ⟨h2, fun s hs => ?_⟩
    have := C94_executions_bounded_partial once addressed declares un sizes fits ht h hcode frames h1 h3 hs
    omega

/-- **C109** On a target without machine code analysis, for every program: the same for the sizes that the compiler
reports, or else a function that can be reached from `main` or from a handler has a call of one of the kinds that may
be dropped. -/
theorem C109_reasons_ir {demangle : Str → Str} {ord : HashOrder} {search : TagSearch}
    {p : Program} {elf : Elf} {g' : Graph} {cycles : List (List Nat)} (other : p.target = .other)
    (once : p.NamesOnce) (declares : p.DeclaresOnce)
    (sizes : p.SizesU64) (h : finalGraph demangle ord search p elf none = .ok (g', cycles))
    {main n saved top : Nat} {handler : Nat → Prop} {prio need : Nat → Nat}
    (hi : main < p.defined.length) (hmax : g'.maxOf? main = some (.exact n)) (hprio : prio main = 0)
    (hh : ∀ i, handler i → i < p.defined.length ∧ prio i ≤ top ∧
      ∃ k, g'.maxOf? i = some (.exact k) ∧ k ≤ need (prio i))
    {ls : List (Nat × List Nat)} (hex : IrNested p handler prio main ls) :
    (∃ frames, List.Forall₂ p.Frame (ls.flatMap (·.2)) frames ∧
      frames.sum + saved * (ls.length - 1) ≤ withInterrupts n saved top need) ∨
    ∃ i a b, (i = main ∨ handler i) ∧ Reach p.RunsInto i a ∧ (p.Dropped a b ∨ p.DroppedMemory a b) := by
  rw [or_iff_not_imp_right]
  intro hno
  obtain ⟨ks, h1, h2⟩ := Levels.bound_rel (saved := saved) (n0 := n) (top := top) (need := need)
    (use := fun l k => ∃ fr : List Nat, List.Forall₂ p.Frame l fr ∧ (fr.sum : Int) = k)
    (hex.levels (run := IrExecution p) (fun _ => .entry) fun _ _ _ h1 h2 => .step h1 h2)
    (by
      intro s hs
      rcases C104_reasons other once declares sizes h hi hmax hs with ⟨fr, h1, h2⟩ | ⟨a, b, h1, h2⟩
      · exact ⟨_, ⟨fr, h1, rfl⟩, by omega⟩
      · exact absurd ⟨main, a, b, .inl rfl, h1, h2⟩ hno) hprio
    (by
      intro i hi'
      obtain ⟨h1, h2, k, h3, h4⟩ := hh i hi'
      refine ⟨h2, fun s hs => ?_⟩
      rcases C104_reasons other once declares sizes h h1 h3 hs with ⟨fr, h5, h6⟩ | ⟨a, b, h5, h6⟩
      · exact ⟨_, ⟨fr, h5, rfl⟩, by omega⟩
      · exact absurd ⟨i, a, b, .inr hi', h5, h6⟩ hno)
  obtain ⟨fr, h3, h4⟩ := frames_flat h1
  refine ⟨fr, h3, ?_⟩
  rw [← h4] at h2
  exact_mod_cast h2

/-- **C109** The same on a target without machine code analysis, for the sizes that the compiler reports. Partial: as
`C104_executions_partial`. -/
theorem C109_interrupts_ir_partial {demangle : Str → Str} {ord : HashOrder} {search : TagSearch}
    {p : Program} {elf : Elf} {g' : Graph} {cycles : List (List Nat)} (other : p.target = .other)
    (once : p.NamesOnce) (declares : p.DeclaresOnce) (un : p.Unambiguous) (found : p.RoutinesFound)
    (sizes : p.SizesU64) (h : finalGraph demangle ord search p elf none = .ok (g', cycles))
    {main n saved top : Nat} {handler : Nat → Prop} {prio need : Nat → Nat}
    (hi : main < p.defined.length) (hmax : g'.maxOf? main = some (.exact n)) (hprio : prio main = 0)
    (hh : ∀ i, handler i → i < p.defined.length ∧ prio i ≤ top ∧
      ∃ k, g'.maxOf? i = some (.exact k) ∧ k ≤ need (prio i))
    {ls : List (Nat × List Nat)} (hex : IrNested p handler prio main ls) :
    ∃ frames, List.Forall₂ p.Frame (ls.flatMap (·.2)) frames ∧
      frames.sum + saved * (ls.length - 1) ≤ withInterrupts n saved top need := by
  rcases C109_reasons_ir other once declares sizes h hi hmax hprio hh hex with h1 | ⟨_, a, b, _, _, h1 | h1⟩
  · exact h1
  · exact absurd h1 (un.keeps a b)
  · exact absurd h1 (found.keeps a b)

/-- **C109** Handlers of the same priority share their part of the bound, and what is saved counts once per priority:
at no time are there more levels than priorities in use plus one. -/
theorem C109_levels {p : Program} {code : Nat → Nat × List CodeItem} {main top : Nat} {handler : Nat → Prop}
    {prio : Nat → Nat} (hprio : prio main = 0) (hh : ∀ i, handler i → prio i ≤ top)
    {ls : List (Nat × List Activation)} (hex : ThumbNested p code handler prio main ls) :
    ls.length ≤ top + 1 ∧ (ls.map (fun l => prio l.1)).Pairwise (· > ·) := by
  have hl := hex.levels (run := fun _ _ => True) (fun _ => trivial) fun _ _ _ _ _ => trivial
  suffices hx : ∃ i s rest, ls = (i, s) :: rest ∧ prio i ≤ top ∧ ls.length ≤ prio i + 1 ∧
      (ls.map (fun l => prio l.1)).Pairwise (· > ·) ∧ ∀ l ∈ ls, prio l.1 ≤ prio i by
    obtain ⟨i, _, _, _, h1, h2, h3, _⟩ := hx
    exact ⟨by omega, h3⟩
  clear hex
  induction hl with
  | @main s _ =>
    refine ⟨_, _, _, rfl, by omega, by simp, by simp, by simp⟩
  | @handler a b s s' rest h1 h2 _ _ ih =>
    obtain ⟨i, s1, rest1, h3, h4, h5, h6, h7⟩ := ih
    simp only [List.cons.injEq, Prod.mk.injEq] at h3
    obtain ⟨⟨rfl, rfl⟩, rfl⟩ := h3
    refine ⟨_, _, _, rfl, hh _ h1, ?_, ?_, ?_⟩
    · rw [List.length_cons]
      omega
    · rw [List.map_cons, List.pairwise_cons]
      refine ⟨?_, h6⟩
      intro q hq
      obtain ⟨l, hl, rfl⟩ := List.mem_map.mp hq
      exact Nat.lt_of_le_of_lt (h7 l hl) h2
    · intro l hl
      rcases List.mem_cons.mp hl with rfl | hl
      · exact Nat.le_refl _
      · exact Nat.le_of_lt (Nat.lt_of_le_of_lt (h7 l hl) h2)

/-- What runs can go on to any state of its execution. -/
theorem Nested.run_to {p : Program} {code : Nat → Nat × List CodeItem} {handler : Nat → Prop} {prio : Nat → Nat}
    {main i : Nat} {rest : List (Nat × List Activation)} {s : List Activation}
    (h : ThumbNested p code handler prio main ((i, [⟨i, 0, 0, false⟩]) :: rest)) (hs : Execution p code i s) :
    ThumbNested p code handler prio main ((i, s) :: rest) := by
  induction hs with
  | entry => exact h
  | step _ h2 ih => exact .step ih (.run h2)

/-- **C109** The bound cannot be improved: if executions of `main` and of one handler of each priority need all of
their maxima, then with interrupts at these moments exactly the bound is in use. -/
theorem C109_attained {p : Program} {code : Nat → Nat × List CodeItem} {main n saved top : Nat}
    {handler : Nat → Prop} {prio need : Nat → Nat} (hprio : prio main = 0)
    (hmain : ∃ s, Execution p code main s ∧ stackInUse s = n)
    (hh : ∀ q, 1 ≤ q → q ≤ top → ∃ i s, handler i ∧ prio i = q ∧ Execution p code i s ∧ stackInUse s = need q) :
    ∃ ls, ThumbNested p code handler prio main ls ∧ nestedInUse saved ls = withInterrupts n saved top need := by
  suffices hx : ∃ i s rest, ThumbNested p code handler prio main ((i, s) :: rest) ∧ prio i = top ∧
      rest.length = top ∧ nestedInUse saved ((i, s) :: rest) = withInterrupts n saved top need by
    obtain ⟨i, s, rest, h1, _, _, h2⟩ := hx
    exact ⟨_, h1, h2⟩
  induction top with
  | zero =>
    obtain ⟨s, h1, h2⟩ := hmain
    exact ⟨main, s, [], Nested.run_to .start h1, hprio, rfl, by simp [nestedInUse, withInterrupts, h2]⟩
  | succ top ih =>
    obtain ⟨i, s, rest, h1, h2, h3, h4⟩ := ih fun q h5 h6 => hh q h5 (by omega)
    obtain ⟨j, t, h5, h6, h7, h8⟩ := hh (top + 1) (by omega) (Nat.le_refl _)
    refine ⟨j, t, (i, s) :: rest, Nested.run_to (.step h1 (.enter h5 (by omega))) h7, h6, by simp [h3], ?_⟩
    simp only [nestedInUse, withInterrupts, List.map_cons, List.sum_cons, List.length_cons, h3, h8,
      List.range_succ, List.map_append, List.sum_append, List.map_nil, List.sum_nil] at h4 ⊢
    simp only [Nat.add_sub_cancel] at h4 ⊢
    push_cast at h4 ⊢
    rw [Int.mul_add]
    omega

/-! ### Examples -/

/-- `main` of C41 interrupted by `g`, which has priority 1, when all of its 24 bytes are in use. -/
theorem exNested_reached : ThumbNested exEndThumb exEndCode (· = 2) (fun i => if i = 2 then 1 else 0) 0
    [(2, [⟨2, 2, 16, false⟩]), (0, [⟨2, 2, 16, false⟩, ⟨1, 0, 0, true⟩, ⟨0, 6, 8, false⟩])] := by
  have hrun : ∀ {ls : List (Nat × List Activation)} {h s s' rest}, ls = (h, s) :: rest →
      ThumbNested exEndThumb exEndCode (· = 2) (fun i => if i = 2 then 1 else 0) 0 ls →
      ExecStep exEndThumb exEndCode s s' →
      ThumbNested exEndThumb exEndCode (· = 2) (fun i => if i = 2 then 1 else 0) 0 ((h, s') :: rest) := by
    rintro ls h s s' rest rfl h1 h2
    exact .step h1 (.run h2)
  have h1 : ExecStep exEndThumb exEndCode [⟨0, 0, 0, false⟩] [⟨0, 2, 8, false⟩] :=
    .inner (.run (i := .push 0x80 true) ⟨[], _, rfl, rfl⟩ rfl rfl)
  have h2 : ExecStep exEndThumb exEndCode [⟨0, 2, 8, false⟩] [⟨1, 0, 0, false⟩, ⟨0, 6, 8, false⟩] :=
    .call (off := 2) (t := 264) ⟨[_], _, rfl, rfl⟩ rfl (by decide) ⟨_, rfl⟩
  have h3 : ExecStep exEndThumb exEndCode [⟨1, 0, 0, false⟩, ⟨0, 6, 8, false⟩]
      [⟨2, 0, 0, false⟩, ⟨1, 0, 0, true⟩, ⟨0, 6, 8, false⟩] :=
    .jump (ins := .b2 (-2)) (off := -2) (t := 266) ⟨[], _, rfl, rfl⟩ (.inr (.inl rfl)) rfl (by decide)
      (.inr (by decide)) ⟨_, rfl⟩
  have h4 : ∀ rest, ExecStep exEndThumb exEndCode (⟨2, 0, 0, false⟩ :: rest) (⟨2, 2, 16, false⟩ :: rest) :=
    fun rest => .inner (.run (i := .push 0xB0 true) ⟨[], _, rfl, rfl⟩ rfl rfl)
  exact hrun rfl (.step (hrun rfl (hrun rfl (hrun rfl (hrun rfl .start h1) h2) h3) (h4 _))
    (.enter rfl (by decide))) (h4 _)

/-- **C109** The maximum of `main` alone is not enough: the tool prints `max = 24` for `main`, but with the handler
`g` and 32 bytes saved on entry there are 72 bytes in use. That is exactly the bound of `C109_interrupts_partial`. -/
theorem C109_main_alone_exceeded :
    (finalGraph id sameOrder linearSearch exEndThumb exEndElf none).toOption.map
      (fun x => (x.1.maxOf? 0, x.1.maxOf? 2)) = some (some (.exact 24), some (.exact 16)) ∧
    (∃ ls, ThumbNested exEndThumb exEndCode (· = 2) (fun i => if i = 2 then 1 else 0) 0 ls ∧
      nestedInUse 32 ls = 72) ∧
    withInterrupts 24 32 1 (fun _ => 16) = 72 :=
  ⟨by decide +kernel, ⟨_, exNested_reached, by decide⟩, by decide⟩

/-- The LLVM-IR program of C104, interrupted by `g` while `f` is active. -/
example : IrNested exIrExec (· = 2) (fun i => if i = 2 then 3 else 0) 0 [(2, [2]), (0, [1, 0])] ∧
    withInterrupts 48 32 3 (fun q => if q = 3 then 24 else 0) = 168 := by
  refine ⟨.step (.step .start (.run (.call ?_))) (.enter rfl (by decide)), by decide⟩
  exact .bitcast (f := c!"f")
    ⟨_, List.mem_cons_self, mem_live rfl List.mem_cons_self rfl, by simp⟩ (mem_live rfl List.mem_cons_self rfl)

end CallStack
