import Verif.Model.LogText
import Verif.Proof.Output

/-!
The texts of different messages differ.
-/

namespace CallStack

/-- The part after the last occurrence of a character is determined. -/
theorem split_last {c : Char} {a b : Str} (ha : c ∉ a) (hb : c ∉ b) {x y : Str}
    (h : x ++ c :: a = y ++ c :: b) : x = y ∧ a = b := by
  induction x generalizing y with
  | nil =>
    cases y with
    | nil => simpa using h
    | cons d y =>
      simp only [List.nil_append, List.cons_append, List.cons.injEq] at h
      exact absurd (by simp [h.2]) ha
  | cons d x ih =>
    cases y with
    | nil =>
      simp only [List.nil_append, List.cons_append, List.cons.injEq] at h
      exact absurd (by simp [← h.2]) hb
    | cons e y =>
      simp only [List.cons_append, List.cons.injEq] at h
      obtain ⟨rfl, h⟩ := h
      obtain ⟨rfl, h'⟩ := ih h
      exact ⟨rfl, h'⟩

/-- The part before the first occurrence of a character is determined. -/
theorem split_first {c : Char} {a b : Str} (ha : c ∉ a) (hb : c ∉ b) {x y : Str}
    (h : a ++ c :: x = b ++ c :: y) : a = b ∧ x = y := by
  have := split_last (c := c) (a := a.reverse) (b := b.reverse) (by simpa) (by simpa) (x := x.reverse)
    (y := y.reverse) (by simpa using congrArg List.reverse h)
  simpa [and_comm] using this

theorem space_notMem (n : Nat) : ' ' ∉ showNat n := showNat_no (by decide)

/-- The common part of the messages about overridden figures. -/
theorem figures_inj {n n' : Str} {k k' j j' : Nat}
    (h : n ++ c!"` uses " ++ showNat k ++ c!" bytes of stack but our analysis reported " ++ showNat j =
      n' ++ c!"` uses " ++ showNat k' ++ c!" bytes of stack but our analysis reported " ++ showNat j') :
    n = n' ∧ k = k' ∧ j = j' := by
  have e1 : ∀ m : Nat, c!" bytes of stack but our analysis reported " ++ showNat m =
      c!" bytes of stack but our analysis reported" ++ ' ' :: showNat m := fun m => rfl
  have e2 : ∀ m : Nat, c!"` uses " ++ showNat m = c!"` uses" ++ ' ' :: showNat m := fun m => rfl
  rw [List.append_assoc _ _ (showNat j), List.append_assoc _ _ (showNat j'), e1, e1, ← List.append_assoc,
    ← List.append_assoc] at h
  obtain ⟨h, hj⟩ := split_last (space_notMem _) (space_notMem _) h
  have h := List.append_cancel_right h
  rw [List.append_assoc, List.append_assoc, e2, e2, ← List.append_assoc, ← List.append_assoc] at h
  obtain ⟨h, hk⟩ := split_last (space_notMem _) (space_notMem _) h
  exact ⟨List.append_cancel_right h, showNat_injective hk, showNat_injective hj⟩

/-- Which messages can have the same text. -/
theorem text_eq {debug : List Str → Str} {m m' : LogMsg} (h : m.text debug = m'.text debug) :
    m = m' ∨ (∃ e n e' n', m = .asm e n ∧ m' = .asm e' n') ∨
      ∃ s l s' l', m = .ambiguousStart s l ∧ m' = .ambiguousStart s' l' := by
  cases m <;> cases m' <;> first | exact .inl rfl | exact .inr (.inl ⟨_, _, _, _, rfl, rfl⟩) |
    exact .inr (.inr ⟨_, _, _, _, rfl, rfl⟩) | skip
  case overrideAsm.overrideAsm =>
    simp only [LogMsg.text] at h
    have h := List.append_cancel_right h
    simp only [List.append_assoc] at h
    have h := List.append_cancel_left h
    simp only [← List.append_assoc] at h
    obtain ⟨rfl, rfl, rfl⟩ := figures_inj h
    exact .inl rfl
  case overrideOutlined.overrideOutlined =>
    simp only [LogMsg.text] at h
    have h := List.append_cancel_right h
    simp only [List.append_assoc] at h
    have h := List.append_cancel_left h
    simp only [← List.append_assoc] at h
    obtain ⟨rfl, rfl, rfl⟩ := figures_inj h
    exact .inl rfl
  case overrideAsm.overrideOutlined =>
    have h := congrArg List.reverse h
    simp [LogMsg.text] at h
  case overrideOutlined.overrideAsm =>
    have h := congrArg List.reverse h
    simp [LogMsg.text] at h
  case noUsage.noUsage => exact .inl (congrArg _ (List.append_cancel_left (List.append_cancel_right h)))
  case noType.noType => exact .inl (congrArg _ (List.append_cancel_left (List.append_cancel_right h)))
  case noInfo.noInfo => exact .inl (congrArg _ (List.append_cancel_left (List.append_cancel_right h)))
  case inlined.inlined => exact .inl (congrArg _ (List.append_cancel_left (List.append_cancel_right h)))
  case untypedCall.untypedCall => exact .inl (congrArg _ (List.append_cancel_left (List.append_cancel_right h)))
  case noCallees.noCallees => exact .inl (congrArg _ (List.append_cancel_left (List.append_cancel_right h)))
  all_goals exfalso
  all_goals first
    | (have h1 := congrArg List.head? h
       cases h1
       done)
    | (have h1 := congrArg (fun l => l[3]?) h
       cases h1
       done)
    | (have h1 := congrArg (fun l => l[9]?) h
       cases h1
       done)
    | (have h1 := congrArg (fun l => l[14]?) h
       cases h1
       done)

/-- If no backquotes are shown then the parts of the message about inline assembly are determined. -/
theorem asm_inj {debug : List Str → Str} {e n e' n' : Str} (h1 : '`' ∉ n) (h2 : '`' ∉ n')
    (h : (LogMsg.asm e n).text debug = (LogMsg.asm e' n').text debug) : e = e' ∧ n = n' := by
  simp only [LogMsg.text] at h
  have h := List.append_cancel_right h
  have e1 : ∀ n : Str, c!"\") does *not* use the stack in `" ++ n = c!"\") does *not* use the stack in " ++ '`' :: n :=
    fun n => rfl
  rw [List.append_assoc _ _ n, List.append_assoc _ _ n', e1, e1, ← List.append_assoc, ← List.append_assoc] at h
  obtain ⟨h, h'⟩ := split_last h1 h2 h
  have h := List.append_cancel_right h
  exact ⟨List.append_cancel_left h, h'⟩

theorem ambiguous_inj {debug : List Str → Str} {s s' : Str} {l l' : List Str} (h1 : '`' ∉ s) (h2 : '`' ∉ s')
    (h : (LogMsg.ambiguousStart s l).text debug = (LogMsg.ambiguousStart s' l').text debug) :
    s = s' ∧ debug l = debug l' := by
  simp only [LogMsg.text, List.append_assoc] at h
  have h := List.append_cancel_left h
  obtain ⟨h, h'⟩ := split_first (c := '`') h1 h2 (x := c!": " ++ debug l) (y := c!": " ++ debug l') h
  exact ⟨h, List.append_cancel_left h'⟩

end CallStack
