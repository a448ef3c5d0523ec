import Verif.Proof.LogRun
import Verif.Proof.SharedNames

/-!
Which part of a run logs which messages, for all programs.
-/

namespace CallStack

theorem useThumbLog_ofCode {r : ThumbState} {c : Str} {st : Build} {m : LogMsg} (h : m ∈ useThumbLog r c st) :
    m.ofCode = true := by
  unfold useThumbLog at h
  split at h
  · simp at h
  split at h
  · simp at h
  rcases List.mem_append.mp h with h | h
  · obtain ⟨_, _, _, _, _, _, ⟨rfl, _⟩ | ⟨rfl, _⟩⟩ := mem_overrideLog.mp h <;> rfl
  split at h
  · simp at h
  rcases List.mem_append.mp h with h | h
  · split at h
    · rw [List.mem_singleton.mp h]; rfl
    · simp at h
  · split at h
    · rw [List.mem_singleton.mp h]; rfl
    · simp at h

theorem machineStepLog_ofCode {search : TagSearch} {v7 : Bool} {tags : List (Nat × Tag)} {stext : Nat}
    {text : List Nat} {st : Build} {e : Nat × Sym} {m : LogMsg}
    (h : m ∈ machineStepLog search v7 tags stext text st e) : m.ofCode = true := by
  unfold machineStepLog at h
  split at h
  · simp at h
  split at h
  · simp at h
  simp only at h
  split at h
  · simp at h
  split at h
  · simp at h
  exact useThumbLog_ofCode h

theorem machineLoopLog_ofCode {search : TagSearch} {v7 : Bool} {tags : List (Nat × Tag)} {stext : Nat}
    {text : List Nat} (l : List (Nat × Sym)) : ∀ {st : Build} {m : LogMsg},
    m ∈ machineLoopLog search v7 tags stext text st l → m.ofCode = true := by
  induction l with
  | nil => intro st m h; simp [machineLoopLog] at h
  | cons e l ih =>
    intro st m h
    unfold machineLoopLog at h
    rcases List.mem_append.mp h with h | h
    · exact machineStepLog_ofCode h
    · split at h
      · simp at h
      · exact ih h

theorem machineLog_ofCode {search : TagSearch} {p : Program} {elf : Elf} {st : Build} {m : LogMsg}
    (h : m ∈ machineLog search p elf st) : m.ofCode = true := by
  unfold machineLog at h
  split at h
  · split at h
    · rw [List.mem_singleton.mp h]; rfl
    · exact machineLoopLog_ofCode _ h
  · simp at h

theorem symsLog_ofSym {demangle : Str → Str} {p : Program} {st0 : Build}
    (hs : symPass demangle p Build.empty p.defined = .ok st0) {m : LogMsg} (h : m ∈ symsLog p p.defined) :
    m.ofSym = true := by
  obtain ⟨_, _, _, _, h⟩ := (CallStack.mem_symsLog p.defined hs m).mp h
  rcases (mem_symLog).mp h with ⟨rfl, _⟩ | ⟨rfl, _⟩ <;> rfl

/-- `RunFacts.mem_log'` without the assumption that names are unique. -/
theorem SharedFacts.mem_log {demangle : Str → Str} {ord : HashOrder} {search : TagSearch} {p : Program} {elf : Elf}
    {cs : List Str} {st0 stIr st : Build} {g : Graph}
    (f : SharedFacts demangle ord search p elf cs st0 stIr st g)
    (hc : callGraph demangle ord search p elf = .ok (st, g))
    {start : Option Str} {g1 : Graph} (hs : applyStart demangle st.indices start g = .ok g1) (m : LogMsg) :
    m ∈ runLog demangle ord search p elf start ↔
      (m.ofSym = true ∧ m ∈ symsLog p p.defined) ∨
      (m.ofStmt = true ∧ m ∈ (definesLog p st0 [] p.defines).1) ∨
      (m.ofCode = true ∧ m ∈ machineLog search p elf stIr) ∨
      (m.ofIndirect = true ∧ m ∈ indirectsLog ord st) ∨
      (m.ofStart = true ∧ m ∈ startLog demangle ord st.indices start) ∨
      (m = .noFigures ∧ st.hasStackUsageInfo = false) := by
  have hg : addIndirects ord st = g := by
    unfold callGraph irGraph at hc
    rw [f.symOk] at hc
    simp only [f.definesOk, f.pass, Except.ok.injEq, Prod.mk.injEq, true_and] at hc
    exact hc
  have heq : runLog demangle ord search p elf start =
      symsLog p p.defined ++ ((definesLog p st0 [] p.defines).1 ++ (machineLog search p elf stIr ++
        (indirectsLog ord st ++ startLog demangle ord st.indices start ++
          if st.hasStackUsageInfo then [] else [.noFigures]))) := by
    unfold runLog
    rw [f.symOk]
    simp only
    rw [f.definesOk]
    simp only
    rw [f.pass]
    simp only
    rw [hg, hs]
  have hmem : m ∈ runLog demangle ord search p elf start ↔
      m ∈ symsLog p p.defined ∨ m ∈ (definesLog p st0 [] p.defines).1 ∨ m ∈ machineLog search p elf stIr ∨
      m ∈ indirectsLog ord st ∨ m ∈ startLog demangle ord st.indices start ∨
      (m = .noFigures ∧ st.hasStackUsageInfo = false) := by
    rw [heq]
    simp only [List.mem_append, or_assoc]
    cases st.hasStackUsageInfo <;> simp
  rw [hmem]
  have key : ∀ {a b : Prop}, (b → a) → (b ↔ a ∧ b) := fun k => ⟨fun x => ⟨k x, x⟩, fun x => x.2⟩
  exact or_congr (key (symsLog_ofSym f.symOk)) (or_congr (key ((definePass_msgs p.defines [] f.definesOk).only m))
    (or_congr (key machineLog_ofCode) (or_congr (key ofIndirect_of) (or_congr (key ofStart_of) Iff.rfl))))

end CallStack
