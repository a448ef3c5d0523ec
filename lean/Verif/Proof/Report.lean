import Verif.Model.Report
import Verif.Spec.Report
import Verif.Props.TotalIff
import Verif.Props.ThumbAll

/-! Lemmas for C114: the messages of panics. -/

namespace CallStack

/-! ### The same runs -/

/-- Forget the data of the message. -/
def erase {α : Type} : Except Report α → Except Panic α
  | .ok x => .ok x
  | .error e => .error e.kind

theorem erase_ok {α : Type} (x : α) : erase (.ok x) = .ok x := rfl

theorem kind_ofPanic (e : Panic) : (Report.ofPanic e).kind = e := by cases e <;> rfl

theorem erase_reported {α : Type} (x : Except Panic α) : erase (reported x) = x := by
  cases x with
  | ok x => rfl
  | error e => simp [reported, erase, kind_ofPanic]

theorem erase_tag (search : TagSearch) (tags : List (Nat × Tag)) (start : Nat) :
    erase (tagReport search tags start) = tagAct search tags start := by
  unfold tagReport tagAct
  cases search.find tags start with
  | none => rfl
  | some needle =>
    simp only
    rcases tags[needle]? with _ | ⟨a, _ | _⟩
    · rfl
    · simp only
      rcases tags[needle + 1]? with _ | ⟨b, _ | _⟩ <;> rfl
    · rfl

theorem erase_thumbLoop (search : TagSearch) (address : Nat) (v7 : Bool) (tags : List (Nat × Tag)) (len : Nat)
    (n : Nat) : ∀ (l : List Half), l.length ≤ n → ∀ (skip i : Nat) (st : ThumbState),
    erase (thumbLoopReport search address v7 tags len skip i l st) =
      thumbLoop search address v7 tags len skip i l st := by
  induction n with
  | zero =>
    intro l hl skip i st
    obtain rfl := List.length_eq_zero_iff.mp (Nat.le_zero.mp hl)
    cases skip <;> rfl
  | succ n ih =>
    intro l hl skip i st
    cases l with
    | nil => cases skip <;> rfl
    | cons first rest =>
      have hr : rest.length ≤ n := by simpa using hl
      cases skip with
      | succ skip => exact ih rest hr skip (i + 1) st
      | zero =>
        rw [thumbLoopReport.eq_def, thumbLoop.eq_def]
        simp only [← erase_tag search tags (address + 2 * i)]
        rcases tagReport search tags (address + 2 * i) with e | (_ | k | _)
        · rfl
        · simp only [erase]
          cases hd : decode16 v7 first with
          | some act => exact ih rest hr 0 (i + 1) _
          | none =>
            cases rest with
            | nil => rfl
            | cons second rest => exact ih rest (by simp at hr; omega) 0 (i + 2) _
        · exact ih rest hr k (i + 1) st
        · rfl

theorem erase_thumb (search : TagSearch) (bytes : List Nat) (address : Nat) (v7 : Bool)
    (tags : List (Nat × Tag)) :
    erase (thumbReport search bytes address v7 tags) = thumbAnalyze search bytes address v7 tags :=
  erase_thumbLoop search address v7 tags bytes.length _ _ (Nat.le_refl _) 0 0 _

theorem erase_override (name : Str) (llvm : Local) (our : Option Nat) (sp asm outlined : Bool) :
    erase (overrideReport name llvm our sp asm outlined) = overrideLocal llvm our sp asm outlined := by
  unfold overrideReport overrideLocal
  cases our with
  | none =>
    cases llvm with
    | exact n =>
      simp only [Option.any_none, Bool.false_eq_true, if_false, overrideExact]
      split <;> rfl
    | unknown =>
      simp only [Option.any_none, Bool.false_eq_true, if_false]
      split <;> rfl
  | some k =>
    simp only [Option.any_some]
    split
    · rfl
    · cases llvm with
      | unknown => rfl
      | exact n =>
        have h : erase (overrideExactReport name n (some k) asm outlined) =
            overrideExact n (some k) asm outlined := by
          unfold overrideExactReport overrideExact
          simp only
          repeat' split
          all_goals rfl
        simp only
        rw [← h]
        rcases overrideExactReport name n (some k) asm outlined with e | n'
        · rfl
        · simp only [erase]
          by_cases hn : (decide (n' ≠ 0) != sp) = true
          · rw [if_pos hn, if_pos hn]; rfl
          · rw [if_neg hn, if_neg hn]

theorem erase_useThumb (r : ThumbState) (canonical : Str) (address size : Nat) (st : Build) :
    erase (useThumbReport r canonical address size st) = useThumb r canonical address size st := by
  unfold useThumbReport useThumb
  cases mget canonical st.indices with
  | none => rfl
  | some caller =>
    have key : ∀ st1 : Build, erase (match reported (blLoop caller address st1 r.bls) with
        | .error e => .error e
        | .ok st => reported (bLoop caller address size st r.bs)) =
        (match blLoop caller address st1 r.bls with
        | .error e => .error e
        | .ok st => bLoop caller address size st r.bs) := by
      intro st1
      cases blLoop caller address st1 r.bls with
      | error e => simp [reported, erase, kind_ofPanic]
      | ok st => simp only [reported]; exact erase_reported _
    simp only
    cases st.g.localAt caller with
    | error e => rfl
    | ok llvm =>
      simp only
      rw [← erase_override canonical]
      rcases overrideReport canonical llvm r.stack r.modifiesSp (st.asmFns.contains canonical)
        (isOutlined canonical) with e | loc
      · rfl
      · exact key _

theorem erase_machineStep (search : TagSearch) (v7 : Bool) (tags : List (Nat × Tag)) (stext : Nat)
    (text : List Nat) (st : Build) (e : Nat × Sym) :
    erase (machineStepReport search v7 tags stext text st e) =
      machineStep search v7 tags stext text st e := by
  unfold machineStepReport machineStep
  rcases e.2.names with _ | ⟨first, rest⟩
  · rfl
  · simp only
    cases mget first st.aliases with
    | none => rfl
    | some canonical =>
      simp only
      cases textSlice stext text (e.1 % 2 ^ 32) (symSize search tags (e.1 % 2 ^ 32) (e.2.size % 2 ^ 32)) with
      | error err => rfl
      | ok bytes =>
        simp only
        rw [← erase_thumb]
        rcases thumbReport search bytes (e.1 % 2 ^ 32) v7 tags with err | r
        · rfl
        · exact erase_useThumb ..

theorem erase_machineLoop (search : TagSearch) (v7 : Bool) (tags : List (Nat × Tag)) (stext : Nat)
    (text : List Nat) (es : List (Nat × Sym)) (st : Build) :
    erase (machineLoopReport search v7 tags stext text st es) =
      machineLoop search v7 tags stext text st es := by
  induction es generalizing st with
  | nil => rfl
  | cons e es ih =>
    simp only [machineLoopReport, machineLoop]
    rw [← erase_machineStep]
    rcases machineStepReport search v7 tags stext text st e with err | st'
    · rfl
    · exact ih st'

theorem erase_machine (search : TagSearch) (p : Program) (elf : Elf) (st : Build) :
    erase (machineReport search p elf st) = machinePass search p elf st := by
  unfold machineReport machinePass
  split
  · rcases elf.text with _ | ⟨stext, text⟩
    · rfl
    · exact erase_machineLoop ..
  · rfl

theorem erase_run (demangle : Str → Str) (ord : HashOrder) (search : TagSearch) (p : Program) (elf : Elf)
    (start : Option Str) (format : OutputFormat) :
    erase (runReport demangle ord search p elf start format) =
      runText demangle ord search p elf start format := by
  unfold runReport runText finalGraph callGraph
  have h1 := erase_reported (irGraph demangle p)
  generalize reported (irGraph demangle p) = x at h1 ⊢
  rw [← h1]
  rcases x with e | st
  · rfl
  simp only [erase_ok]
  have h2 := erase_machine search p elf st
  generalize machineReport search p elf st = x at h2 ⊢
  rw [← h2]
  rcases x with e | st
  · rfl
  simp only [erase_ok]
  have h3 := erase_reported (applyStart demangle st.indices start (addIndirects ord st))
  generalize reported (applyStart demangle st.indices start (addIndirects ord st)) = x at h3 ⊢
  rw [← h3]
  rcases x with e | g
  · rfl
  simp only [erase_ok]
  have h4 := erase_reported (analyzeMax st.hasStackUsageInfo g)
  generalize reported (analyzeMax st.hasStackUsageInfo g) = x at h4 ⊢
  rw [← h4]
  rcases x with e | ⟨g, cycles⟩
  · rfl
  simp only [erase_ok]
  have h5 := erase_reported (shortenNodes demangle st.ambiguous g.nodes)
  generalize reported (shortenNodes demangle st.ambiguous g.nodes) = x at h5 ⊢
  rw [← h5]
  rcases x with e | nodes
  · rfl
  cases format <;> rfl

end CallStack
