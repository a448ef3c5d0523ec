import Verif.Spec.Thumb

/-!
The decoding of 16-bit instructions: the table of patterns against the encodings of the manual.
-/

namespace CallStack

/-- A pattern as a mask and a value for the high and for the low byte. -/
structure MaskRow where
  v7 : Bool
  maskHi : Nat
  valueHi : Nat
  maskLo : Nat
  valueLo : Nat
  act : Act16
  deriving DecidableEq

def Row16.compile (r : Row16) : MaskRow :=
  let p := (r.pattern.drop 2).filter (fun c => c != '_')
  ⟨r.v7, patMask (p.take 8), patValue (p.take 8), patMask (p.drop 8), patValue (p.drop 8), r.act⟩

/-- `table16` with the patterns as masks and values. -/
def rows16 : List MaskRow :=
  [⟨false, 255, 65, 192, 64, .skip⟩,
   ⟨false, 254, 28, 0, 0, .skip⟩,
   ⟨false, 248, 48, 0, 0, .skip⟩,
   ⟨false, 254, 24, 0, 0, .skip⟩,
   ⟨false, 255, 68, 0, 0, .skip⟩,
   ⟨false, 248, 168, 0, 0, .skip⟩,
   ⟨false, 255, 176, 128, 0, .skip⟩,
   ⟨false, 255, 68, 120, 104, .skip⟩,
   ⟨false, 255, 68, 135, 133, .skip⟩,
   ⟨false, 248, 160, 0, 0, .skip⟩,
   ⟨false, 255, 64, 192, 0, .skip⟩,
   ⟨false, 248, 16, 0, 0, .skip⟩,
   ⟨false, 255, 65, 192, 0, .skip⟩,
   ⟨false, 255, 222, 0, 0, .skip⟩,
   ⟨false, 255, 223, 0, 0, .skip⟩,
   ⟨false, 240, 208, 0, 0, .bT1⟩,
   ⟨false, 248, 224, 0, 0, .bT2⟩,
   ⟨false, 255, 67, 192, 128, .skip⟩,
   ⟨false, 255, 174, 0, 0, .skip⟩,
   ⟨false, 255, 71, 135, 128, .blx⟩,
   ⟨false, 255, 71, 135, 0, .bx⟩,
   ⟨true, 245, 177, 0, 0, .skip⟩,
   ⟨false, 255, 66, 192, 192, .skip⟩,
   ⟨false, 248, 40, 0, 0, .skip⟩,
   ⟨false, 255, 66, 192, 128, .skip⟩,
   ⟨false, 255, 69, 0, 0, .skip⟩,
   ⟨false, 255, 182, 236, 96, .skip⟩,
   ⟨false, 255, 64, 192, 64, .skip⟩,
   ⟨true, 255, 191, 0, 0, .skip⟩,
   ⟨false, 248, 200, 0, 0, .skip⟩,
   ⟨false, 248, 104, 0, 0, .skip⟩,
   ⟨false, 248, 152, 0, 0, .skip⟩,
   ⟨false, 248, 72, 0, 0, .skip⟩,
   ⟨false, 254, 88, 0, 0, .skip⟩,
   ⟨false, 248, 120, 0, 0, .skip⟩,
   ⟨false, 254, 92, 0, 0, .skip⟩,
   ⟨false, 248, 136, 0, 0, .skip⟩,
   ⟨false, 254, 90, 0, 0, .skip⟩,
   ⟨false, 254, 86, 0, 0, .skip⟩,
   ⟨false, 254, 94, 0, 0, .skip⟩,
   ⟨false, 248, 0, 0, 0, .skip⟩,
   ⟨false, 255, 64, 192, 128, .skip⟩,
   ⟨false, 248, 8, 0, 0, .skip⟩,
   ⟨false, 255, 64, 192, 192, .skip⟩,
   ⟨false, 248, 32, 0, 0, .skip⟩,
   ⟨false, 255, 70, 0, 0, .skip⟩,
   ⟨false, 255, 0, 192, 0, .skip⟩,
   ⟨false, 255, 67, 192, 64, .skip⟩,
   ⟨false, 255, 67, 192, 192, .skip⟩,
   ⟨false, 255, 191, 255, 0, .skip⟩,
   ⟨false, 255, 67, 192, 0, .skip⟩,
   ⟨false, 254, 188, 0, 0, .skip⟩,
   ⟨false, 254, 180, 0, 0, .push⟩,
   ⟨false, 255, 186, 192, 0, .skip⟩,
   ⟨false, 255, 186, 192, 64, .skip⟩,
   ⟨false, 255, 186, 192, 192, .skip⟩,
   ⟨false, 255, 65, 192, 192, .skip⟩,
   ⟨false, 255, 66, 192, 64, .skip⟩,
   ⟨false, 255, 65, 192, 128, .skip⟩,
   ⟨false, 255, 191, 255, 64, .skip⟩,
   ⟨false, 248, 192, 0, 0, .skip⟩,
   ⟨false, 248, 96, 0, 0, .skip⟩,
   ⟨false, 248, 144, 0, 0, .skip⟩,
   ⟨false, 254, 80, 0, 0, .skip⟩,
   ⟨false, 248, 112, 0, 0, .skip⟩,
   ⟨false, 254, 84, 0, 0, .skip⟩,
   ⟨false, 248, 128, 0, 0, .skip⟩,
   ⟨false, 254, 82, 0, 0, .skip⟩,
   ⟨false, 254, 30, 0, 0, .skip⟩,
   ⟨false, 248, 56, 0, 0, .skip⟩,
   ⟨false, 254, 26, 0, 0, .skip⟩,
   ⟨false, 255, 176, 128, 128, .subSp⟩,
   ⟨false, 255, 178, 192, 64, .skip⟩,
   ⟨false, 255, 178, 192, 0, .skip⟩,
   ⟨false, 255, 66, 192, 0, .skip⟩,
   ⟨false, 255, 178, 192, 192, .skip⟩,
   ⟨false, 255, 178, 192, 128, .skip⟩,
   ⟨false, 255, 191, 255, 32, .skip⟩,
   ⟨false, 255, 191, 255, 48, .skip⟩,
   ⟨false, 255, 191, 255, 16, .skip⟩]

theorem rows16_eq : table16.map Row16.compile = rows16 := by decide +kernel

/-- The assertions of `matches` (thumb.rs:573-576) hold for every pattern of the table. -/
theorem table16_patterns : ∀ r ∈ table16, r.pattern.take 2 = c!"0b" ∧
    ((r.pattern.drop 2).filter (fun c => c != '_')).length = 16 ∧
    ∀ c ∈ (r.pattern.drop 2).filter (fun c => c != '_'), c = '0' ∨ c = '1' ∨ c = 'x' := by
  decide +kernel

def MaskRow.hiOk (r : MaskRow) (v7 : Bool) (hi : Nat) : Bool :=
  (!r.v7 || v7) && (hi &&& r.maskHi == r.valueHi)

def MaskRow.loOk (r : MaskRow) (lo : Nat) : Bool := lo &&& r.maskLo == r.valueLo

theorem decode16_eq (v7 : Bool) (lo hi : Nat) :
    decode16 v7 (lo, hi) =
      (rows16.find? (fun r => r.hiOk v7 hi && r.loOk lo)).map (·.act) := by
  rw [← rows16_eq, List.find?_map, decode16, Option.map_map]
  have : (fun r : Row16 => (!r.v7 || v7) && matchesPat (lo, hi) r.pattern) =
      ((fun r : MaskRow => r.hiOk v7 hi && r.loOk lo) ∘ Row16.compile) := by
    funext r
    simp [MaskRow.hiOk, MaskRow.loOk, Row16.compile, matchesPat, Bool.and_assoc]
  rw [this]
  rfl

/-- The first row whose high byte fits, if it does not look at the low byte. -/
def firstHi (v7 : Bool) (hi : Nat) : Option Act16 :=
  match rows16.find? (fun r => r.hiOk v7 hi) with
  | some r => if r.maskLo = 0 ∧ r.valueLo = 0 then some r.act else none
  | none => none

theorem find?_and {α : Type} {p q : α → Bool} {l : List α} {a : α} (h : l.find? p = some a)
    (hq : q a = true) : l.find? (fun x => p x && q x) = some a := by
  induction l with
  | nil => simp at h
  | cons b l ih =>
    rw [List.find?_cons] at h ⊢
    cases hb : p b with
    | true =>
      rw [hb] at h
      simp only [Option.some.injEq] at h
      subst h
      simp [hq]
    | false =>
      rw [hb] at h
      simp only [Bool.false_and]
      exact ih h

theorem decode16_of_firstHi {v7 : Bool} {hi : Nat} {a : Act16} (lo : Nat)
    (h : firstHi v7 hi = some a) : decode16 v7 (lo, hi) = some a := by
  unfold firstHi at h
  rw [decode16_eq]
  cases hf : rows16.find? (fun r => r.hiOk v7 hi) with
  | none => rw [hf] at h; simp at h
  | some r =>
    rw [hf] at h
    simp only [Option.ite_none_right_eq_some, Option.some.injEq] at h
    obtain ⟨⟨h0, h1⟩, h2⟩ := h
    rw [find?_and hf (by simp [MaskRow.loOk, h0, h1])]
    simp [h2]

theorem decode16_none {v7 : Bool} {hi : Nat} (lo : Nat)
    (h : rows16.all (fun r => !r.hiOk v7 hi) = true) : decode16 v7 (lo, hi) = none := by
  rw [decode16_eq]
  simp only [Option.map_eq_none_iff, List.find?_eq_none]
  intro r hr
  rw [List.all_eq_true] at h
  have := h r hr
  simp at this
  simp [this]

/-- High bytes for which the first row looks at the low byte. -/
def mixedHi : List Nat := [0x40, 0x41, 0x42, 0x43, 0xB0, 0xB2, 0xB6, 0xBA, 0xBF]

theorem plain16_const : ∀ v7 : Bool, ∀ hi < 256, hi ∉ mixedHi →
    plain16 v7 hi 255 = true → firstHi v7 hi = some .skip := by
  decide +kernel

theorem plain16_mixed : ∀ v7 : Bool, ∀ hi ∈ mixedHi, ∀ lo < 256,
    plain16 v7 hi lo = true →
    (rows16.find? (fun r => r.hiOk v7 hi && r.loOk lo)).map (·.act) = some .skip := by
  decide +kernel

theorem plain16_lt {v7 : Bool} {hi lo : Nat} (h : plain16 v7 hi lo = true) : hi < 0xE0 := by
  refine Classical.byContradiction fun hn => ?_
  unfold plain16 at h
  rw [if_neg (by omega), if_neg (by omega), if_neg (by omega), if_neg (by omega),
    if_neg (by omega)] at h
  have e : ∀ n < 0xE0, decide (hi = n) = false := fun n hn' => decide_eq_false (by omega)
  simp only [e _ (show 0xB1 < 0xE0 by omega), e _ (show 0xB3 < 0xE0 by omega),
    e _ (show 0xB9 < 0xE0 by omega), e _ (show 0xBB < 0xE0 by omega),
    e _ (show 0xBC < 0xE0 by omega), e _ (show 0xBD < 0xE0 by omega),
    e _ (show 0xDE < 0xE0 by omega), e _ (show 0xDF < 0xE0 by omega), Bool.or_self,
    Bool.false_eq_true, if_false] at h
  rw [if_neg (by omega), if_neg (by omega), if_neg (by omega), if_neg (by omega),
    if_neg (by omega), if_neg (by omega)] at h
  exact absurd h (by decide)

theorem decode16_plain {v7 : Bool} {hi lo : Nat} (hlo : lo < 256) (h : plain16 v7 hi lo = true) :
    decode16 v7 (lo, hi) = some .skip := by
  have hhi := plain16_lt h
  by_cases hm : hi ∈ mixedHi
  · rw [decode16_eq]
    exact plain16_mixed v7 hi hm lo hlo h
  · refine decode16_of_firstHi lo (plain16_const v7 hi (by omega) hm ?_)
    simp only [mixedHi, List.mem_cons, List.not_mem_nil, or_false, not_or] at hm
    by_cases h45 : hi = 0x45
    · rw [h45]
      rfl
    · rw [← h]
      unfold plain16
      refine ite_congr rfl (fun _ => rfl) fun _ => ?_
      refine ite_congr rfl (fun _ => ?_) fun _ => ?_
      · have : (hi != 69) = true := by simpa using h45
        rw [this]
        rfl
      refine ite_congr rfl (fun _ => rfl) fun _ => ?_
      refine ite_congr rfl (fun _ => rfl) fun _ => ?_
      refine ite_congr rfl (fun _ => by omega) fun _ => ?_
      refine ite_congr rfl (fun _ => rfl) fun _ => ?_
      refine ite_congr rfl (fun _ => rfl) fun _ => ?_
      refine ite_congr rfl (fun _ => by omega) fun _ => ?_
      refine ite_congr rfl (fun _ => by omega) fun _ => ?_
      refine ite_congr rfl (fun _ => rfl) fun _ => ?_
      refine ite_congr rfl (fun _ => by omega) fun _ => ?_
      rfl

theorem hi_b1 : ∀ v7 : Bool, ∀ hi < 256, 0xD0 ≤ hi → hi < 0xDE → firstHi v7 hi = some .bT1 := by
  decide +kernel

theorem hi_b2 : ∀ v7 : Bool, ∀ hi < 256, 0xE0 ≤ hi → hi < 0xE8 → firstHi v7 hi = some .bT2 := by
  decide +kernel

theorem hi_push : ∀ v7 : Bool, ∀ hi < 256, hi = 0xB4 ∨ hi = 0xB5 → firstHi v7 hi = some .push := by
  decide +kernel

theorem hi_wide : ∀ v7 : Bool, ∀ hi < 256, 0xE8 ≤ hi →
    rows16.all (fun r => !r.hiOk v7 hi) = true := by
  decide +kernel

theorem hi_subSp : ∀ v7 : Bool, ∀ lo < 256, 128 ≤ lo →
    (rows16.find? (fun r => r.hiOk v7 0xB0 && r.loOk lo)).map (·.act) = some .subSp := by
  decide +kernel

theorem hi_blx : ∀ v7 : Bool, ∀ rm < 16,
    (rows16.find? (fun r => r.hiOk v7 0x47 && r.loOk (0x80 + rm * 8))).map (·.act) = some .blx := by
  decide +kernel

theorem hi_bx : ∀ v7 : Bool, ∀ rm < 16,
    (rows16.find? (fun r => r.hiOk v7 0x47 && r.loOk (rm * 8))).map (·.act) = some .bx := by
  decide +kernel

theorem decode16_bkpt : ∀ v7 : Bool, rows16.all (fun r => !r.hiOk v7 0xBE) = true := by
  decide +kernel

end CallStack
