import Verif.Model.Words
import Verif.Spec.Words
import Verif.Proof.MachineRun
import Verif.Proof.Markers

/-!
No operation of the machine code pass leaves its type, if the code section is where code can be.
-/

namespace CallStack

theorem inWord_ok {m : Overflow} {lo : Int} {bits : Nat} {x : Int} (h1 : lo ≤ x)
    (h2 : x < lo + 2 ^ bits) : inWord m lo bits x = .ok x := if_pos ⟨h1, h2⟩

theorem i32_ok {m : Overflow} {x : Int} (h1 : -2 ^ 31 ≤ x) (h2 : x < 2 ^ 31) : i32 m x = .ok x :=
  inWord_ok h1 (by omega)

theorem u32_ok {m : Overflow} {x : Int} (h1 : 0 ≤ x) (h2 : x < 2 ^ 32) : u32 m x = .ok x :=
  inWord_ok h1 (by omega)

theorem u64_ok {m : Overflow} {x : Int} (h1 : 0 ≤ x) (h2 : x < 2 ^ 64) : u64 m x = .ok x :=
  inWord_ok h1 (by omega)

theorem Except.ok_bind' {ε α β : Type} (a : α) (f : α → Except ε β) :
    (Except.ok a : Except ε α).bind f = f a := rfl

theorem signExtend_bounds (x : Nat) {n : Nat} (h0 : 0 < n) (h1 : n ≤ 32) :
    -2 ^ (n - 1) ≤ signExtend x n ∧ signExtend x n < 2 ^ (n - 1) := by
  unfold signExtend
  generalize (BitVec.ofNat 32 x) <<< (32 - n) = b
  have hb1 : -2 ^ 31 ≤ b.toInt := BitVec.le_toInt b
  have hb2 : b.toInt < 2 ^ 31 := BitVec.toInt_lt (x := b)
  rw [BitVec.toInt_sshiftRight, Int.shiftRight_eq_div_pow]
  have hp : (2 : Int) ^ 31 = 2 ^ (n - 1) * 2 ^ (32 - n) := by
    rw [← Int.pow_add]; congr 1; omega
  have hq : (0 : Int) < 2 ^ (32 - n) := Int.pow_pos (by decide)
  push_cast
  constructor
  · rw [Int.le_ediv_iff_mul_le hq]
    have : -2 ^ (n - 1) * 2 ^ (32 - n) = -(2 : Int) ^ 31 := by rw [hp, Int.neg_mul]
    omega
  · exact Int.ediv_lt_of_lt_mul hq (by omega)

/-- Immediate offsets of the branches. -/
def ShortOff (x : Int) : Prop := -2 ^ 24 ≤ x ∧ x < 2 ^ 24

theorem shortOff_signExtend (x : Nat) {n : Nat} (h0 : 0 < n) (h1 : n ≤ 25) : ShortOff (signExtend x n) := by
  obtain ⟨a, b⟩ := signExtend_bounds x h0 (by omega)
  have hp : (2 : Int) ^ (n - 1) ≤ 2 ^ 24 := by
    have : (2 : Nat) ^ (n - 1) ≤ 2 ^ 24 := Nat.pow_le_pow_right (by decide) (by omega)
    exact_mod_cast this
  constructor <;> omega

theorem shortOff_zero {y : Int} {n : Nat} (h0 : 0 < n) (h1 : n ≤ 25)
    (h : ∃ x, y = signExtend x n + (2 * ((0 : Nat) : Int) + 4)) : ShortOff (y - 4) := by
  obtain ⟨x, h⟩ := h
  rw [h, show ∀ z : Int, z + (2 * ((0 : Nat) : Int) + 4) - 4 = z by intro z; omega]
  exact shortOff_signExtend x h0 h1

theorem shortOff_b3 (first second : Half) : ShortOff (offB3 0 first second - 4) := by
  refine shortOff_zero (n := 21) (by decide) (by decide) ?_
  exact ⟨_, rfl⟩

theorem shortOff_b4 (first second : Half) : ShortOff (offB4 0 first second - 4) := by
  refine shortOff_zero (n := 25) (by decide) (by decide) ?_
  exact ⟨_, rfl⟩

theorem shortOff_bl (first second : Half) : ShortOff (offBl 0 first second - 4) := by
  refine shortOff_zero (n := 25) (by decide) (by decide) ?_
  exact ⟨_, rfl⟩

theorem offB3_add (i : Nat) (first second : Half) :
    offB3 i first second = offB3 0 first second - 4 + (2 * i + 4) := by unfold offB3; simp

theorem offB4_add (i : Nat) (first second : Half) :
    offB4 i first second = offB4 0 first second - 4 + (2 * i + 4) := by unfold offB4; simp

theorem offBl_add (i : Nat) (first second : Half) :
    offBl i first second = offBl 0 first second - 4 + (2 * i + 4) := by unfold offBl; simp

theorem offsetW_eq {m : Overflow} {x : Int} {i : Nat} (hx : ShortOff x) (hi : i < 536870912) :
    offsetW m x i = .ok (x + (2 * i + 4)) := by
  obtain ⟨h1, h2⟩ := hx
  unfold offsetW
  rw [i32_ok (by omega) (by omega), Except.ok_bind', i32_ok (by omega) (by omega), Except.ok_bind',
    i32_ok (by omega) (by omega)]

theorem branchW_eq {m : Overflow} {st : ThumbState} {len : Nat} {x : Int} {i : Nat} (hx : ShortOff x)
    (hi : i < 536870912) : st.branchW m len x i = .ok (st.branch len (x + (2 * i + 4))) := by
  unfold ThumbState.branchW
  rw [offsetW_eq hx hi, Except.ok_bind']

/-- The counter is far from its limit. -/
def SmallStack (st : ThumbState) (i : Nat) : Prop := ∀ s, st.stack = some s → s ≤ i * 4294967296

theorem subSpW_eq {m : Overflow} {st : ThumbState} {i n : Nat} (hs : SmallStack st i) (hi : i < 536870912)
    (hn : n ≤ 2 ^ 32) : st.subSpW m n = .ok (st.subSp n) := by
  unfold ThumbState.subSpW addStackW ThumbState.subSp
  cases h : st.stack with
  | none => rfl
  | some s =>
    have := hs s h
    simp only
    rw [u64_ok (by omega) (by omega), Except.ok_bind', Except.ok_bind']
    congr 2

theorem step16W_eq {m : Overflow} {len i : Nat} {first : Half} {st : ThumbState} {a : Act16}
    (hs : SmallStack st i) (hi : i < 536870912) :
    step16W m len i first st a = .ok (step16 len i first st a) := by
  cases a with
  | skip => rfl
  | bT1 => exact branchW_eq (shortOff_signExtend _ (by decide) (by decide)) hi
  | bT2 => exact branchW_eq (shortOff_signExtend _ (by decide) (by decide)) hi
  | blx => rfl
  | bx => rfl
  | push =>
    refine subSpW_eq hs hi ?_
    have := popcount16_le (((first.2 &&& 1) <<< 14) ||| first.1)
    omega
  | subSp =>
    refine subSpW_eq hs hi ?_
    have := and_lt first.1 0x7F 7 (by decide)
    rw [Nat.shiftLeft_eq]
    omega

theorem step32W_eq {m : Overflow} {len i : Nat} {first second : Half} {st : ThumbState} {a : Act32}
    (hs : SmallStack st i) (hi : i < 536870912) :
    step32W m len i first second st a = .ok (step32 len i first second st a) := by
  cases a with
  | stmdb =>
    unfold step32W step32
    simp only
    split
    · refine subSpW_eq hs hi ?_
      have := popcount16_le
        ((((second.2 >>> 6) &&& 1) <<< 14) ||| (((second.2 &&& 0x1F) <<< 8) ||| second.1))
      omega
    · rfl
  | subW =>
    unfold step32W step32
    simp only
    split
    · exact subSpW_eq hs hi (Nat.le_of_lt (thumbExpandImm_lt _))
    · rfl
  | vpush =>
    refine subSpW_eq hs hi ?_
    have := and_lt second.1 0xFF 8 (by decide)
    rw [Nat.shiftLeft_eq]
    omega
  | bT3 =>
    unfold step32W step32
    simp only
    split
    · rfl
    · rw [branchW_eq (shortOff_b3 _ _) hi, ← offB3_add]
  | bT4 =>
    unfold step32W step32
    simp only
    rw [branchW_eq (shortOff_b4 _ _) hi, ← offB4_add]
  | bl =>
    unfold step32W step32
    simp only
    rw [offsetW_eq (shortOff_bl _ _) hi, Except.ok_bind', ← offBl_add]
  | strT4 =>
    unfold step32W step32
    simp only
    split
    · refine subSpW_eq hs hi ?_
      have := and_lt second.1 0xFF 8 (by decide)
      omega
    · rfl
  | other => rfl

theorem SmallStack.step {st st' : ThumbState} {i k : Nat} (hs : SmallStack st i)
    (h : StackLe st.stack st'.stack (2 ^ 32)) (hk : i < k) : SmallStack st' k := by
  intro s hs'
  obtain ⟨x, h1, h2⟩ := h s hs'
  have := hs x h1
  have : (i + 1) * 4294967296 ≤ k * 4294967296 := Nat.mul_le_mul_right _ hk
  omega

theorem SmallStack.later {st : ThumbState} {i k : Nat} (hs : SmallStack st i) (hk : i ≤ k) :
    SmallStack st k := by
  intro s hs'
  exact Nat.le_trans (hs s hs') (Nat.mul_le_mul_right _ hk)

/-- Tags sorted by address, all of them 32-bit addresses. -/
def TagsOk (tags : List (Nat × Tag)) : Prop :=
  tags.Pairwise (fun x y => x.1 ≤ y.1) ∧ ∀ t ∈ tags, t.1 < 2 ^ 32

theorem mem_sortTags' {u : Nat × Tag} {l : List (Nat × Tag)} : u ∈ sortTags l ↔ u ∈ l := by
  induction l with
  | nil => simp [sortTags]
  | cons x l ih => simp [sortTags, mem_insertTag, ih]

theorem tagsOk_elfTags (symtab : List (Nat × Str)) : TagsOk (elfTags symtab) := by
  refine ⟨sortTags_sorted _, ?_⟩
  intro t ht
  obtain ⟨e, _, he⟩ := List.mem_filterMap.mp (mem_sortTags'.mp ht)
  unfold tagOf at he
  split at he
  · cases he; exact Nat.mod_lt _ (by decide)
  · split at he
    · cases he; exact Nat.mod_lt _ (by decide)
    · cases he

theorem TagsOk.next {tags : List (Nat × Tag)} (ok : TagsOk tags) {k a b : Nat} {x y : Tag}
    (h : tags[k]? = some (a, x)) (h' : tags[k + 1]? = some (b, y)) : a ≤ b ∧ b < 2 ^ 32 := by
  obtain ⟨h1, e1⟩ := List.getElem?_eq_some_iff.mp h
  obtain ⟨h2, e2⟩ := List.getElem?_eq_some_iff.mp h'
  have hp := List.pairwise_iff_getElem.mp ok.1 k (k + 1) h1 h2 (by omega)
  rw [e1, e2] at hp
  have := ok.2 _ (List.getElem_mem h2)
  rw [e2] at this
  exact ⟨hp, this⟩

theorem tagActW_eq {m : Overflow} {search : TagSearch} {tags : List (Nat × Tag)} (ok : TagsOk tags)
    (start : Nat) : tagActW m search tags start = tagAct search tags start := by
  unfold tagActW tagAct
  cases hf : search.find tags start with
  | none => rfl
  | some needle =>
    simp only
    obtain ⟨t, ht⟩ := search.sound tags start needle hf
    rw [ht]
    cases t with
    | thumb => rfl
    | data =>
      simp only
      cases hn : tags[needle + 1]? with
      | none => rfl
      | some n =>
        obtain ⟨stop, tag⟩ := n
        cases tag with
        | data => rfl
        | thumb =>
          simp only
          obtain ⟨h1, h2⟩ := ok.next ht hn
          rw [u32_ok (by omega) (by omega), Except.ok_bind']
          congr 3
          omega

theorem nextIndex_eq {m : Overflow} {i : Nat} (hi : i < 536870912) : nextIndex m i = .ok ((i + 1 : Nat) : Int) := by
  unfold nextIndex
  rw [i32_ok (by omega) (by omega)]
  rfl

theorem asU32_nat {n : Nat} (h : n < 2 ^ 32) : asU32 n = n := by
  unfold asU32
  omega

theorem headW_eq {m : Overflow} {search : TagSearch} {address : Nat} {tags : List (Nat × Tag)}
    (ok : TagsOk tags) {i : Nat} (hi : i < 536870912) (ha : address + 2 * i < 2 ^ 32) :
    headW m search address tags i =
      (tagAct search tags (address + 2 * i)).bind fun act => .ok (((i + 1 : Nat) : Int), act) := by
  have h1 : (0 : Int) ≤ 2 * (i : Int) := by omega
  have h2 : 2 * (i : Int) < 2 ^ 32 := by omega
  have h3 : (0 : Int) ≤ (address : Int) + 2 * (i : Int) := by omega
  have h4 : (address : Int) + 2 * (i : Int) < 2 ^ 32 := by omega
  have h5 : ((address : Int) + 2 * (i : Int)).toNat = address + 2 * i := by omega
  unfold headW
  rw [nextIndex_eq hi, Except.ok_bind', asU32_nat (by omega), u32_ok h1 h2, Except.ok_bind',
    u32_ok h3 h4, Except.ok_bind', h5, tagActW_eq ok]

theorem wideW_eq {m : Overflow} {v7 : Bool} {len i : Nat} {first second : Half} {st : ThumbState}
    (hs : SmallStack st i) (hi : i + 1 < 536870912) :
    wideW m v7 len i ((i + 1 : Nat) : Int) first second st =
      .ok (((i + 2 : Nat) : Int), step32 len i first second st (decode32 v7 first second)) := by
  unfold wideW
  rw [nextIndex_eq hi, Except.ok_bind', step32W_eq hs (by omega), Except.ok_bind']

section
variable {m : Overflow} {search : TagSearch} {address : Nat} {v7 : Bool} {tags : List (Nat × Tag)}
  {len : Nat}

theorem thumbLoopW_nil (skip : Nat) (i : Int) (st : ThumbState) :
    thumbLoopW m search address v7 tags len skip i [] st = .ok st := by cases skip <;> rfl

theorem thumbLoop_nil (skip : Nat) (i : Nat) (st : ThumbState) :
    thumbLoop search address v7 tags len skip i [] st = .ok st := by cases skip <;> rfl

theorem thumbLoopW_skip {skip : Nat} {i i' : Int} {first : Half} {rest : List Half} {st : ThumbState}
    (h : nextIndex m i = .ok i') :
    thumbLoopW m search address v7 tags len (skip + 1) i (first :: rest) st =
      thumbLoopW m search address v7 tags len skip i' rest st := by
  rw [thumbLoopW, h]

theorem thumbLoopW_narrow {i i' : Int} {first : Half} {rest : List Half} {st st' : ThumbState}
    {a : Act16} (h : headW m search address tags i = .ok (i', .code))
    (h1 : decode16 v7 first = some a) (h2 : step16W m len i first st a = .ok st') :
    thumbLoopW m search address v7 tags len 0 i (first :: rest) st =
      thumbLoopW m search address v7 tags len 0 i' rest st' := by
  simp only [thumbLoopW, h, h1, h2]

theorem thumbLoopW_short {i i' : Int} {first : Half} {st : ThumbState}
    (h : headW m search address tags i = .ok (i', .code)) (h1 : decode16 v7 first = none) :
    thumbLoopW m search address v7 tags len 0 i [first] st = .error .unknownInstruction := by
  simp only [thumbLoopW, h, h1]

theorem thumbLoopW_wide {i i' i'' : Int} {first second : Half} {rest : List Half}
    {st st' : ThumbState} (h : headW m search address tags i = .ok (i', .code))
    (h1 : decode16 v7 first = none) (h2 : wideW m v7 len i i' first second st = .ok (i'', st')) :
    thumbLoopW m search address v7 tags len 0 i (first :: second :: rest) st =
      thumbLoopW m search address v7 tags len 0 i'' rest st' := by
  simp only [thumbLoopW, h, h1, h2]

theorem thumbLoopW_data {i i' : Int} {first : Half} {rest : List Half} {st : ThumbState} {n : Nat}
    (h : headW m search address tags i = .ok (i', .skip n)) :
    thumbLoopW m search address v7 tags len 0 i (first :: rest) st =
      thumbLoopW m search address v7 tags len n i' rest st := by
  rw [thumbLoopW.eq_def]
  simp only [h]

theorem thumbLoopW_stop {i i' : Int} {first : Half} {rest : List Half} {st : ThumbState}
    (h : headW m search address tags i = .ok (i', .stop)) :
    thumbLoopW m search address v7 tags len 0 i (first :: rest) st = .ok st := by
  rw [thumbLoopW.eq_def]
  simp only [h]

theorem thumbLoopW_error {i : Int} {first : Half} {rest : List Half} {st : ThumbState} {e : Panic}
    (h : headW m search address tags i = .error e) :
    thumbLoopW m search address v7 tags len 0 i (first :: rest) st = .error e := by
  rw [thumbLoopW.eq_def]
  simp only [h]

end

theorem thumbLoopW_eq {m : Overflow} {search : TagSearch} {address : Nat} {v7 : Bool}
    {tags : List (Nat × Tag)} {len : Nat} (ok : TagsOk tags) (hs : List Half) :
    ∀ (skip i : Nat) (st : ThumbState), i + hs.length ≤ 536870912 →
      address + 2 * (i + hs.length) < 2 ^ 32 → SmallStack st i →
      thumbLoopW m search address v7 tags len skip i hs st =
        thumbLoop search address v7 tags len skip i hs st := by
  induction hs using List.twoStepInduction with
  | nil =>
    intro skip i st _ _ _
    rw [thumbLoopW_nil, thumbLoop_nil]
  | singleton first =>
    intro skip i st hi ha hst
    simp only [List.length_singleton] at hi ha
    cases skip with
    | succ skip =>
      rw [thumbLoopW_skip (nextIndex_eq (by omega)), thumbLoop, thumbLoopW_nil, thumbLoop_nil]
    | zero =>
      have hh := headW_eq (m := m) (search := search) ok (address := address) (i := i) (by omega) (by omega)
      rw [thumbLoop]
      cases ht : tagAct search tags (address + 2 * i) with
      | error e =>
        rw [ht] at hh
        exact thumbLoopW_error hh
      | ok act =>
        rw [ht, Except.ok_bind'] at hh
        cases act with
        | stop => exact thumbLoopW_stop hh
        | skip n => exact (thumbLoopW_data hh).trans ((thumbLoopW_nil _ _ _).trans (thumbLoop_nil _ _ _).symm)
        | code =>
          simp only
          cases hd : decode16 v7 first with
          | none => exact thumbLoopW_short hh hd
          | some a =>
            exact (thumbLoopW_narrow hh hd (step16W_eq hst (by omega))).trans
              ((thumbLoopW_nil _ _ _).trans (thumbLoop_nil _ _ _).symm)
  | cons_cons first second rest ih1 ih2 =>
    intro skip i st hi ha hst
    simp only [List.length_cons] at hi ha
    have hl : (second :: rest).length = rest.length + 1 := rfl
    cases skip with
    | succ skip =>
      rw [thumbLoopW_skip (nextIndex_eq (by omega)), thumbLoop]
      exact ih2 second skip (i + 1) st (by omega) (by omega) (hst.later (by omega))
    | zero =>
      have hh := headW_eq (m := m) (search := search) ok (address := address) (i := i) (by omega) (by omega)
      rw [thumbLoop]
      cases ht : tagAct search tags (address + 2 * i) with
      | error e =>
        rw [ht] at hh
        exact thumbLoopW_error hh
      | ok act =>
        rw [ht, Except.ok_bind'] at hh
        cases act with
        | stop => exact thumbLoopW_stop hh
        | skip n =>
          exact (thumbLoopW_data hh).trans
            (ih2 second n (i + 1) st (by omega) (by omega) (hst.later (by omega)))
        | code =>
          simp only
          cases hd : decode16 v7 first with
          | none =>
            exact (thumbLoopW_wide hh hd (wideW_eq hst (by omega))).trans
              (ih1 0 (i + 2) _ (by omega) (by omega) (hst.step (step32_le _ _ _ _ _ _) (by omega)))
          | some a =>
            exact (thumbLoopW_narrow hh hd (step16W_eq hst (by omega))).trans
              (ih2 second 0 (i + 1) _ (by omega) (by omega)
                (hst.step (step16_le _ _ _ _ _) (by omega)))

theorem thumbAnalyzeW_eq {m : Overflow} {search : TagSearch} {bytes : List Nat} {address : Nat}
    {v7 : Bool} {tags : List (Nat × Tag)} (ok : TagsOk tags) (hl : bytes.length ≤ 2 ^ 30)
    (ha : address + bytes.length < 2 ^ 32) :
    thumbAnalyzeW m search bytes address v7 tags = thumbAnalyze search bytes address v7 tags := by
  have := chunks2_length bytes
  unfold thumbAnalyzeW thumbAnalyze
  refine thumbLoopW_eq ok _ 0 0 _ (by omega) (by omega) ?_
  intro s hs
  cases hs
  omega

end CallStack

namespace CallStack

theorem symSizeW_eq {m : Overflow} {search : TagSearch} {tags : List (Nat × Tag)} (ok : TagsOk tags)
    (address size : Nat) : symSizeW m search tags address size = .ok (symSize search tags address size) := by
  unfold symSizeW symSize
  split
  · rfl
  · cases hf : search.find tags address with
    | none => rfl
    | some needle =>
      simp only
      obtain ⟨t, ht⟩ := search.sound tags address needle hf
      rw [ht]
      cases hn : tags[needle + 1]? with
      | none => cases t <;> rfl
      | some n =>
        obtain ⟨stop, tag⟩ := n
        cases t <;> cases tag
        · rfl
        · rfl
        · rfl
        · simp only
          obtain ⟨h1, h2⟩ := ok.next ht hn
          rw [u32_ok (by omega) (by omega), Except.ok_bind']
          congr 1
          omega

theorem textSliceW_eq {m : Overflow} {stext : Nat} {text : List Nat} {address size : Nat}
    (h : stext + text.length < 2 ^ 32) (ha : address < 2 ^ 32) :
    (textSliceW m (asU32 stext) text address size).toOption =
      (textSlice stext text address size).toOption := by
  unfold textSliceW textSlice
  rw [asU32_nat (by omega)]
  split
  · rename_i hlt
    have hneg : ¬ (0 : Int) ≤ (address : Int) - stext := by omega
    cases m with
    | checked =>
      have : u32 .checked ((address : Int) - stext) = .error .overflow := by
        unfold u32 inWord
        rw [if_neg (fun h => hneg h.1)]
      rw [this]
      rfl
    | wraps =>
      have : u32 .wraps ((address : Int) - stext) = .ok ((address : Int) - stext + 2 ^ 32) := by
        unfold u32 inWord
        rw [if_neg (fun h => hneg h.1)]
        simp only [Except.ok.injEq]
        omega
      rw [this, Except.ok_bind', if_neg (by omega)]
  · rename_i hge
    rw [u32_ok (by omega) (by omega), Except.ok_bind',
      show ((address : Int) - stext).toNat = address - stext by omega]

theorem bLoopW_eq {m : Overflow} {caller address size : Nat} (ha : address < 2 ^ 32)
    (hs : address + size < 2 ^ 32) (offs : List Int)
    (ho : m = .checked → ∀ off ∈ offs, -2 ^ 31 ≤ asI32 address + off ∧ asI32 address + off < 2 ^ 31) :
    ∀ st : Build, bLoopW m caller address size st offs = bLoop caller address size st offs := by
  induction offs with
  | nil => intro st; rfl
  | cons off rest ih =>
    intro st
    have ih' := ih (fun hm o h => ho hm o (List.mem_cons_of_mem _ h))
    have hsum : ∃ sum, i32 m (asI32 address + off) = .ok sum ∧
        asU32 sum = ((address + off) % 2 ^ 32).toNat := by
      cases m with
      | checked =>
        obtain ⟨h3, h4⟩ := ho rfl off List.mem_cons_self
        exact ⟨_, i32_ok h3 h4, by unfold asU32 asI32; omega⟩
      | wraps =>
        unfold i32 inWord
        split
        · exact ⟨_, rfl, by unfold asU32 asI32; omega⟩
        · exact ⟨_, rfl, by unfold asU32 asI32; omega⟩
    obtain ⟨sum, h1, h2⟩ := hsum
    have h3 : (0 : Int) ≤ (address : Int) + size := by omega
    have h4 : (address : Int) + size < 2 ^ 32 := by omega
    unfold bLoopW bLoop
    rw [h1, Except.ok_bind']
    simp only [h2]
    generalize hx : ((address + off) % 2 ^ 32).toNat = addr
    rw [u32_ok h3 h4, Except.ok_bind']
    have hin : (if address ≤ addr then (Except.ok (decide ((addr : Int) < address + size)) : Except Panic Bool)
        else .ok false) = .ok (decide (address ≤ addr ∧ addr < address + size)) := by
      split
      · rename_i h
        have hiff : (addr : Int) < address + size ↔ address ≤ addr ∧ addr < address + size := by omega
        simp only [hiff]
      · rename_i h
        simp [h]
    rw [hin, Except.ok_bind']
    simp only [decide_eq_true_eq]
    split
    · exact ih' st
    · cases callAddr caller st addr with
      | error e => rfl
      | ok st' => exact ih' st'

/-- The offsets of all B instructions. -/
theorem thumbLoop_bs {search : TagSearch} {address : Nat} {v7 : Bool} {tags : List (Nat × Tag)}
    {len : Nat} (hs : List Half) : ∀ (skip i : Nat) (st r : ThumbState),
      thumbLoop search address v7 tags len skip i hs st = .ok r →
      ∀ off ∈ r.bs, off ∈ st.bs ∨ (-2 ^ 24 ≤ off ∧ off < 2 ^ 24 + 2 * (i + hs.length) + 4) := by
  have hb : ∀ (st : ThumbState) (x : Int) (k : Nat), ShortOff x → ∀ off ∈ (st.branch len (x + (2 * k + 4))).bs,
      off ∈ st.bs ∨ (-2 ^ 24 ≤ off ∧ off < 2 ^ 24 + 2 * k + 4) := by
    intro st x k hx off ho
    simp only [ThumbState.branch, List.mem_append, List.mem_singleton] at ho
    refine ho.imp id ?_
    rintro rfl
    obtain ⟨h1, h2⟩ := hx
    constructor <;> omega
  have h16 : ∀ (k : Nat) (first : Half) (st : ThumbState) (a : Act16),
      ∀ off ∈ (step16 len k first st a).bs,
        off ∈ st.bs ∨ (-2 ^ 24 ≤ off ∧ off < 2 ^ 24 + 2 * k + 4) := by
    intro k first st a off ho
    cases a with
    | bT1 => exact hb st _ k (shortOff_signExtend _ (by decide) (by decide)) off ho
    | bT2 => exact hb st _ k (shortOff_signExtend _ (by decide) (by decide)) off ho
    | bx =>
      unfold step16 at ho
      simp only at ho
      split at ho <;> exact Or.inl ho
    | _ => exact Or.inl ho
  have h32 : ∀ (k : Nat) (first second : Half) (st : ThumbState) (a : Act32),
      ∀ off ∈ (step32 len k first second st a).bs,
        off ∈ st.bs ∨ (-2 ^ 24 ≤ off ∧ off < 2 ^ 24 + 2 * k + 4) := by
    intro k first second st a off ho
    cases a with
    | bT3 =>
      unfold step32 at ho
      simp only at ho
      split at ho
      · exact Or.inl ho
      · rw [offB3_add] at ho
        exact hb st _ k (shortOff_b3 _ _) off ho
    | bT4 =>
      unfold step32 at ho
      simp only at ho
      rw [offB4_add] at ho
      exact hb st _ k (shortOff_b4 _ _) off ho
    | stmdb =>
      unfold step32 at ho
      simp only at ho
      split at ho <;> exact Or.inl ho
    | subW =>
      unfold step32 at ho
      simp only at ho
      split at ho <;> exact Or.inl ho
    | strT4 =>
      unfold step32 at ho
      simp only at ho
      split at ho <;> exact Or.inl ho
    | _ => exact Or.inl ho
  induction hs using List.twoStepInduction with
  | nil =>
    intro skip i st r h off ho
    rw [thumbLoop_nil] at h
    cases h
    exact Or.inl ho
  | singleton first =>
    intro skip i st r h off ho
    cases skip with
    | succ skip =>
      rw [thumbLoop, thumbLoop_nil] at h
      cases h
      exact Or.inl ho
    | zero =>
      rw [thumbLoop] at h
      split at h
      · cases h
      · cases h; exact Or.inl ho
      · rw [thumbLoop_nil] at h; cases h; exact Or.inl ho
      · split at h
        · rw [thumbLoop_nil] at h
          cases h
          refine (h16 i _ _ _ off ho).imp id ?_
          simp only [List.length_singleton]
          omega
        · cases h
  | cons_cons first second rest ih1 ih2 =>
    intro skip i st r h off ho
    simp only [List.length_cons] at ih1 ih2 ⊢
    cases skip with
    | succ skip =>
      rw [thumbLoop] at h
      refine (ih2 second _ _ _ _ h off ho).imp id ?_
      omega
    | zero =>
      rw [thumbLoop] at h
      split at h
      · cases h
      · cases h; exact Or.inl ho
      · refine (ih2 second _ _ _ _ h off ho).imp id ?_
        omega
      · split at h
        · rcases ih2 second _ _ _ _ h off ho with h1 | h1
          · refine (h16 i _ _ _ off h1).imp id ?_
            omega
          · right; omega
        · rcases ih1 _ _ _ _ h off ho with h1 | h1
          · refine (h32 i _ _ _ _ off h1).imp id ?_
            omega
          · right; omega

theorem thumbAnalyze_bs {search : TagSearch} {bytes : List Nat} {address : Nat} {v7 : Bool}
    {tags : List (Nat × Tag)} {r : ThumbState} (h : thumbAnalyze search bytes address v7 tags = .ok r) :
    ∀ off ∈ r.bs, -2 ^ 24 ≤ off ∧ off < 2 ^ 24 + bytes.length + 4 := by
  intro off ho
  have hl := chunks2_length bytes
  rcases thumbLoop_bs _ _ _ _ _ h off ho with h1 | h1
  · cases h1
  · omega

theorem useThumbW_eq {m : Overflow} {r : ThumbState} {canonical : Str} {address size : Nat} {st : Build}
    (h : ∀ caller st', bLoopW m caller address size st' r.bs = bLoop caller address size st' r.bs) :
    useThumbW m r canonical address size st = useThumb r canonical address size st := by
  unfold useThumbW useThumb
  cases mget canonical st.indices with
  | none => rfl
  | some caller =>
    simp only
    cases st.g.localAt caller with
    | error e => rfl
    | ok llvm =>
      simp only
      cases overrideLocal llvm r.stack r.modifiesSp (st.asmFns.contains canonical)
          (isOutlined canonical) with
      | error e => rfl
      | ok loc =>
        dsimp only
        split <;> rename_i heq <;> rw [heq]
        exact h caller _

theorem machineStepW_eq {m : Overflow} {search : TagSearch} {v7 : Bool} {tags : List (Nat × Tag)}
    {stext : Nat} {text : List Nat} (ok : TagsOk tags) (h1 : text.length ≤ 2 ^ 30)
    (h2 : stext + text.length < 2 ^ 32)
    (h3 : m = .checked → stext + text.length + 2 ^ 25 ≤ 2 ^ 31 ∨ 2 ^ 31 + 2 ^ 24 ≤ stext)
    (st : Build) (e : Nat × Sym) :
    (machineStepW m search v7 tags stext text st e).toOption =
      (machineStep search v7 tags stext text st e).toOption := by
  unfold machineStepW machineStep
  cases e.2.names with
  | nil => rfl
  | cons first _ =>
    simp only
    cases mget first st.aliases with
    | none => rfl
    | some canonical =>
      simp only
      have hu : ∀ n : Nat, asU32 n = n % 2 ^ 32 := fun n => by unfold asU32; omega
      rw [hu, hu, symSizeW_eq ok, Except.ok_bind']
      have ha : e.1 % 2 ^ 32 < 2 ^ 32 := Nat.mod_lt _ (by decide)
      generalize e.1 % 2 ^ 32 = address at ha
      generalize symSize search tags address (e.2.size % 2 ^ 32) = size
      have hsl := textSliceW_eq (m := m) (size := size) h2 ha
      cases hx : textSlice stext text address size with
      | error err =>
        rw [hx] at hsl
        cases hy : textSliceW m (asU32 stext) text address size with
        | error err' => rfl
        | ok b => rw [hy] at hsl; cases hsl
      | ok bytes =>
        rw [hx] at hsl
        cases hy : textSliceW m (asU32 stext) text address size with
        | error err' => rw [hy] at hsl; cases hsl
        | ok b =>
          rw [hy] at hsl
          cases hsl
          rw [Except.ok_bind']
          simp only
          unfold textSlice at hx
          split at hx
          · cases hx
          · split at hx
            · rename_i hge hle
              cases hx
              generalize hby : (text.drop (address - stext)).take size = bytes
              have hlen : bytes.length = size := by
                rw [← hby, List.length_take, List.length_drop]
                omega
              rw [thumbAnalyzeW_eq ok (by omega) (by omega)]
              cases han : thumbAnalyze search bytes address v7 tags with
              | error err => rfl
              | ok r =>
                rw [Except.ok_bind']
                have hbs := thumbAnalyze_bs han
                rw [useThumbW_eq]
                intro caller st'
                refine bLoopW_eq ha (by omega) _ (fun hm => ?_) st'
                have := h3 hm
                intro off ho
                have := hbs off ho
                unfold asI32
                constructor <;> omega
            · cases hx

theorem machinePassW_eq {m : Overflow} {search : TagSearch} {p : Program} {elf : Elf}
    (placed : elf.Placed m) (st : Build) :
    (machinePassW m search p elf st).toOption = (machinePass search p elf st).toOption := by
  unfold machinePassW machinePass
  split
  · cases hx : elf.text with
    | none => rfl
    | some x =>
      obtain ⟨stext, text⟩ := x
      obtain ⟨h1, h2, h3⟩ := placed stext text hx
      simp only
      have hloop : ∀ (l : List (Nat × Sym)) (st : Build),
          (machineLoopW m search (p.target == .thumbv7m) (elfTags elf.symtab) stext text st l).toOption =
            (machineLoop search (p.target == .thumbv7m) (elfTags elf.symtab) stext text st l).toOption := by
        intro l
        induction l with
        | nil => intro st; rfl
        | cons e rest ih =>
          intro st
          have hs := machineStepW_eq (search := search) (v7 := p.target == .thumbv7m)
            (tagsOk_elfTags elf.symtab) h1 h2 h3 st e
          unfold machineLoopW machineLoop
          cases hy : machineStep search (p.target == .thumbv7m) (elfTags elf.symtab) stext text st e with
          | error err =>
            rw [hy] at hs
            cases hz : machineStepW m search (p.target == .thumbv7m) (elfTags elf.symtab) stext text st e with
            | error err' => rfl
            | ok b => rw [hz] at hs; cases hs
          | ok st' =>
            rw [hy] at hs
            cases hz : machineStepW m search (p.target == .thumbv7m) (elfTags elf.symtab) stext text st e with
            | error err' => rw [hz] at hs; cases hs
            | ok b =>
              rw [hz] at hs
              cases hs
              exact ih st'
      exact hloop _ st
  · rfl

end CallStack
