import Verif.Spec.Pools
import Verif.Props.ThumbAll

/-!
The machine code analysis of blocks of code and literal pools.
-/

namespace CallStack

section

variable {search : TagSearch} {address : Nat} {v7 : Bool} {tags : List (Nat × Tag)} {len : Nat}

/-- Code that does not end in the middle of an instruction is read up to its end; what follows is not looked at. -/
theorem loop_whole (n : Nat) {code : List Nat} (hn : code.length ≤ n) {k : Nat}
    (ht : ∀ j < code.length, (address + 2 * (k + j), Tag.data) ∉ tags)
    (ha : ∀ hw ∈ code, hw < 65536 ∧ ¬ Unallocated16 v7 (hw / 256) (hw % 256)) (hs : ¬ Straddles code)
    (st : ThumbState) :
    ∃ st', ∀ rest, thumbLoop search address v7 tags len 0 k (code.map halfOf ++ rest) st =
      thumbLoop search address v7 tags len 0 (k + code.length) rest st' := by
  induction n generalizing code k st with
  | zero =>
    obtain rfl : code = [] := List.length_eq_zero_iff.mp (by omega)
    exact ⟨st, fun rest => rfl⟩
  | succ n ih =>
    match code with
    | [] => exact ⟨st, fun rest => rfl⟩
    | [hw] =>
      obtain ⟨h1, h2⟩ := ha hw (by simp)
      have hd : decode16 v7 (halfOf hw) ≠ none := fun h => hs ((C44_width_iff h1 h2).mp h)
      obtain ⟨act, hact⟩ := Option.ne_none_iff_exists'.mp hd
      refine ⟨step16 len k (halfOf hw) st act, fun rest => ?_⟩
      show thumbLoop search address v7 tags len 0 k (halfOf hw :: rest) st = _
      rw [thumbLoop_cons]
      have hw0 := tagAct_code (search := search) (ht 0 (by simp))
      rw [Nat.add_zero] at hw0
      simp only [hw0, hact]
      rfl
    | hw :: hw2 :: code =>
      obtain ⟨h1, h2⟩ := ha hw (by simp)
      have hw0 := tagAct_code (search := search) (ht 0 (by simp))
      rw [Nat.add_zero] at hw0
      by_cases hl : TakenLong hw
      · have hd : decode16 v7 (halfOf hw) = none := (C44_width_iff h1 h2).mpr hl
        obtain ⟨st', h'⟩ := ih (code := code) (by simp at hn; omega) (k := k + 2)
          (fun j hj => by have := ht (j + 2) (by simp; omega); rwa [show k + 2 + j = k + (j + 2) by omega])
          (fun x hx => ha x (by simp [hx])) (fun h => hs (.inl ⟨hl, h⟩))
          (step32 len k (halfOf hw) (halfOf hw2) st (decode32 v7 (halfOf hw) (halfOf hw2)))
        refine ⟨st', fun rest => ?_⟩
        show thumbLoop search address v7 tags len 0 k (halfOf hw :: halfOf hw2 :: (code.map halfOf ++ rest)) st = _
        rw [thumbLoop_cons]
        simp only [hw0, hd]
        rw [h']
        congr 1
        simp only [List.length_cons]
        omega
      · have hd : decode16 v7 (halfOf hw) ≠ none := fun h => hl ((C44_width_iff h1 h2).mp h)
        obtain ⟨act, hact⟩ := Option.ne_none_iff_exists'.mp hd
        obtain ⟨st', h'⟩ := ih (code := hw2 :: code) (by simp at hn ⊢; omega) (k := k + 1)
          (fun j hj => by
            have := ht (j + 1) (by simp at hj ⊢; omega); rwa [show k + 1 + j = k + (j + 1) by omega])
          (fun x hx => ha x (by simp at hx ⊢; tauto)) (fun h => hs (.inr ⟨hl, h⟩))
          (step16 len k (halfOf hw) st act)
        refine ⟨st', fun rest => ?_⟩
        show thumbLoop search address v7 tags len 0 k (halfOf hw :: ((hw2 :: code).map halfOf ++ rest)) st = _
        rw [thumbLoop_cons]
        simp only [hw0, hact]
        rw [h']
        congr 1
        simp only [List.length_cons]
        omega

/-- Code that ends in the middle of an instruction: the halfword after it is taken for the rest of the instruction. -/
theorem loop_half (n : Nat) {code : List Nat} (hn : code.length ≤ n) {k : Nat}
    (ht : ∀ j < code.length, (address + 2 * (k + j), Tag.data) ∉ tags)
    (ha : ∀ hw ∈ code, hw < 65536 ∧ ¬ Unallocated16 v7 (hw / 256) (hw % 256)) (hs : Straddles code)
    (st : ThumbState) (x : Half) :
    ∃ st', ∀ rest, thumbLoop search address v7 tags len 0 k (code.map halfOf ++ x :: rest) st =
      thumbLoop search address v7 tags len 0 (k + (code.length + 1)) rest st' := by
  induction n generalizing code k st with
  | zero =>
    obtain rfl : code = [] := List.length_eq_zero_iff.mp (by omega)
    exact hs.elim
  | succ n ih =>
    match code with
    | [] => exact hs.elim
    | [hw] =>
      obtain ⟨h1, h2⟩ := ha hw (by simp)
      have hd : decode16 v7 (halfOf hw) = none := (C44_width_iff h1 h2).mpr hs
      refine ⟨step32 len k (halfOf hw) x st (decode32 v7 (halfOf hw) x), fun rest => ?_⟩
      show thumbLoop search address v7 tags len 0 k (halfOf hw :: x :: rest) st = _
      rw [thumbLoop_cons]
      have hw0 := tagAct_code (search := search) (ht 0 (by simp))
      rw [Nat.add_zero] at hw0
      simp only [hw0, hd]
      rfl
    | hw :: hw2 :: code =>
      obtain ⟨h1, h2⟩ := ha hw (by simp)
      have hw0 := tagAct_code (search := search) (ht 0 (by simp))
      rw [Nat.add_zero] at hw0
      rcases hs with ⟨hl, hs⟩ | ⟨hl, hs⟩
      · have hd : decode16 v7 (halfOf hw) = none := (C44_width_iff h1 h2).mpr hl
        obtain ⟨st', h'⟩ := ih (code := code) (by simp at hn; omega) (k := k + 2)
          (fun j hj => by have := ht (j + 2) (by simp; omega); rwa [show k + 2 + j = k + (j + 2) by omega])
          (fun x hx => ha x (by simp [hx])) hs
          (step32 len k (halfOf hw) (halfOf hw2) st (decode32 v7 (halfOf hw) (halfOf hw2)))
        refine ⟨st', fun rest => ?_⟩
        show thumbLoop search address v7 tags len 0 k
          (halfOf hw :: halfOf hw2 :: (code.map halfOf ++ x :: rest)) st = _
        rw [thumbLoop_cons]
        simp only [hw0, hd]
        rw [h']
        congr 1
        simp only [List.length_cons]
        omega
      · have hd : decode16 v7 (halfOf hw) ≠ none := fun h => hl ((C44_width_iff h1 h2).mp h)
        obtain ⟨act, hact⟩ := Option.ne_none_iff_exists'.mp hd
        obtain ⟨st', h'⟩ := ih (code := hw2 :: code) (by simp at hn ⊢; omega) (k := k + 1)
          (fun j hj => by
            have := ht (j + 1) (by simp at hj ⊢; omega); rwa [show k + 1 + j = k + (j + 1) by omega])
          (fun x hx => ha x (by simp at hx ⊢; tauto)) hs
          (step16 len k (halfOf hw) st act)
        refine ⟨st', fun rest => ?_⟩
        show thumbLoop search address v7 tags len 0 k (halfOf hw :: ((hw2 :: code).map halfOf ++ x :: rest)) st = _
        rw [thumbLoop_cons]
        simp only [hw0, hact]
        rw [h']
        congr 1
        simp only [List.length_cons]
        omega

/-- NOPs are passed over. -/
theorem loop_nops (n : Nat) {k : Nat} (ht : ∀ j < n, (address + 2 * (k + j), Tag.data) ∉ tags)
    (rest : List Half) (st : ThumbState) :
    thumbLoop search address v7 tags len 0 k ((List.replicate n 0xBF00).map halfOf ++ rest) st =
      thumbLoop search address v7 tags len 0 (k + n) rest st := by
  induction n generalizing k with
  | zero => rfl
  | succ n ih =>
    have hd : decode16 v7 (halfOf 0xBF00) = some .skip := by cases v7 <;> decide +kernel
    show thumbLoop search address v7 tags len 0 k
      (halfOf 0xBF00 :: ((List.replicate n 0xBF00).map halfOf ++ rest)) st = _
    rw [thumbLoop_cons]
    have hw0 := tagAct_code (search := search) (ht 0 (by simp))
    rw [Nat.add_zero] at hw0
    simp only [hw0, hd]
    rw [show step16 len k (halfOf 0xBF00) st .skip = st from rfl, ih]
    · congr 1
      omega
    · intro j hj
      have := ht (j + 1) (by omega)
      rwa [show k + 1 + j = k + (j + 1) by omega]

/-- The number of branches found does not depend on what was found before. -/
theorem loop_shift (n : Nat) {hs : List Half} (hn : hs.length ≤ n) {skip k : Nat} {st st' r r' : ThumbState}
    (h : thumbLoop search address v7 tags len skip k hs st = .ok r)
    (h' : thumbLoop search address v7 tags len skip k hs st' = .ok r') :
    r.bs.length + st'.bs.length = r'.bs.length + st.bs.length := by
  induction n generalizing hs skip k st st' with
  | zero =>
    obtain rfl : hs = [] := List.length_eq_zero_iff.mp (by omega)
    rw [thumbLoop] at h h'
    cases h
    cases h'
    omega
  | succ n ih =>
    match hs, skip with
    | [], _ =>
      rw [thumbLoop] at h h'
      cases h
      cases h'
      omega
    | x :: hs, skip + 1 =>
      rw [thumbLoop] at h h'
      exact ih (by simpa using hn) h h'
    | x :: hs, 0 =>
      rw [thumbLoop_cons] at h h'
      generalize tagAct search tags (address + 2 * k) = a at h h'
      cases a with
      | error e => cases h
      | ok a =>
        cases a with
        | stop =>
          cases h
          cases h'
          omega
        | skip m => exact ih (by simpa using hn) h h'
        | code =>
          simp only at h h'
          generalize decode16 v7 x = d at h h'
          cases d with
          | some act =>
            have := ih (by simpa using hn) h h'
            revert this
            cases act <;> simp only [step16, ThumbState.branch, ThumbState.subSp, List.length_append,
              List.length_cons, List.length_nil] <;> (try split) <;> (try simp only []) <;> omega
          | none =>
            match hs with
            | [] => cases h
            | y :: hs =>
              simp only at h h'
              generalize decode32 v7 x y = d at h h'
              have := ih (by simp at hn; omega) h h'
              revert this
              cases d <;> simp only [step32, ThumbState.branch, ThumbState.subSp, List.length_append,
                List.length_cons, List.length_nil] <;> (try split) <;> (try simp only []) <;> (try simp only [List.length_append, List.length_cons, List.length_nil]) <;> omega

/-- A literal pool whose tag is reached is passed over. -/
theorem loop_pool (hsorted : tags.Pairwise (fun x y => x.1 ≤ y.1)) {k n : Nat} {pool : List Nat} {rest : List Half}
    (hp : pool.length ≠ 0) {e : Nat} (hk : tags[e]? = some (address + 2 * k, Tag.data))
    (hu : ∀ j t, tags[j]? = some (address + 2 * k, t) → j = e)
    (hnext : (∃ stop, tags[e + 1]? = some (stop, Tag.thumb) ∧ (stop = address + 2 * (k + pool.length) ∨
      rest = [] ∧ address + 2 * (k + pool.length) ≤ stop)) ∨ (tags[e + 1]? = none ∧ rest = []))
    (hn : n = k + pool.length) (st : ThumbState) :
    thumbLoop search address v7 tags len 0 k (pool.map halfOf ++ rest) st =
      thumbLoop search address v7 tags len 0 n rest st := by
  obtain ⟨x, pool, rfl⟩ : ∃ a l, pool = a :: l := by
    cases pool with
    | nil => exact absurd rfl hp
    | cons a l => exact ⟨a, l, rfl⟩
  have hf := tagAct_data (search := search) hsorted hk hu
  show thumbLoop search address v7 tags len 0 k (halfOf x :: (pool.map halfOf ++ rest)) st = _
  rw [thumbLoop_cons]
  simp only [List.length_cons] at hnext hn
  rcases hnext with ⟨stop, hstop, hpos⟩ | ⟨hnone, rfl⟩
  · simp only [tagAct, hf, hk, hstop]
    rcases hpos with hpos | ⟨rfl, hpos⟩
    · rw [show (stop - (address + 2 * k)) / 2 - 1 = pool.length by omega,
        thumbLoop_skip _ _ _ _ _ _ _ _ _ _ (by simp)]
      congr 1
      omega
    · rw [thumbLoop_skip_all _ _ _ _ _ _ _ _ _ (by simp; omega)]
      simp [thumbLoop]
  · simp only [tagAct, hf, hk, hnone]
    simp [thumbLoop]

theorem halfs_cons (b : Block) (rest : List Block) :
    (blockHalfs (b :: rest)).map halfOf =
      b.code.map halfOf ++ (b.pool.map halfOf ++ (blockHalfs rest).map halfOf) := by
  simp [blockHalfs]

theorem otherPools_halfs {l l' : List Block} (h : OtherPools l l') :
    (blockHalfs l').length = (blockHalfs l).length := by
  induction h with
  | nil => rfl
  | cons hb _ ih =>
    simp only [blockHalfs, List.flatMap_cons, List.length_append] at ih ⊢
    rw [hb.1, hb.2.1, ih]

theorem otherPools_nil {l : List Block} (h : OtherPools [] l) : l = [] := by cases h; rfl

/-- If no code before a pool ends in the middle of an instruction, the contents of the pools are not looked at. -/
theorem loop_other (hsorted : tags.Pairwise (fun x y => x.1 ≤ y.1)) {blocks blocks' : List Block}
    (ho : OtherPools blocks blocks') {k : Nat} (hf : BlocksFit tags address (2 * k) blocks)
    (ha : AllocatedCode v7 blocks) (hs : ∀ b ∈ blocks, b.pool ≠ [] → ¬ Straddles b.code) (st : ThumbState) :
    thumbLoop search address v7 tags len 0 k ((blockHalfs blocks').map halfOf) st =
      thumbLoop search address v7 tags len 0 k ((blockHalfs blocks).map halfOf) st := by
  induction ho generalizing k st with
  | nil => rfl
  | @cons b b' rest rest' hb hr ih =>
    obtain ⟨h1, h2, h3⟩ := hf
    rw [halfs_cons, halfs_cons, hb.1]
    rcases h2 with ⟨hp, rfl⟩ | ⟨hp, _, e, he1, he2, he3⟩
    · have hp' : b'.pool = [] := List.length_eq_zero_iff.mp (by rw [hb.2.1, hp]; rfl)
      rw [hp, hp', otherPools_nil hr]
    · have hne : b.pool ≠ [] := by
        intro h0
        rw [h0] at hp
        simp at hp
      obtain ⟨st', h'⟩ := loop_whole (search := search) (len := len) (v7 := v7) _ (Nat.le_refl b.code.length) (k := k)
        (fun j hj => by rw [show 2 * (k + j) = 2 * k + 2 * j by omega]; exact h1 j hj)
        (fun hw hm => ha b (by simp) hw hm) (hs b (by simp) hne) st
      rw [h', h']
      have hnil : (blockHalfs rest').map halfOf = [] ↔ (blockHalfs rest).map halfOf = [] := by
        rw [← List.length_eq_zero_iff, ← List.length_eq_zero_iff, List.length_map, List.length_map,
          otherPools_halfs hr]
      have e1 : 2 * k + 2 * b.code.length = 2 * (k + b.code.length) := by omega
      have e2 : 2 * k + 2 * (b.code.length + b.pool.length) = 2 * (k + b.code.length + b.pool.length) := by omega
      rw [e1] at he1 he2
      rw [e2] at he3
      have hnext : ∀ l : List Half, (rest = [] → l = []) → (∃ stop, tags[e + 1]? = some (stop, Tag.thumb) ∧
          (stop = address + 2 * (k + b.code.length + b.pool.length) ∨
            l = [] ∧ address + 2 * (k + b.code.length + b.pool.length) ≤ stop)) ∨
          (tags[e + 1]? = none ∧ l = []) := by
        intro l hl
        rcases he3 with ⟨stop, a, c⟩ | ⟨a, c⟩
        · exact .inl ⟨stop, a, c.imp id (fun c => ⟨hl c.1, c.2⟩)⟩
        · exact .inr ⟨a, hl c⟩
      rw [loop_pool hsorted (by omega) he1 he2 (hnext _ (by rintro rfl; rfl)) rfl,
        loop_pool hsorted (by rw [hb.2.1]; omega) he1 he2
          (by
            rw [hb.2.1]
            exact hnext _ (by rintro rfl; exact hnil.mpr rfl)) rfl, hb.2.1]
      refine ih ?_ (fun x hx => ha x (by simp [hx])) (fun x hx => hs x (by simp [hx])) _
      rw [← e2]
      exact h3

theorem otherPools_refl {blocks : List Block} (h : ∀ b ∈ blocks, ∀ hw ∈ b.pool, hw < 65536) :
    OtherPools blocks blocks := by
  induction blocks with
  | nil => exact .nil
  | cons b rest ih =>
    exact .cons ⟨rfl, rfl, h b (by simp)⟩ (ih fun x hx => h x (by simp [hx]))

/-- If some code before a pool ends in the middle of an instruction, there are contents of the pools with which
different numbers of branches are found. -/
theorem loop_differ (hsorted : tags.Pairwise (fun x y => x.1 ≤ y.1)) {blocks : List Block} {k : Nat}
    (hf : BlocksFit tags address (2 * k) blocks)
    (ha : AllocatedCode v7 blocks) (hr : ∀ b ∈ blocks, ∀ hw ∈ b.pool, hw < 65536)
    (hs : ∃ b ∈ blocks, b.pool ≠ [] ∧ Straddles b.code) (st : ThumbState) :
    ∃ blocks₁ blocks₂, OtherPools blocks blocks₁ ∧ OtherPools blocks blocks₂ ∧ ∀ r₁ r₂,
      thumbLoop search address v7 tags len 0 k ((blockHalfs blocks₁).map halfOf) st = .ok r₁ →
      thumbLoop search address v7 tags len 0 k ((blockHalfs blocks₂).map halfOf) st = .ok r₂ → r₁ ≠ r₂ := by
  induction blocks generalizing k st with
  | nil => simp at hs
  | cons b rest ih =>
    obtain ⟨h1, h2, h3⟩ := hf
    have h1' : ∀ j < b.code.length, (address + 2 * (k + j), Tag.data) ∉ tags := fun j hj => by
      rw [show 2 * (k + j) = 2 * k + 2 * j by omega]; exact h1 j hj
    have hca := fun hw hm => ha b (by simp) hw hm
    have hrest : OtherPools rest rest := otherPools_refl fun x hx => hr x (by simp [hx])
    rcases h2 with ⟨hp, rfl⟩ | ⟨hp, hin, e, he1, he2, he3⟩
    · simp [hp] at hs
    by_cases hb : Straddles b.code
    · obtain ⟨n, hn⟩ : ∃ n, b.pool.length = n + 2 := ⟨b.pool.length - 2, by omega⟩
      have hin' : ∀ j < n + 1, (address + 2 * (k + (b.code.length + 1) + j), Tag.data) ∉ tags := fun j hj => by
        have := hin (j + 1) (by omega) (by omega)
        rwa [show 2 * (k + (b.code.length + 1) + j) = 2 * k + 2 * (b.code.length + (j + 1)) by omega]
      refine ⟨⟨b.code, 0xBF00 :: 0xBF00 :: List.replicate n 0xBF00⟩ :: rest,
        ⟨b.code, 0xBF00 :: 0xE000 :: List.replicate n 0xBF00⟩ :: rest,
        .cons ⟨rfl, by simp [hn], by simp +contextual⟩ hrest, .cons ⟨rfl, by simp [hn], by simp +contextual⟩ hrest,
        fun r₁ r₂ e₁ e₂ heq => ?_⟩
      obtain ⟨st', h'⟩ := loop_half (search := search) (len := len) (v7 := v7) _ (Nat.le_refl b.code.length)
        h1' hca hb st (halfOf 0xBF00)
      rw [halfs_cons, List.map_cons, List.cons_append, h'] at e₁ e₂
      have hd : decode16 v7 (halfOf 0xE000) = some .bT2 := by cases v7 <;> decide +kernel
      rw [show (0xBF00 :: List.replicate n 0xBF00) = List.replicate (n + 1) 0xBF00 from rfl,
        loop_nops (n + 1) hin'] at e₁
      rw [List.map_cons, List.cons_append, thumbLoop_cons] at e₂
      have hw0 := tagAct_code (search := search) (hin' 0 (by omega))
      rw [Nat.add_zero] at hw0
      simp only [hw0, hd] at e₂
      rw [loop_nops n (fun j hj => by
        have := hin' (j + 1) (by omega)
        rwa [show k + (b.code.length + 1) + 1 + j = k + (b.code.length + 1) + (j + 1) by omega]),
        show k + (b.code.length + 1) + 1 + n = k + (b.code.length + 1) + (n + 1) by omega] at e₂
      have := loop_shift _ (Nat.le_refl _) e₁ e₂
      rw [heq] at this
      simp [step16, ThumbState.branch] at this
      try omega
    · obtain ⟨st', h'⟩ := loop_whole (search := search) (len := len) (v7 := v7) _ (Nat.le_refl b.code.length)
        h1' hca hb st
      have e1 : 2 * k + 2 * b.code.length = 2 * (k + b.code.length) := by omega
      have e2 : 2 * k + 2 * (b.code.length + b.pool.length) = 2 * (k + b.code.length + b.pool.length) := by omega
      rw [e1] at he1 he2
      rw [e2] at he3 h3
      have hs' : ∃ b ∈ rest, b.pool ≠ [] ∧ Straddles b.code := by
        obtain ⟨x, hx, hx1, hx2⟩ := hs
        rcases List.mem_cons.mp hx with rfl | hx
        · exact absurd hx2 hb
        · exact ⟨x, hx, hx1, hx2⟩
      obtain ⟨l₁, l₂, o₁, o₂, hd⟩ := ih h3 (fun x hx => ha x (by simp [hx])) (fun x hx => hr x (by simp [hx])) hs' st'
      have hstop : rest ≠ [] := by
        rintro rfl
        simp at hs'
      have hnext : ∀ l : List Half, (∃ stop, tags[e + 1]? = some (stop, Tag.thumb) ∧
          (stop = address + 2 * (k + b.code.length + b.pool.length) ∨
            l = [] ∧ address + 2 * (k + b.code.length + b.pool.length) ≤ stop)) ∨
          (tags[e + 1]? = none ∧ l = []) := by
        intro l
        rcases he3 with ⟨stop, a, c | c⟩ | ⟨_, c⟩
        · exact .inl ⟨stop, a, .inl c⟩
        · exact absurd c.1 hstop
        · exact absurd c hstop
      refine ⟨b :: l₁, b :: l₂, .cons ⟨rfl, rfl, hr b (by simp)⟩ o₁, .cons ⟨rfl, rfl, hr b (by simp)⟩ o₂,
        fun r₁ r₂ e₁ e₂ => ?_⟩
      rw [halfs_cons, h', loop_pool hsorted (by omega) he1 he2 (hnext _) rfl] at e₁ e₂
      exact hd r₁ r₂ e₁ e₂

theorem blockBytes_length (blocks : List Block) : (blockBytes blocks).length = 2 * (blockHalfs blocks).length := by
  unfold blockBytes
  generalize blockHalfs blocks = hws
  induction hws with
  | nil => rfl
  | cons hw hws ih =>
    rw [List.flatMap_cons, List.length_append, ih]
    simp
    omega

end

end CallStack
