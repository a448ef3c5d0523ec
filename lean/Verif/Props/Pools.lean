import Verif.Proof.Pools

/-!
C45: the exact condition under which the contents of literal pools are not looked at.
-/

namespace CallStack

/-- **C45** The exact condition, for any code of either architecture that the analysis does not refuse: the contents
of the literal pools do not influence the result exactly if no code before a pool ends in the middle of an instruction
when each BKPT is taken for the beginning of a 32-bit instruction. -/
theorem C45_pools_iff {search : TagSearch} {address : Nat} {v7 : Bool} {tags : List (Nat × Tag)}
    {blocks : List Block} {r : ThumbState} (sorted : tags.Pairwise (fun x y => x.1 ≤ y.1))
    (fit : BlocksFit tags address 0 blocks) (allocated : AllocatedCode v7 blocks)
    (range : ∀ b ∈ blocks, ∀ hw ∈ b.pool, hw < 65536)
    (hr : thumbAnalyze search (blockBytes blocks) address v7 tags = .ok r) :
    (∀ blocks', OtherPools blocks blocks' → thumbAnalyze search (blockBytes blocks') address v7 tags = .ok r) ↔
      ∀ b ∈ blocks, b.pool ≠ [] → ¬ Straddles b.code := by
  have ana : ∀ l, OtherPools blocks l → thumbAnalyze search (blockBytes l) address v7 tags =
      thumbLoop search address v7 tags (blockBytes blocks).length 0 0 ((blockHalfs l).map halfOf)
        ThumbState.init := by
    intro l hl
    unfold thumbAnalyze
    rw [blockBytes_length l, blockBytes_length blocks, otherPools_halfs hl]
    unfold blockBytes
    rw [chunks2_flatMap]
  constructor
  · intro h b hb hp hs
    obtain ⟨l₁, l₂, o₁, o₂, hd⟩ := loop_differ (search := search) (len := (blockBytes blocks).length)
      (k := 0) sorted fit allocated range ⟨b, hb, hp, hs⟩ ThumbState.init
    exact hd r r (by rw [← ana _ o₁]; exact h _ o₁) (by rw [← ana _ o₂]; exact h _ o₂) rfl
  · intro h l hl
    rw [ana _ hl, loop_other (k := 0) sorted hl fit allocated h, ← ana _ (otherPools_refl range)]
    exact hr

/-- A BKPT between two instructions, and a literal pool at the end: `push {r4, lr}`, `bkpt`, `nop`, `bx lr`. -/
def exBkptInside : List Block := [⟨[0xB510, 0xBE00, 0xBF00, 0x4770], [0x1234, 0x5678]⟩]

/-- A BKPT directly before the literal pool. -/
def exBkptLast : List Block := [⟨[0xB510, 0xBE00], [0x1234, 0x5678]⟩]

example : BlocksFit [(0, .thumb), (8, .data)] 0 0 exBkptInside ∧ AllocatedCode true exBkptInside ∧
    ∀ b ∈ exBkptInside, b.pool ≠ [] → ¬ Straddles b.code := by
  refine ⟨⟨?_, .inr ⟨by decide, ?_, 1, rfl, ?_, .inr ⟨rfl, rfl⟩⟩, trivial⟩, ?_, ?_⟩
  · intro k hk
    simp only [List.length_cons, List.length_nil] at hk
    simp [show 2 * k ≠ 8 by omega]
  · intro k hk h0
    simp only [List.length_cons, List.length_nil, List.mem_cons, Prod.mk.injEq, List.not_mem_nil, or_false]
    omega
  · intro j t hj
    match j with
    | 0 => simp at hj
    | 1 => rfl
    | j + 2 => simp at hj
  · intro b hb hw hm
    simp only [exBkptInside, List.mem_singleton] at hb
    subst hb
    simp only [List.mem_cons, List.not_mem_nil, or_false] at hm
    rcases hm with rfl | rfl | rfl | rfl <;> exact ⟨by decide, fun h => by cases h <;> simp_all⟩
  · intro b hb _
    simp only [exBkptInside, List.mem_singleton] at hb
    subst hb
    simp only [Straddles]
    decide

example : ∀ b ∈ exBkptLast, b.pool ≠ [] ∧ Straddles b.code := by
  intro b hb
  simp only [exBkptLast, List.mem_singleton] at hb
  subst hb
  simp only [Straddles]
  decide

end CallStack
