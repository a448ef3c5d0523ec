import Verif.Spec.Code
import Verif.Proof.Str

/-!
The mapping symbols and the sizes of functions that the model computes are those of `Verif.Spec.Code`.
-/

namespace CallStack

theorem tagOf_iff (value : Nat) (name : Str) (t : Nat × Tag) :
    tagOf (value, name) = some t ↔ ∃ tag, t = (value % 2 ^ 32, tag) ∧ MarkerName name tag := by
  unfold tagOf
  by_cases hd : startsWith name c!"$d" = true
  · obtain ⟨rest, rfl⟩ := (startsWith_iff _ _).mp hd
    simp only [hd, if_true, Option.some.injEq]
    constructor
    · rintro rfl
      exact ⟨_, rfl, .data rest⟩
    · rintro ⟨tag, rfl, h⟩
      cases h
      rfl
  · by_cases ht : startsWith name c!"$t" = true
    · obtain ⟨rest, rfl⟩ := (startsWith_iff _ _).mp ht
      simp only [hd, ht, if_true, Bool.false_eq_true, if_false, Option.some.injEq]
      constructor
      · rintro rfl
        exact ⟨_, rfl, .thumb rest⟩
      · rintro ⟨tag, rfl, h⟩
        cases h
        rfl
    · simp only [hd, ht, Bool.false_eq_true, if_false, reduceCtorEq, false_iff, not_exists, not_and]
      rintro tag - h
      cases h with
      | data rest => exact hd ((startsWith_iff _ _).mpr ⟨rest, rfl⟩)
      | thumb rest => exact ht ((startsWith_iff _ _).mpr ⟨rest, rfl⟩)

theorem markersIn_iff {symtab : List (Nat × Str)} {l : List (Nat × Tag)} :
    MarkersIn symtab l ↔ l = symtab.filterMap tagOf := by
  constructor
  · intro h
    induction h with
    | nil => rfl
    | marker value hn _ ih =>
      rw [List.filterMap_cons, (tagOf_iff _ _ _).mpr ⟨_, rfl, hn⟩, ih]
    | other value hn _ ih =>
      rw [List.filterMap_cons, ih]
      have : tagOf (value, _) = none := Option.eq_none_iff_forall_ne_some.mpr fun t ht =>
        (fun ⟨tag, _, h⟩ => hn tag h) ((tagOf_iff _ _ _).mp ht)
      rw [this]
  · rintro rfl
    induction symtab with
    | nil => exact .nil
    | cons e symtab ih =>
      obtain ⟨value, name⟩ := e
      rw [List.filterMap_cons]
      cases ht : tagOf (value, name) with
      | none =>
        refine .other value (fun tag h => ?_) ih
        rw [(tagOf_iff _ _ _).mpr ⟨_, rfl, h⟩] at ht
        cases ht
      | some t =>
        obtain ⟨tag, rfl, h⟩ := (tagOf_iff _ _ _).mp ht
        exact .marker value h ih

theorem mem_insertTag {t x : Nat × Tag} : ∀ {l : List (Nat × Tag)}, x ∈ insertTag t l ↔ x = t ∨ x ∈ l
  | [] => by simp [insertTag]
  | u :: l => by
    unfold insertTag
    split
    · simp
    · simp only [List.mem_cons, mem_insertTag]
      constructor <;> rintro (h | h | h) <;> simp [h]

theorem insertTag_sorted {t : Nat × Tag} : ∀ {l : List (Nat × Tag)},
    l.Pairwise (fun x y => x.1 ≤ y.1) → (insertTag t l).Pairwise (fun x y => x.1 ≤ y.1)
  | [], _ => by simp [insertTag]
  | u :: l, h => by
    rw [List.pairwise_cons] at h
    unfold insertTag
    split
    · rename_i hle
      refine .cons ?_ (.cons h.1 h.2)
      intro x hx
      rcases List.mem_cons.mp hx with rfl | hx
      · exact hle
      · exact Nat.le_trans hle (h.1 x hx)
    · refine .cons ?_ (insertTag_sorted h.2)
      intro x hx
      rcases mem_insertTag.mp hx with rfl | hx
      · omega
      · exact h.1 x hx

theorem sortTags_sorted : ∀ l : List (Nat × Tag), (sortTags l).Pairwise (fun x y => x.1 ≤ y.1)
  | [] => .nil
  | _ :: l => insertTag_sorted (sortTags_sorted l)

theorem insertTag_filter {t : Nat × Tag} (a : Nat) : ∀ l : List (Nat × Tag),
    (insertTag t l).filter (fun x => x.1 = a) = (t :: l).filter (fun x => x.1 = a)
  | [] => rfl
  | u :: l => by
    unfold insertTag
    split
    · rfl
    · rename_i hlt
      rw [List.filter_cons, insertTag_filter a l, List.filter_cons, List.filter_cons, List.filter_cons]
      by_cases h1 : u.1 = a <;> by_cases h2 : t.1 = a <;> simp [h1, h2]
      omega

theorem sortTags_filter (a : Nat) : ∀ l : List (Nat × Tag),
    (sortTags l).filter (fun x => x.1 = a) = l.filter (fun x => x.1 = a)
  | [] => rfl
  | t :: l => by
    rw [sortTags, insertTag_filter, List.filter_cons, List.filter_cons, sortTags_filter a l]

theorem tags_unique : ∀ {l l' : List (Nat × Tag)}, l.Pairwise (fun x y => x.1 ≤ y.1) →
    l'.Pairwise (fun x y => x.1 ≤ y.1) →
    (∀ a, l.filter (fun t => t.1 = a) = l'.filter (fun t => t.1 = a)) → l = l'
  | [], [], _, _, _ => rfl
  | [], y :: l', _, _, h => by simpa using h y.1
  | x :: l, [], _, _, h => by simpa using h x.1
  | x :: l, y :: l', hl, hl', h => by
    rw [List.pairwise_cons] at hl hl'
    have h1 : x ∈ y :: l' := by
      have : x ∈ (x :: l).filter (fun t => t.1 = x.1) := by simp
      rw [h] at this
      exact (List.mem_filter.mp this).1
    have h2 : y ∈ x :: l := by
      have : y ∈ (y :: l').filter (fun t => t.1 = y.1) := by simp
      rw [← h] at this
      exact (List.mem_filter.mp this).1
    have hxy : x.1 = y.1 := by
      have a1 : y.1 ≤ x.1 := by
        rcases List.mem_cons.mp h1 with e | e
        · rw [e]; exact Nat.le_refl _
        · exact hl'.1 x e
      have a2 : x.1 ≤ y.1 := by
        rcases List.mem_cons.mp h2 with e | e
        · rw [e]; exact Nat.le_refl _
        · exact hl.1 y e
      omega
    have h3 := h x.1
    rw [List.filter_cons, List.filter_cons, if_pos (by simp), if_pos (by simp [hxy])] at h3
    simp only [List.cons.injEq] at h3
    obtain ⟨rfl, _⟩ := h3
    congr 1
    refine tags_unique hl.2 hl'.2 fun a => ?_
    have h4 := h a
    rw [List.filter_cons, List.filter_cons] at h4
    split at h4
    · simpa using h4
    · exact h4

theorem markers_iff {symtab : List (Nat × Str)} {tags : List (Nat × Tag)} :
    Markers symtab tags ↔ tags = elfTags symtab := by
  unfold Markers elfTags
  constructor
  · rintro ⟨h1, l, h2, h3⟩
    rw [markersIn_iff] at h2
    subst h2
    exact tags_unique h1 (sortTags_sorted _) fun a => (h3 a).trans (sortTags_filter a _).symm
  · rintro rfl
    exact ⟨sortTags_sorted _, _, markersIn_iff.mpr rfl, fun a => sortTags_filter a _⟩

theorem codeSize_iff {search : TagSearch} {tags : List (Nat × Tag)} {address declared size : Nat} :
    CodeSize search tags address declared size ↔ size = symSize search tags address declared := by
  constructor
  · intro h
    unfold symSize
    cases h with
    | declared n hn => rw [if_pos hn]
    | next k stop h1 h2 h3 => simp [h1, h2, h3]
    | empty h =>
      simp only [ne_eq, not_true_eq_false, if_false]
      split
      · rfl
      · rename_i k hk
        split
        · rename_i start stop h1 h2
          obtain ⟨t, ht⟩ := search.sound _ _ _ hk
          rw [h1] at ht
          simp only [Option.some.injEq, Prod.mk.injEq] at ht
          obtain ⟨rfl, _⟩ := ht
          exact absurd h2 (h k stop hk h1)
        · rfl
  · rintro rfl
    unfold symSize
    split
    · rename_i h
      exact .declared _ h
    · rename_i h
      obtain rfl : declared = 0 := by omega
      split
      · rename_i hk
        exact .empty fun k stop h1 _ => by rw [hk] at h1; cases h1
      · rename_i k hk
        split
        · rename_i start stop h1 h2
          obtain ⟨t, ht⟩ := search.sound _ _ _ hk
          rw [h1] at ht
          simp only [Option.some.injEq, Prod.mk.injEq] at ht
          obtain ⟨rfl, _⟩ := ht
          exact .next k stop hk h1 h2
        · rename_i hno
          refine .empty fun k' stop h1 h2 h3 => ?_
          rw [hk] at h1
          simp only [Option.some.injEq] at h1
          subst h1
          exact hno _ _ h2 h3

/-- `Program.Decoded` in terms of the model. -/
theorem decoded_iff {p : Program} {search : TagSearch} {elf : Elf} {i address size : Nat} {r : ThumbState} :
    p.Decoded search elf i address size r ↔
      ∃ a s stext text, p.defined[i]? = some (a, s) ∧ elf.text = some (stext, text) ∧
        address = a % 2 ^ 32 ∧ size = symSize search (elfTags elf.symtab) address (s.size % 2 ^ 32) ∧
        stext ≤ address ∧ address - stext + size ≤ text.length ∧
        thumbAnalyze search ((text.drop (address - stext)).take size) address (p.target == .thumbv7m)
          (elfTags elf.symtab) = .ok r := by
  unfold Program.Decoded
  constructor
  · rintro ⟨a, s, stext, text, tags, h1, h2, h3, h4, h5, h6⟩
    rw [markers_iff] at h4
    subst h4
    exact ⟨a, s, stext, text, h1, h2, h3, codeSize_iff.mp h5, h6⟩
  · rintro ⟨a, s, stext, text, h1, h2, h3, h4, h5⟩
    exact ⟨a, s, stext, text, _, h1, h2, h3, markers_iff.mpr rfl, codeSize_iff.mpr h4, h5⟩

end CallStack
