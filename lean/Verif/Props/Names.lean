import Verif.Proof.Names
import Mathlib.Data.List.Nodup

/-!
Properties C18-C21 and C67: hash removal, shortening of names, outlined functions
(main.rs:506-509, 1217-1226, 1496-1514, 1532-1540).
-/

namespace CallStack

/-- **C18** `dehash` removes exactly a 19 byte suffix beginning with `::h` from a longer name. -/
theorem C18_dehash_exact (name path : Str) : dehash name = some path ↔ HashOf path name :=
  dehash_iff name path

/-- **C18** The result is unique and names without such a suffix are left alone. -/
theorem C18_dehash_none (name : Str) : dehash name = none ↔ ∀ path, ¬ HashOf path name := by
  constructor
  · intro h path hp
    rw [← dehash_iff, h] at hp
    simp at hp
  · intro h
    cases hd : dehash name with
    | none => rfl
    | some p => exact absurd ((dehash_iff _ _).mp hd) (h p)

example : HashOf c!"a::ß" c!"a::ß::h0123456789abcdef" :=
  ⟨by decide, c!"::h0123456789abcdef", rfl, by decide, ⟨_, rfl⟩⟩

/-- The byte, not the character, count matters: this suffix has 16 characters but 19 bytes. -/
example : dehash c!"f::h0123456789ßßß" = some c!"f" := by decide
example : dehash c!"::h0123456789abcdef" = none := by decide

/-- **C19** A live function at position `i` is shown under its hashless name exactly when no other
live function has the same hashless name; otherwise its name is not changed. -/
theorem C19_shortened_iff_unique (demangle : Str → Str) {live : List Str} {i : Nat} {name d : Str}
    (hi : live[i]? = some name) (hd : HashOf d (demangle name)) :
    ((∀ j other, live[j]? = some other → HashOf d (demangle other) → j = i) →
      shortenName demangle (ambiguousOf demangle live) name = .ok d) ∧
    (¬ (∀ j other, live[j]? = some other → HashOf d (demangle other) → j = i) →
      shortenName demangle (ambiguousOf demangle live) name = .ok name) := by
  have hd' := (dehash_iff _ _).mpr hd
  have hone := countP_one (p := fun n => decide (dehash (demangle n) = some d)) hi (by simp [hd'])
  simp only [decide_eq_true_eq] at hone
  simp only [← dehash_iff]
  have hpos : 0 < live.countP (fun n => decide (dehash (demangle n) = some d)) :=
    List.countP_pos_iff.mpr ⟨name, List.mem_of_getElem? hi, by simp [hd']⟩
  constructor
  · intro h
    have h1 := hone.mpr h
    simp [shortenName, hd', lookup_ambiguous, h1]
  · intro h
    have h1 : ¬ live.countP (fun n => decide (dehash (demangle n) = some d)) = 1 := by
      intro h1
      exact h (hone.mp h1)
    simp only [shortenName, hd', lookup_ambiguous]
    rw [if_neg (by omega)]
    simp only
    rw [if_neg h1]

/-- **C19** A live function without a hash keeps its name. -/
theorem C19_no_hash (demangle : Str → Str) (ambiguous : List (Str × Nat)) {name : Str}
    (h : ∀ d, ¬ HashOf d (demangle name)) : shortenName demangle ambiguous name = .ok name := by
  simp [shortenName, (C18_dehash_none _).mpr h]

/-- **C19** Two different live functions that both carry a hash and are both shortened get different
names, and are shown differently as soon as the demangler leaves unmangled names alone. -/
theorem C19_no_confusion (demangle : Str → Str) {live : List Str} {i j : Nat} {n₁ n₂ d₁ d₂ : Str}
    (hij : i ≠ j) (hi : live[i]? = some n₁) (hj : live[j]? = some n₂)
    (h₁ : HashOf d₁ (demangle n₁)) (h₂ : HashOf d₂ (demangle n₂))
    (s₁ : shortenName demangle (ambiguousOf demangle live) n₁ = .ok d₁) (hs₁ : d₁ ≠ n₁)
    (hid : demangle d₁ = d₁) (hid₂ : demangle d₂ = d₂) :
    d₁ ≠ d₂ ∧ demangle d₁ ≠ demangle d₂ := by
  have : d₁ ≠ d₂ := by
    rintro rfl
    have hno : ¬ (∀ k other, live[k]? = some other → HashOf d₁ (demangle other) → k = i) :=
      fun h => hij (h j n₂ hj h₂).symm
    have := (C19_shortened_iff_unique demangle hi h₁).2 hno
    rw [s₁] at this
    simp only [Except.ok.injEq] at this
    exact hs₁ this
  exact ⟨this, by rwa [hid, hid₂]⟩

/-- Three live functions, two of which share a hashless name. -/
def exLive : List Str :=
  [c!"a::f::h0000000000000001", c!"a::f::h0000000000000002", c!"b::g::h0000000000000003", c!"main"]

example : exLive.map (fun n => (shortenName id (ambiguousOf id exLive) n).toOption) =
    [some c!"a::f::h0000000000000001", some c!"a::f::h0000000000000002", some c!"b::g",
      some c!"main"] := by decide

/-- **C67 is false**: two live functions can be shown under the same name, an unmangled `foo` and a
Rust function whose hashless name is `foo`. -/
theorem C67_display_collision : ∃ (live : List Str) (n₁ n₂ s : Str),
    live.Nodup ∧ n₁ ∈ live ∧ n₂ ∈ live ∧ n₁ ≠ n₂ ∧
    shortenName id (ambiguousOf id live) n₁ = .ok s ∧
    shortenName id (ambiguousOf id live) n₂ = .ok s :=
  ⟨[c!"foo", c!"foo::h0123456789abcdef"], c!"foo", c!"foo::h0123456789abcdef", c!"foo",
    by decide, by decide, by decide, by decide, by decide, by decide⟩

/-- **C67 (partial)** If no live symbol is named like the hashless name of a live function, all live
functions get different names. Missing: the case of `C67_display_collision`. -/
theorem C67_names_distinct_partial (demangle : Str → Str) {live : List Str} (hnd : live.Nodup)
    (hno : ∀ n ∈ live, ∀ d, HashOf d (demangle n) → d ∉ live)
    {i j : Nat} {n₁ n₂ s₁ s₂ : Str} (hij : i ≠ j) (hi : live[i]? = some n₁) (hj : live[j]? = some n₂)
    (h₁ : shortenName demangle (ambiguousOf demangle live) n₁ = .ok s₁)
    (h₂ : shortenName demangle (ambiguousOf demangle live) n₂ = .ok s₂) : s₁ ≠ s₂ := by
  have hne : n₁ ≠ n₂ := by
    rintro rfl
    obtain ⟨hi', hi''⟩ := List.getElem?_eq_some_iff.mp hi
    obtain ⟨hj', hj''⟩ := List.getElem?_eq_some_iff.mp hj
    exact hij ((List.Nodup.getElem_inj_iff hnd).mp (hi''.trans hj''.symm))
  -- the possible results for one name
  have key : ∀ {k : Nat} {n s : Str}, live[k]? = some n →
      shortenName demangle (ambiguousOf demangle live) n = .ok s →
      s = n ∨ (HashOf s (demangle n) ∧
        ∀ j other, live[j]? = some other → HashOf s (demangle other) → j = k) := by
    intro k n s hk hs
    by_cases hh : ∃ d, HashOf d (demangle n)
    · obtain ⟨d, hd⟩ := hh
      by_cases hu : ∀ j other, live[j]? = some other → HashOf d (demangle other) → j = k
      · have := (C19_shortened_iff_unique demangle hk hd).1 hu
        rw [hs] at this
        simp only [Except.ok.injEq] at this
        subst this
        exact .inr ⟨hd, hu⟩
      · have := (C19_shortened_iff_unique demangle hk hd).2 hu
        rw [hs] at this
        simp only [Except.ok.injEq] at this
        exact .inl this
    · have := C19_no_hash demangle (ambiguousOf demangle live) (name := n)
        (fun d hd => hh ⟨d, hd⟩)
      rw [hs] at this
      simp only [Except.ok.injEq] at this
      exact .inl this
  rcases key hi h₁ with rfl | ⟨a1, a2⟩
  · rcases key hj h₂ with rfl | ⟨b1, b2⟩
    · exact hne
    · rintro rfl
      exact hno _ (List.mem_of_getElem? hj) _ b1 (List.mem_of_getElem? hi)
  · rcases key hj h₂ with rfl | ⟨b1, b2⟩
    · rintro rfl
      exact hno _ (List.mem_of_getElem? hi) _ a1 (List.mem_of_getElem? hj)
    · rintro rfl
      exact hij (a2 j n₂ hj b1).symm

/-- **C67** Exactly when two live functions get the same name: the one is called like the path of the other,
no third live function has that path, and the first keeps its name. -/
theorem C67_same_name_iff (demangle : Str → Str) {live : List Str} (hnd : live.Nodup) {n₁ n₂ s₁ s₂ : Str}
    (hne : n₁ ≠ n₂) (m₁ : n₁ ∈ live) (m₂ : n₂ ∈ live)
    (h₁ : shortenName demangle (ambiguousOf demangle live) n₁ = .ok s₁)
    (h₂ : shortenName demangle (ambiguousOf demangle live) n₂ = .ok s₂) :
    s₁ = s₂ ↔
      (s₂ = n₂ ∧ HashOf n₂ (demangle n₁) ∧ ∀ n ∈ live, HashOf n₂ (demangle n) → n = n₁) ∨
      (s₁ = n₁ ∧ HashOf n₁ (demangle n₂) ∧ ∀ n ∈ live, HashOf n₁ (demangle n) → n = n₂) := by
  -- the possible results for one name
  have key : ∀ {n s : Str}, n ∈ live →
      shortenName demangle (ambiguousOf demangle live) n = .ok s →
      ∀ d, HashOf d (demangle n) →
        (s = d ∧ ∀ other ∈ live, HashOf d (demangle other) → other = n) ∨
        (s = n ∧ ∃ other ∈ live, HashOf d (demangle other) ∧ other ≠ n) := by
    intro n s hm hs d hd
    obtain ⟨k, hk⟩ := List.getElem?_of_mem hm
    have inj : ∀ j, live[j]? = some n → j = k := by
      intro j hj
      obtain ⟨hk', hk''⟩ := List.getElem?_eq_some_iff.mp hk
      obtain ⟨hj', hj''⟩ := List.getElem?_eq_some_iff.mp hj
      exact (List.Nodup.getElem_inj_iff hnd).mp (hj''.trans hk''.symm)
    by_cases hu : ∀ j other, live[j]? = some other → HashOf d (demangle other) → j = k
    · have := (C19_shortened_iff_unique demangle hk hd).1 hu
      rw [hs] at this
      simp only [Except.ok.injEq] at this
      refine .inl ⟨this, fun o ho hh => ?_⟩
      obtain ⟨j, hj⟩ := List.getElem?_of_mem ho
      have := hu j o hj hh
      subst this
      rw [hk] at hj
      exact (Option.some.inj hj).symm
    · have := (C19_shortened_iff_unique demangle hk hd).2 hu
      rw [hs] at this
      simp only [Except.ok.injEq] at this
      refine .inr ⟨this, ?_⟩
      simp only [not_forall] at hu
      obtain ⟨j, o, hj, hh, hjk⟩ := hu
      refine ⟨o, List.mem_of_getElem? hj, hh, ?_⟩
      rintro rfl
      exact hjk (inj j hj)
  have keep : ∀ {n s : Str}, shortenName demangle (ambiguousOf demangle live) n = .ok s →
      (¬ ∃ d, HashOf d (demangle n)) → s = n := by
    intro n s hs hno
    have := C19_no_hash demangle (ambiguousOf demangle live) (name := n) (fun d hd => hno ⟨d, hd⟩)
    rw [hs] at this
    simpa using this
  have cases : ∀ {n s : Str}, n ∈ live →
      shortenName demangle (ambiguousOf demangle live) n = .ok s →
      s = n ∨ (HashOf s (demangle n) ∧ ∀ other ∈ live, HashOf s (demangle other) → other = n) := by
    intro n s hm hs
    by_cases hh : ∃ d, HashOf d (demangle n)
    · obtain ⟨d, hd⟩ := hh
      rcases key hm hs d hd with ⟨rfl, h⟩ | ⟨h, _⟩
      · exact .inr ⟨hd, h⟩
      · exact .inl h
    · exact .inl (keep hs hh)
  constructor
  · intro he
    rcases cases m₁ h₁ with k1 | ⟨k1, k2⟩
    · rcases cases m₂ h₂ with l1 | ⟨l1, l2⟩
      · exact absurd (k1.symm.trans (he.trans l1)) hne
      · rw [← he, k1] at l1 l2
        exact .inr ⟨k1, l1, l2⟩
    · rcases cases m₂ h₂ with l1 | ⟨l1, l2⟩
      · rw [he, l1] at k1 k2
        exact .inl ⟨l1, k1, k2⟩
      · rw [he] at k2
        exact absurd (k2 _ m₂ l1).symm hne
  · rintro (⟨rfl, hh, hu⟩ | ⟨rfl, hh, hu⟩)
    · rcases key m₁ h₁ _ hh with ⟨h, _⟩ | ⟨_, o, ho, h, hno⟩
      · exact h
      · exact absurd (hu o ho h) hno
    · rcases key m₂ h₂ _ hh with ⟨h, _⟩ | ⟨_, o, ho, h, hno⟩
      · exact h.symm
      · exact absurd (hu o ho h) hno

/-- Both get the name `foo`. A third function with the same path prevents it. -/
example :
    [c!"foo", c!"foo::h0123456789abcdef"].map (fun n => (shortenName id (ambiguousOf id
      [c!"foo", c!"foo::h0123456789abcdef"]) n).toOption) = [some c!"foo", some c!"foo"] ∧
    [c!"foo", c!"foo::h0123456789abcdef"].map (fun n => (shortenName id (ambiguousOf id
      [c!"foo", c!"foo::h0123456789abcdef", c!"foo::h0000000000000000"]) n).toOption) =
      [some c!"foo", some c!"foo::h0123456789abcdef"] := by decide

example : exLive.Nodup ∧ ∀ n ∈ exLive, ∀ d, HashOf d (id n) → d ∉ exLive := by
  refine ⟨by decide, fun n hn d hd => ?_⟩
  have hd' := (dehash_iff _ _).mpr hd
  have : ∀ n ∈ exLive, ∀ d', dehash (id n) = some d' → d' ∉ exLive := by
    intro n hn d'
    simp only [exLive, List.mem_cons, List.not_mem_nil, or_false] at hn
    rcases hn with rfl | rfl | rfl | rfl
    · have : dehash (id c!"a::f::h0000000000000001") = some c!"a::f" := by decide
      rw [this]; rintro ⟨⟩; decide
    · have : dehash (id c!"a::f::h0000000000000002") = some c!"a::f" := by decide
      rw [this]; rintro ⟨⟩; decide
    · have : dehash (id c!"b::g::h0000000000000003") = some c!"b::g" := by decide
      rw [this]; rintro ⟨⟩; decide
    · have : dehash (id c!"main") = none := by decide
      rw [this]; rintro ⟨⟩
  exact this n hn d hd'

/-- **C20 is false**: a function pointer type that ends in 19 bytes beginning with `::h` is taken for
a name with a hash that was never counted, and the lookup aborts the tool. -/
theorem C20_shortening_can_abort : ∃ (live : List Str) (label : Str),
    label = c!"void (%\"mycrate::heapless_pool\"*)*" ∧
    shortenNodes id (ambiguousOf id live)
      (live.map (fun n => mkNode n (some 0) false) ++ [mkNode label (some 0) true]) =
      .error (.missingAmbiguous c!"void (%\"mycrate") :=
  ⟨[c!"main"], _, rfl, by decide⟩

/-- **C20 (partial)** If every node is a live function or has a name without a hash, shortening does
not abort, keeps everything but names, and is the per-node shortening. Missing: external functions
and signature labels that look as if they had a hash, see `C20_shortening_can_abort`. -/
theorem C20_shortening_total_partial (demangle : Str → Str) (live : List Str) (nodes : List Node)
    (h : ∀ nd ∈ nodes, nd.name ∈ live ∨ ∀ d, ¬ HashOf d (demangle nd.name)) :
    ∃ nodes', shortenNodes demangle (ambiguousOf demangle live) nodes = .ok nodes' ∧
      nodes'.map (fun nd => (nd.loc, nd.max, nd.dashed)) =
        nodes.map (fun nd => (nd.loc, nd.max, nd.dashed)) ∧
      nodes'.map (fun nd => Except.ok (ε := Panic) nd.name) =
        nodes.map (fun nd => shortenName demangle (ambiguousOf demangle live) nd.name) := by
  induction nodes with
  | nil => exact ⟨[], rfl, rfl, rfl⟩
  | cons nd nodes ih =>
    obtain ⟨nodes', e, h1, h2⟩ := ih (fun x hx => h x (.tail _ hx))
    have hs : ∃ s, shortenName demangle (ambiguousOf demangle live) nd.name = .ok s := by
      rcases h nd (by simp) with hl | hn
      · by_cases hh : ∃ d, HashOf d (demangle nd.name)
        · obtain ⟨d, hd⟩ := hh
          obtain ⟨i, hi⟩ := List.mem_iff_getElem?.mp hl
          by_cases hu : ∀ j other, live[j]? = some other → HashOf d (demangle other) → j = i
          · exact ⟨_, (C19_shortened_iff_unique demangle hi hd).1 hu⟩
          · exact ⟨_, (C19_shortened_iff_unique demangle hi hd).2 hu⟩
        · exact ⟨_, C19_no_hash demangle _ (fun d hd => hh ⟨d, hd⟩)⟩
      · exact ⟨_, C19_no_hash demangle _ hn⟩
    obtain ⟨s, hs⟩ := hs
    exact ⟨{ nd with name := s } :: nodes', by simp [shortenNodes, hs, e],
      by simp [h1], by simp [h2, hs]⟩

example : ∀ nd ∈ [mkNode c!"b::g::h0000000000000003" (some 1) false],
    nd.name ∈ exLive ∨ ∀ d, ¬ HashOf d (id nd.name) := by
  intro nd h
  simp only [List.mem_singleton] at h
  subst h
  exact .inl (by decide)

/-- **C20** Exactly when shortening succeeds: every node whose name looks as if it ended in a hash shares its
path with a live function. (Live functions always do.) -/
theorem C20_shortening_iff (demangle : Str → Str) (live : List Str) (nodes : List Node) :
    (∃ nodes', shortenNodes demangle (ambiguousOf demangle live) nodes = .ok nodes') ↔
      ∀ nd ∈ nodes, ∀ path, HashOf path (demangle nd.name) →
        ∃ other ∈ live, HashOf path (demangle other) := by
  have one : ∀ name : Str, (∃ s, shortenName demangle (ambiguousOf demangle live) name = .ok s) ↔
      ∀ path, HashOf path (demangle name) → ∃ other ∈ live, HashOf path (demangle other) := by
    intro name
    simp only [← dehash_iff]
    unfold shortenName
    cases hd : dehash (demangle name) with
    | none => simp
    | some d =>
      simp only [lookup_ambiguous, Option.some.injEq, forall_eq']
      by_cases h0 : live.countP (fun n => decide (dehash (demangle n) = some d)) = 0
      · simp only [h0, if_true]
        rw [List.countP_eq_zero] at h0
        simp only [decide_eq_true_eq] at h0
        constructor
        · rintro ⟨s, hs⟩; simp at hs
        · rintro ⟨o, ho, h⟩; exact absurd h (h0 o ho)
      · rw [if_neg h0]
        have hpos := List.countP_pos_iff.mp (Nat.pos_of_ne_zero h0)
        simp only [decide_eq_true_eq] at hpos
        simp only [hpos, iff_true]
        split
        · exact ⟨_, rfl⟩
        · exact ⟨_, rfl⟩
  induction nodes with
  | nil => simp [shortenNodes]
  | cons nd nodes ih =>
    rw [List.forall_mem_cons]
    refine Iff.trans ?_ (and_congr (one nd.name) ih)
    constructor
    · rintro ⟨nodes', h⟩
      rw [shortenNodes] at h
      cases h1 : shortenName demangle (ambiguousOf demangle live) nd.name with
      | error e => rw [h1] at h; simp at h
      | ok s =>
        rw [h1] at h
        cases h2 : shortenNodes demangle (ambiguousOf demangle live) nodes with
        | error e => rw [h2] at h; simp at h
        | ok r => exact ⟨⟨_, rfl⟩, _, rfl⟩
    · rintro ⟨⟨s, h1⟩, r, h2⟩
      exact ⟨_, by rw [shortenNodes, h1]; simp only; rw [h2]⟩

/-- An external function with the path of a live one is shortened, one without aborts. -/
example : (∃ nodes', shortenNodes id (ambiguousOf id exLive)
      [mkNode c!"b::g::h000000000000000f" none false] = .ok nodes') ∧
    ¬ ∃ nodes', shortenNodes id (ambiguousOf id exLive)
      [mkNode c!"c::g::h000000000000000f" none false] = .ok nodes' := by
  refine ⟨⟨_, rfl⟩, ?_⟩
  rintro ⟨nodes', h⟩
  revert h
  have : shortenNodes id (ambiguousOf id exLive) [mkNode c!"c::g::h000000000000000f" none false] =
      .error (.missingAmbiguous c!"c::g") := by decide
  rw [this]
  simp

/-- **C21** Outlined functions are recognised exactly. -/
theorem C21_outlined (name : Str) : isOutlined name = true ↔ OutlinedName name :=
  isOutlined_iff name

example : isOutlined c!"OUTLINED_FUNCTION_42" = true ∧ isOutlined c!"OUTLINED_FUNCTION_+7" = true ∧
    isOutlined c!"OUTLINED_FUNCTION_" = false ∧ isOutlined c!"OUTLINED_FUNCTION_4x" = false ∧
    isOutlined c!"OUTLINED_FUNCTION_18446744073709551616" = false ∧
    isOutlined c!"OUTLINED_FUNCTION_18446744073709551615" = true := by decide

end CallStack
