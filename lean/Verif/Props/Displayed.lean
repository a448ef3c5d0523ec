import Verif.Props.Start
import Verif.Props.Names

/-!
Property C98: the name that is shown for a live function, in whole runs.
-/

namespace CallStack

/-- `s` is how the `i`-th live function is to be shown: the path of its name without the hash, if no other live
function has the same path; its whole name if another one has, or if there is no hash. -/
def Program.Displayed (p : Program) (demangle : Str → Str) (i : Nat) (s : Str) : Prop :=
  ∃ n, p.Principal i n ∧
    ((HashOf s (demangle n) ∧ ∀ j n', p.Principal j n' → HashOf s (demangle n') → j = i) ∨
      (s = n ∧ ∀ path, HashOf path (demangle n) →
        ∃ j n', j ≠ i ∧ p.Principal j n' ∧ HashOf path (demangle n')))

/-- **C98** The node of every live function has the name described by `Displayed`, which is unique. -/
theorem C98_displayed {demangle : Str → Str} {ord : HashOrder} {search : TagSearch} {p : Program} {elf : Elf}
    {g : Graph} {cycles : List (List Nat)} (sizes : p.SizesU64) (fits : elf.Fits32)
    (h : finalGraph demangle ord search p elf none = .ok (g, cycles)) {i : Nat} (hi : i < p.defined.length) :
    ∃ nd, g.nodes[i]? = some nd ∧ ∀ s, p.Displayed demangle i s ↔ nd.name = s := by
  obtain ⟨st, g0, g1, a1, a2, a3, _⟩ := finalGraph_steps h
  obtain ⟨cs, st0, stIr, r⟩ := callGraph_shared a1
  have hamb := r.ambiguous
  have hcl : i < cs.length := by rw [r.sym.len]; exact hi
  have hn : cs[i]? = some cs[i] := List.getElem?_eq_getElem hcl
  generalize cs[i] = n at hn
  obtain ⟨nd0, b1, b2, _⟩ := r.live_node hn
  have hsame := (analyzeMax_edges r.wf (r.u64 sizes fits) a2).at_ i
  rw [b1] at hsame
  cases hk : g1.nodes[i]? with
  | none => rw [hk] at hsame; simp at hsame
  | some nd1 =>
    rw [hk] at hsame
    have hname1 : nd1.name = n := by
      simp at hsame
      rw [hsame.1, b2]
    rw [shortenNodes_iff, List.forall₂_iff_get] at a3
    obtain ⟨c1, c2⟩ := a3
    obtain ⟨d1, d2⟩ := List.getElem?_eq_some_iff.mp hk
    have c3 := c2 i d1 (c1 ▸ d1)
    simp only [List.get_eq_getElem] at c3
    obtain ⟨name, e1, e2⟩ := c3
    rw [d2, hname1, hamb] at e1
    refine ⟨_, List.getElem?_eq_getElem (c1 ▸ d1), fun s => ?_⟩
    rw [e2]
    show _ ↔ name = s
    have hprin : ∀ {j n'}, p.Principal j n' ↔ cs[j]? = some n' := r.principal
    by_cases hh : ∃ d, HashOf d (demangle n)
    · obtain ⟨d, hd⟩ := hh
      have huniq : ∀ d', HashOf d' (demangle n) → d' = d := by
        intro d' hd'
        have x := (dehash_iff _ _).mpr hd
        have y := (dehash_iff _ _).mpr hd'
        rw [x] at y
        exact (Option.some.inj y).symm
      by_cases hu : ∀ j other, cs[j]? = some other → HashOf d (demangle other) → j = i
      · have hs := (C19_shortened_iff_unique demangle hn hd).1 hu
        rw [e1] at hs
        simp only [Except.ok.injEq] at hs
        subst hs
        constructor
        · rintro ⟨n', k1, ⟨k2, _⟩ | ⟨rfl, k2⟩⟩
          · rw [hprin, hn] at k1
            cases k1
            exact (huniq _ k2).symm
          · rw [hprin, hn] at k1
            cases k1
            obtain ⟨j, n', k3, k4, k5⟩ := k2 name hd
            exact absurd (hu j n' (hprin.mp k4) k5) k3
        · rintro rfl
          exact ⟨n, hprin.mpr hn, .inl ⟨hd, fun j n' k1 k2 => hu j n' (hprin.mp k1) k2⟩⟩
      · have hs := (C19_shortened_iff_unique demangle hn hd).2 hu
        rw [e1] at hs
        simp only [Except.ok.injEq] at hs
        subst hs
        simp only [not_forall] at hu
        obtain ⟨j, n', k1, k2, k3⟩ := hu
        constructor
        · rintro ⟨n2, l1, ⟨l2, l3⟩ | ⟨rfl, _⟩⟩
          · rw [hprin, hn] at l1
            cases l1
            have := huniq _ l2
            subst this
            exact absurd (l3 j n' (hprin.mpr k1) k2) k3
          · rw [hprin, hn] at l1
            cases l1
            rfl
        · rintro rfl
          exact ⟨name, hprin.mpr hn, .inr ⟨rfl, fun d' hd' =>
            ⟨j, n', k3, hprin.mpr k1, by rw [huniq d' hd']; exact k2⟩⟩⟩
    · have hs := C19_no_hash demangle (ambiguousOf demangle cs) (name := n) (fun d hd => hh ⟨d, hd⟩)
      rw [e1] at hs
      simp only [Except.ok.injEq] at hs
      subst hs
      constructor
      · rintro ⟨n', k1, ⟨k2, _⟩ | ⟨rfl, _⟩⟩
        · rw [hprin, hn] at k1
          cases k1
          exact absurd ⟨_, k2⟩ hh
        · rw [hprin, hn] at k1
          cases k1
          rfl
      · rintro rfl
        exact ⟨name, hprin.mpr hn, .inr ⟨rfl, fun d hd => absurd ⟨d, hd⟩ hh⟩⟩

/-- `a::f` exists twice and keeps its hashes, `b::g` is shown without. -/
def exDisplayed : Program :=
  { target := .other
    defined := [(256, ⟨[c!"a::f::h0000000000000001"], 8⟩), (264, ⟨[c!"a::f::h0000000000000002"], 4⟩),
      (272, ⟨[c!"b::g::h0000000000000003"], 4⟩), (280, ⟨[c!"main"], 4⟩)]
    undefined := []
    stackSizes := []
    defines := []
    declares := [] }

example : exDisplayed.NamesOnce ∧ exDisplayed.SizesU64 ∧
    (finalGraph id sameOrder linearSearch exDisplayed ⟨[], none⟩ none).toOption.map
      (fun x => x.1.nodes.map Node.name) = some [c!"a::f::h0000000000000001", c!"a::f::h0000000000000002",
        c!"b::g", c!"main"] := by
  refine ⟨namesOnce_of (by decide), ?_, by decide +kernel⟩
  intro n k hk
  cases hk

/-- A function outside the program can be shown under the name of a live one: `main` calls the live function `b::g`
and another one that is undefined and has the same path; both are shown as `b::g`. -/
theorem C98_outside_same_name :
    (finalGraph id sameOrder linearSearch { exDisplayed with
        undefined := [c!"b::g::h0000000000000004"]
        defines := [⟨c!"main", ⟨[], none⟩, [.directCall c!"b::g::h0000000000000003",
          .directCall c!"b::g::h0000000000000004"]⟩]
        declares := [⟨c!"b::g::h0000000000000004", some ⟨[], none⟩⟩] } ⟨[], none⟩ none).toOption.map
      (fun x => (x.1.nodes.map Node.name, x.1.edges)) =
      some ([c!"a::f::h0000000000000001", c!"a::f::h0000000000000002", c!"b::g", c!"main", c!"b::g"],
        [(3, 2), (3, 4)]) := by decide +kernel

end CallStack
