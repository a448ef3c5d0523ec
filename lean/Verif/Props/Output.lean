import Verif.Proof.Output
import Verif.Proof.Backslash

/-!
Properties C22-C24 and C68: the output formats (main.rs:1228-1386).
-/

namespace CallStack

/-- **C22** Reading the dot file back yields exactly the nodes (shown name, max, local, style) in
order, the calls in order, and the clusters. -/
theorem C22_dot_faithful (demangle : Str → Str) (g : Graph) (cycles : List (List Nat))
    (hn : ∀ nd ∈ g.nodes, '\\' ∉ demangle nd.name) :
    (readDot (dotText demangle g cycles)).bind DotFile.meaning =
      some (g.nodes.map (fun nd => ⟨demangle nd.name, nd.max, nd.loc, nd.dashed⟩), g.edges, cycles) := by
  rw [readDot_dotText demangle g cycles hn]
  simp only [Option.bind_some, DotFile.meaning, readNodes_spec demangle g.nodes hn, mapM_readEdge,
    mapM_clusters]
  rfl

/-- **C22** Two graphs with the same dot file have the same shown nodes, calls and clusters. -/
theorem C22_dot_injective (demangle : Str → Str) (g₁ g₂ : Graph) (cs₁ cs₂ : List (List Nat))
    (h₁ : ∀ nd ∈ g₁.nodes, '\\' ∉ demangle nd.name) (h₂ : ∀ nd ∈ g₂.nodes, '\\' ∉ demangle nd.name)
    (h : dotText demangle g₁ cs₁ = dotText demangle g₂ cs₂) :
    g₁.nodes.map (fun nd => (demangle nd.name, nd.max, nd.loc, nd.dashed)) =
      g₂.nodes.map (fun nd => (demangle nd.name, nd.max, nd.loc, nd.dashed)) ∧
    g₁.edges = g₂.edges ∧ cs₁ = cs₂ := by
  have a := C22_dot_faithful demangle g₁ cs₁ h₁
  have b := C22_dot_faithful demangle g₂ cs₂ h₂
  rw [h, b] at a
  simp only [Option.some.injEq, Prod.mk.injEq] at a
  refine ⟨?_, a.2.1.symm, a.2.2.symm⟩
  have := congrArg (List.map (fun n : ShownNode => (n.name, n.max, n.loc, n.dashed))) a.1
  simpa [Function.comp_def] using this.symm

/-- A small graph, its dot file, and what a reader sees. -/
def exShown : Graph :=
  { nodes := [⟨c!"<a as \"b\">::f", .exact 8, some (.exact 12), false⟩,
      ⟨c!"i32 (i32)*", .unknown, some (.lowerBound 4), true⟩, ⟨c!"g", .exact 4, none, false⟩]
    edges := [(0, 1), (1, 1)] }

example : ∀ nd ∈ exShown.nodes, '\\' ∉ id nd.name := by decide

example : String.ofList (dotText id exShown [[1]]) = "digraph {
    node [fontname=monospace shape=box]
    0 [label=\"<a as \\\"b\\\">::f\\nmax = 12\\nlocal = 8\"]
    1 [label=\"i32 (i32)*\\nmax >= 4\\nlocal = ?\" style=dashed]
    2 [label=\"g\\nlocal = 4\"]
    0 -> 1
    1 -> 1

    subgraph cluster_0 {
        style=dashed
        fontname=monospace
        label=\"SCC0\"
        1
    }
}
" := by decide +kernel

/-- **C23** An escaped name without backslashes, put between quotes, is one string token with exactly
that name as its contents, whatever follows. -/
theorem C23_label_quoted (name rest : Str) (hn : '\\' ∉ name) (ts : List DotTok) :
    (c!"\"" ++ escape name ++ c!"\"" ++ rest).foldlM lexStep (.top, ts) =
      rest.foldlM lexStep (.top, .str name :: ts) := by
  have h : (c!"\"" ++ escape name ++ c!"\"").foldlM lexStep (.top, ts) =
      some (.top, .str name :: ts) := by
    refine (lexSeq (lexSeq (st₁ := (.quoted [], ts)) rfl (lex_escape name hn _ _)) rfl).trans ?_
    simp
  rw [List.foldlM_append, h]
  rfl

example : '\\' ∉ c!"<a as \"b\">::f" := by decide

/-- **C68 is false**: a name with a backslash before a quote ends the string early, and the file is
not a dot file any more. -/
theorem C68_backslash_breaks_quotes :
    ∃ name : Str, readDot (dotText id ⟨[⟨name, .exact 0, none, false⟩], []⟩ []) = none :=
  ⟨c!"a\\\" b", by decide⟩

/-- **C68** Exactly when the dot file shows the graph: if no shown name contains a backslash. Otherwise the file
cannot be read, or the first node with such a name is not shown under its name with its maximum. -/
theorem C68_faithful_iff (demangle : Str → Str) (g : Graph) (cycles : List (List Nat)) :
    (readDot (dotText demangle g cycles)).bind DotFile.meaning =
      some (g.nodes.map (fun nd => ⟨demangle nd.name, nd.max, nd.loc, nd.dashed⟩), g.edges, cycles) ↔
    ∀ nd ∈ g.nodes, '\\' ∉ demangle nd.name := by
  refine ⟨fun h => ?_, C22_dot_faithful demangle g cycles⟩
  have key : ∀ k, ∀ nd ∈ g.nodes.take k, '\\' ∉ demangle nd.name := by
    intro k
    induction k with
    | zero => intro nd hnd; simp at hnd
    | succ k ih =>
      intro nd hnd
      rw [List.take_add_one, List.mem_append] at hnd
      rcases hnd with hnd | hnd
      · exact ih nd hnd
      · rw [Option.mem_toList] at hnd
        intro hb
        obtain ⟨hk, hk'⟩ := List.getElem?_eq_some_iff.mp hnd
        have hsplit : g.nodes = g.nodes.take k ++ nd :: g.nodes.drop (k + 1) := by
          rw [← hk', ← List.drop_eq_getElem_cons hk, List.take_append_drop]
        obtain ⟨sn, h1, h2⟩ := not_read_back demangle hsplit ih hb h
        rw [List.length_take, Nat.min_eq_left (by omega), List.getElem?_map, hnd] at h1
        cases h1
        exact h2 ⟨rfl, rfl⟩
  intro nd hnd
  exact key g.nodes.length nd (by rwa [List.take_length])

/-- A name that is shown without its backslash, and one that runs into the line of the maximum. -/
example : (readDot (dotText id ⟨[⟨c!"a\\b", .exact 0, none, false⟩], []⟩ [])).bind DotFile.meaning =
      some ([⟨c!"ab", none, .exact 0, false⟩], [], []) ∧
    (readDot (dotText id ⟨[⟨c!"a\\", .exact 0, some (.exact 8), false⟩], []⟩ [])).bind DotFile.meaning =
      some ([⟨c!"a\\nmax = 8", none, .exact 0, false⟩], [], []) := by constructor <;> rfl

/-! ### the top listing -/

/-- **C24** Every function is listed exactly once. -/
theorem C24_complete (g : Graph) : (sortTop g.nodes).Perm g.nodes := sortTop_perm g.nodes

/-- **C24** The listing is sorted by decreasing local usage (unknown counted as 0), and functions with
the same usage are in graph order. -/
theorem C24_sorted_stable (g : Graph) :
    (sortTop g.nodes).Pairwise (fun a b => b.loc.bytes ≤ a.loc.bytes) ∧
      ∀ k, (sortTop g.nodes).filter (fun x => x.loc.bytes == k) =
        g.nodes.filter (fun x => x.loc.bytes == k) := by
  have h1 := sortTop_sorted g.nodes
  have h2 := sortTop_filter g.nodes
  simp only [topVal_eq] at h1 h2
  exact ⟨h1, h2⟩

/-- **C24** Being sorted and stable determines the listing: the sorting algorithm is irrelevant. -/
theorem C24_stable_sort_unique (nodes l : List Node)
    (h₁ : l.Pairwise (fun a b => b.loc.bytes ≤ a.loc.bytes))
    (h₂ : ∀ k, l.filter (fun x => x.loc.bytes == k) = nodes.filter (fun x => x.loc.bytes == k)) :
    l = sortTop nodes := by
  simp only [← topVal_eq] at h₁ h₂
  exact sorted_unique l _ h₁ (sortTop_sorted _) (fun k => by rw [h₂ k, sortTop_filter])

/-- Number shown for a max in the first line: 0 if there is none. -/
def shownMax (nd : Node) : Nat :=
  match nd.max with
  | some (.exact n) => n
  | some (.lowerBound n) => n
  | none => 0

theorem maxOf_bytes (ms : List Max) (m : Max) (h : maxOf ms = some m) :
    (∃ x ∈ ms, m.bytes = x.bytes) ∧ ∀ x ∈ ms, x.bytes ≤ m.bytes := by
  have hmax : ∀ a b : Max, (a.max b).bytes = Nat.max a.bytes b.bytes := by
    intro a b; cases a <;> cases b <;> rfl
  have key : ∀ (l : List Max) (a : Max),
      ((l.foldl Max.max a).bytes = a.bytes ∨ ∃ x ∈ l, (l.foldl Max.max a).bytes = x.bytes) ∧
      a.bytes ≤ (l.foldl Max.max a).bytes ∧ ∀ x ∈ l, x.bytes ≤ (l.foldl Max.max a).bytes := by
    intro l
    induction l with
    | nil => intro a; simp
    | cons b l ih =>
      intro a
      rw [List.foldl_cons]
      obtain ⟨h1, h2, h3⟩ := ih (a.max b)
      have hab := hmax a b
      have ha : a.bytes ≤ (a.max b).bytes := by rw [hab]; exact Nat.le_max_left _ _
      have hb : b.bytes ≤ (a.max b).bytes := by rw [hab]; exact Nat.le_max_right _ _
      refine ⟨?_, Nat.le_trans ha h2, ?_⟩
      · rcases h1 with h1 | ⟨x, hx, h1⟩
        · rw [h1]
          rcases Nat.le_total a.bytes b.bytes with hle | hle
          · right; exact ⟨b, by simp, by rw [hab]; exact Nat.max_eq_right hle⟩
          · left; rw [hab]; exact Nat.max_eq_left hle
        · right; exact ⟨x, .tail _ hx, h1⟩
      · intro x hx
        rcases List.mem_cons.mp hx with rfl | hx
        · exact Nat.le_trans hb h2
        · exact h3 x hx
  cases ms with
  | nil => simp [maxOf] at h
  | cons a l =>
    simp only [maxOf, Option.some.injEq] at h
    subst h
    obtain ⟨h1, h2, h3⟩ := key l a
    refine ⟨?_, ?_⟩
    · rcases h1 with h1 | ⟨x, hx, h1⟩
      · exact ⟨a, by simp, h1⟩
      · exact ⟨x, .tail _ hx, h1⟩
    · intro x hx
      rcases List.mem_cons.mp hx with rfl | hx
      · exact h2
      · exact h3 x hx

/-- **C24** Reading the listing back: the `MAX` line is there exactly when there is a function, shows
the largest max of any function, and the lines below are the sorted functions with their usage. -/
theorem C24_top_faithful (demangle : Str → Str) (g : Graph)
    (hn : ∀ nd ∈ g.nodes, '\\' ∉ demangle nd.name ∧ '\n' ∉ demangle nd.name) :
    ∃ m, readTop (topText demangle g) =
        some (m, (sortTop g.nodes).map (fun nd => (nd.loc.bytes, demangle nd.name))) ∧
      (m = none ↔ g.nodes = []) ∧
      ∀ n, m = some n → (∃ nd ∈ g.nodes, shownMax nd = n) ∧ ∀ nd ∈ g.nodes, shownMax nd ≤ n := by
  simp only [← topVal_eq]
  have hlines : ∀ (l rest : Str) (ls : List Str), '\n' ∉ l → linesOf rest = some ls →
      linesOf (l ++ '\n' :: rest) = some (l :: ls) := by
    intro l
    induction l with
    | nil => intro rest ls _ h; simp [linesOf, h]
    | cons c l ih =>
      intro rest ls hl h
      have hc : c ≠ '\n' := fun e => hl (by simp [e])
      have := ih rest ls (fun e => hl (.tail _ e)) h
      simp only [List.cons_append, linesOf, if_neg hc, this]
  have hun : ∀ s : Str, '\\' ∉ s → unescape (escape s) = s := by
    intro s
    induction s with
    | nil => intro _; rfl
    | cons c s ih =>
      intro hs
      have hc : c ≠ '\\' := fun e => hs (by simp [e])
      have := ih (fun e => hs (.tail _ e))
      by_cases hq : c = '"'
      · subst hq
        show unescape ('\\' :: '"' :: escape s) = _
        rw [unescape, this]
      · have : escapeChar c = [c] := by
          unfold escapeChar; split
          · exact absurd rfl hq
          · rfl
        have e : escape (c :: s) = c :: escape s := by
          simp [escape, this]
        rw [e, unescape]
        · rw [ih (fun e => hs (.tail _ e))]
        · intro _ h; exact fun _ => hc h
  have hsplit : ∀ a b : Str, ' ' ∉ a → splitFirst ' ' (a ++ ' ' :: b) = some (a, b) := by
    intro a b
    induction a with
    | nil => intro _; simp [splitFirst]
    | cons c a ih =>
      intro h
      have hc : c ≠ ' ' := fun e => h (by simp [e])
      simp [splitFirst, hc, ih (fun e => h (.tail _ e))]
  have hline : ∀ nd : Node, topLine demangle nd =
      (showNat nd.loc.topVal ++ ' ' :: escape (demangle nd.name)) ++ '\n' :: [] := by
    intro nd
    unfold topLine
    rw [escape_append]
    have : escape c!"\n" = c!"\n" := rfl
    rw [this]; simp
  have husage : ∀ nd : Node, '\\' ∉ demangle nd.name →
      readUsage (showNat nd.loc.topVal ++ ' ' :: escape (demangle nd.name)) =
        some (nd.loc.topVal, demangle nd.name) := by
    intro nd h
    unfold readUsage
    rw [hsplit _ _ (showNat_no (by decide))]
    simp [readDec_showNat, hun _ h]
  have hbody : ∀ nodes : List Node,
      (∀ nd ∈ nodes, '\\' ∉ demangle nd.name ∧ '\n' ∉ demangle nd.name) →
      ∃ ls, linesOf (nodes.flatMap (topLine demangle)) = some ls ∧
        ls.mapM readUsage = some (nodes.map (fun nd => (nd.loc.topVal, demangle nd.name))) := by
    intro nodes
    induction nodes with
    | nil => intro _; exact ⟨[], rfl, rfl⟩
    | cons nd nodes ih =>
      intro h
      obtain ⟨ls, h1, h2⟩ := ih (fun x hx => h x (.tail _ hx))
      have hnd := h nd (by simp)
      have hnl : '\n' ∉ showNat nd.loc.topVal ++ ' ' :: escape (demangle nd.name) := by
        intro hm
        rcases List.mem_append.mp hm with hm | hm
        · exact showNat_no (by decide) hm
        · rcases List.mem_cons.mp hm with hm | hm
          · exact absurd hm (by decide)
          · exact escape_no_newline hnd.2 hm
      refine ⟨(showNat nd.loc.topVal ++ ' ' :: escape (demangle nd.name)) :: ls, ?_, ?_⟩
      · rw [List.flatMap_cons, hline, List.append_assoc]
        exact hlines _ _ _ hnl (by simpa using h1)
      · simp only [List.mapM_cons, husage nd hnd.1, h2]
        rfl
  have hn' : ∀ nd ∈ sortTop g.nodes, '\\' ∉ demangle nd.name ∧ '\n' ∉ demangle nd.name :=
    fun nd h => hn nd ((sortTop_perm _).mem_iff.mp h)
  obtain ⟨ls, hl1, hl2⟩ := hbody _ hn'
  have hhead : linesOf (c!"Usage Function\n" ++ (sortTop g.nodes).flatMap (topLine demangle)) =
      some (c!"Usage Function" :: ls) :=
    hlines c!"Usage Function" _ ls (by decide) hl1
  have hb : ∀ nd : Node, (nd.max.getD (.exact 0)).bytes = shownMax nd := by
    intro nd
    unfold shownMax
    cases nd.max with
    | none => rfl
    | some m => cases m <;> rfl
  unfold topText topMaxLine
  cases hm : maxOf (g.nodes.map (fun n => n.max.getD (.exact 0))) with
  | none =>
    have hnil : g.nodes = [] := by
      cases hg : g.nodes with
      | nil => rfl
      | cons a l => rw [hg] at hm; simp [maxOf] at hm
    refine ⟨none, ?_, by simp [hnil], by simp⟩
    unfold readTop
    simp only [List.nil_append]
    rw [hhead]
    simp only [if_true, hl2]
    rfl
  | some m =>
    have hne : g.nodes ≠ [] := by
      intro h; rw [h] at hm; simp [maxOf] at hm
    obtain ⟨⟨x, hx, hxm⟩, hall⟩ := maxOf_bytes _ _ hm
    have hmv : m.topVal = m.bytes := by cases m <;> rfl
    refine ⟨some m.bytes, ?_, by simp [hne], ?_⟩
    · unfold readTop
      simp only [hmv]
      have hfirst : linesOf (showNat m.bytes ++ c!" MAX\n" ++ c!"Usage Function\n" ++
          (sortTop g.nodes).flatMap (topLine demangle)) =
          some ((showNat m.bytes ++ c!" MAX") :: c!"Usage Function" :: ls) := by
        have hnl : '\n' ∉ showNat m.bytes ++ c!" MAX" := by
          intro hm
          rcases List.mem_append.mp hm with hm | hm
          · exact showNat_no (by decide) hm
          · revert hm; decide
        have := hlines (showNat m.bytes ++ c!" MAX") _ _ hnl hhead
        rw [← this]
        simp
      rw [hfirst]
      have hne1 : showNat m.bytes ++ c!" MAX" ≠ c!"Usage Function" := by
        intro h
        have : 'X' ∈ c!"Usage Function" := by rw [← h]; simp
        revert this; decide
      have hu : readUsage (showNat m.bytes ++ c!" MAX") = some (m.bytes, c!"MAX") := by
        unfold readUsage
        have := hsplit (showNat m.bytes) c!"MAX" (showNat_no (by decide))
        rw [this]
        simp only [readDec_showNat]
        rfl
      simp only [if_neg hne1, hu, and_self, if_true, hl2]
      rfl
    · intro n hn
      simp only [Option.some.injEq] at hn
      subst hn
      refine ⟨?_, ?_⟩
      · obtain ⟨nd, hnd, rfl⟩ := List.mem_map.mp hx
        exact ⟨nd, hnd, by rw [← hb, hxm]⟩
      · intro nd hnd
        have := hall _ (List.mem_map.mpr ⟨nd, hnd, rfl⟩)
        rw [hb] at this
        exact this

example : ∀ nd ∈ exShown.nodes, '\\' ∉ id nd.name ∧ '\n' ∉ id nd.name := by decide

example : String.ofList (topText id exShown) =
    "12 MAX\nUsage Function\n8 <a as \\\"b\\\">::f\n4 g\n0 i32 (i32)*\n" := by decide +kernel

end CallStack
