import Verif.Model.Output
import Verif.Spec.Dot
import Verif.Proof.Names
import Verif.Spec.Graph

/-! Lemmas about the output. -/

namespace CallStack

/-! ### numbers -/

theorem digitChar_spec {d : Nat} (h : d < 10) :
    digitChar d ∈ c!"0123456789" ∧ (digitChar d).toNat = 48 + d := by
  have : d = 0 ∨ d = 1 ∨ d = 2 ∨ d = 3 ∨ d = 4 ∨ d = 5 ∨ d = 6 ∨ d = 7 ∨ d = 8 ∨ d = 9 := by omega
  rcases this with h | h | h | h | h | h | h | h | h | h <;> subst h <;> decide

theorem decValue_append (a : Str) (c : Char) :
    decValue (a ++ [c]) = 10 * decValue a + (c.toNat - 48) := by
  simp only [decValue, List.foldl_append, List.foldl_cons, List.foldl_nil]
  rfl

theorem showNatAux_spec (fuel n : Nat) (h : n ≤ fuel) :
    showNatAux fuel n ≠ [] ∧ (∀ c ∈ showNatAux fuel n, c ∈ c!"0123456789") ∧
      decValue (showNatAux fuel n) = n := by
  induction fuel generalizing n with
  | zero =>
    obtain rfl : n = 0 := by omega
    decide
  | succ fuel ih =>
    simp only [showNatAux]
    by_cases h10 : n < 10
    · rw [if_pos h10]
      have := digitChar_spec h10
      refine ⟨by simp, ?_, ?_⟩
      · intro c hc
        simp only [List.mem_singleton] at hc
        exact hc ▸ this.1
      · have := decValue_append [] (digitChar n)
        simp only [List.nil_append] at this
        rw [this]
        simp [decValue]
        omega
    · rw [if_neg h10]
      obtain ⟨h1, h2, h3⟩ := ih (n / 10) (by omega)
      have := digitChar_spec (d := n % 10) (by omega)
      refine ⟨by simp, ?_, ?_⟩
      · intro c hc
        rcases List.mem_append.mp hc with hc | hc
        · exact h2 c hc
        · simp only [List.mem_singleton] at hc
          exact hc ▸ this.1
      · rw [decValue_append, h3]
        omega

theorem showNat_isDecimal (n : Nat) : IsDecimal (showNat n) n := showNatAux_spec n n (Nat.le_refl n)

theorem readDec_showNat (n : Nat) : readDec (showNat n) = some n := by
  have h := showNat_isDecimal n
  unfold readDec
  rw [if_pos ⟨h.1, h.2.1⟩, h.2.2]

theorem showNat_injective {a b : Nat} (h : showNat a = showNat b) : a = b := by
  have := readDec_showNat a
  rw [h, readDec_showNat] at this
  simpa using this.symm

theorem digit_wordChar {c : Char} (h : c ∈ c!"0123456789") : isWordChar c = true := by
  have := (mem_digits c).mp h
  simp [isWordChar, this]

theorem digit_plain {c : Char} (h : c ∈ c!"0123456789") : c ≠ '"' ∧ c ≠ '\\' := by
  refine ⟨?_, ?_⟩
  · rintro rfl; revert h; decide
  · rintro rfl; revert h; decide

/-! ### lexing -/

theorem lexSeq {st st₁ st₂ : LexMode × List DotTok} {a b : Str}
    (h₁ : a.foldlM lexStep st = some st₁) (h₂ : b.foldlM lexStep st₁ = some st₂) :
    (a ++ b).foldlM lexStep st = some st₂ := by
  rw [List.foldlM_append, h₁]
  exact h₂

theorem lex_word (ws : Str) (hw : ∀ c ∈ ws, isWordChar c = true) (acc : Str) (ts : List DotTok) :
    ws.foldlM lexStep (.word acc, ts) = some (.word (ws.reverse ++ acc), ts) := by
  induction ws generalizing acc with
  | nil => rfl
  | cons c ws ih =>
    rw [List.foldlM_cons]
    have hc := hw c (by simp)
    have : lexStep (.word acc, ts) c = some (.word (c :: acc), ts) := by simp [lexStep, hc]
    rw [this]
    simp only [Option.bind_eq_bind, Option.bind_some]
    rw [ih (fun x hx => hw x (.tail _ hx))]
    simp

theorem lexTop_word {c : Char} (h : c ∈ c!"0123456789") (ts : List DotTok) :
    lexTop ts c = some (.word [c], ts) := by
  simp only [List.mem_cons, List.not_mem_nil, or_false] at h
  rcases h with rfl | rfl | rfl | rfl | rfl | rfl | rfl | rfl | rfl | rfl <;> rfl

theorem lex_num (n : Nat) (ts : List DotTok) :
    (showNat n).foldlM lexStep (.top, ts) = some (.word (showNat n).reverse, ts) := by
  obtain ⟨h1, h2, _⟩ := showNat_isDecimal n
  cases hs : showNat n with
  | nil => exact absurd hs h1
  | cons c s =>
    rw [hs] at h2
    rw [List.foldlM_cons]
    have : lexStep (.top, ts) c = some (.word [c], ts) := by
      simp only [lexStep]; exact lexTop_word (h2 c (by simp)) ts
    rw [this]
    simp only [Option.bind_eq_bind, Option.bind_some]
    rw [lex_word s (fun x hx => digit_wordChar (h2 x (.tail _ hx)))]
    simp

theorem lex_word_num (n : Nat) (acc : Str) (ts : List DotTok) :
    (showNat n).foldlM lexStep (.word acc, ts) = some (.word ((showNat n).reverse ++ acc), ts) :=
  lex_word _ (fun c hc => digit_wordChar ((showNat_isDecimal n).2.1 c hc)) acc ts

theorem lex_plain (s : Str) (hs : ∀ c ∈ s, c ≠ '"' ∧ c ≠ '\\') (acc : Str) (ts : List DotTok) :
    s.foldlM lexStep (.quoted acc, ts) = some (.quoted (s.reverse ++ acc), ts) := by
  induction s generalizing acc with
  | nil => rfl
  | cons c s ih =>
    rw [List.foldlM_cons]
    have hc := hs c (by simp)
    have : lexStep (.quoted acc, ts) c = some (.quoted (c :: acc), ts) := by simp [lexStep, hc]
    rw [this]
    simp only [Option.bind_eq_bind, Option.bind_some]
    rw [ih (fun x hx => hs x (.tail _ hx))]
    simp

theorem lex_num_quoted (n : Nat) (acc : Str) (ts : List DotTok) :
    (showNat n).foldlM lexStep (.quoted acc, ts) = some (.quoted ((showNat n).reverse ++ acc), ts) :=
  lex_plain _ (fun c hc => digit_plain ((showNat_isDecimal n).2.1 c hc)) acc ts

/-- An escaped name is read back as it was. -/
theorem lex_escape (s : Str) (hs : '\\' ∉ s) (acc : Str) (ts : List DotTok) :
    (escape s).foldlM lexStep (.quoted acc, ts) = some (.quoted (s.reverse ++ acc), ts) := by
  induction s generalizing acc with
  | nil => rfl
  | cons c s ih =>
    have hc : c ≠ '\\' := fun h => hs (by simp [h])
    have hs' : '\\' ∉ s := fun h => hs (.tail _ h)
    have : (escapeChar c).foldlM lexStep (.quoted acc, ts) = some (.quoted (c :: acc), ts) := by
      by_cases hq : c = '"'
      · subst hq; rfl
      · have : escapeChar c = [c] := by
          unfold escapeChar
          split
          · exact absurd rfl hq
          · rfl
        rw [this]
        simp [lexStep, hq, hc]
    simp only [escape, List.flatMap_cons, List.foldlM_append, this]
    simp only [Option.bind_eq_bind, Option.bind_some]
    rw [show s.flatMap escapeChar = escape s from rfl, ih hs']
    simp

/-- Text of the label attribute of a node. -/
def labelOf (demangle : Str → Str) (node : Node) : Str :=
  demangle node.name ++
  dotMax node.max ++
  (c!"\\nlocal = " ++ node.loc.show)

theorem lex_max (m : Max) (acc : Str) (ts : List DotTok) :
    (c!"\\nmax " ++ m.show).foldlM lexStep (.quoted acc, ts) =
      some (.quoted ((c!"\\nmax " ++ m.show).reverse ++ acc), ts) := by
  have h1 : (c!"\\nmax ").foldlM lexStep (.quoted acc, ts) =
      some (.quoted ((c!"\\nmax ").reverse ++ acc), ts) := rfl
  rw [List.foldlM_append, h1]
  simp only [Option.bind_eq_bind, Option.bind_some]
  have h2 : m.show.foldlM lexStep (.quoted ((c!"\\nmax ").reverse ++ acc), ts) =
      some (.quoted (m.show.reverse ++ ((c!"\\nmax ").reverse ++ acc)), ts) := by
    apply lex_plain
    intro c hc
    cases m with
    | exact n =>
      rcases List.mem_append.mp hc with hc | hc
      · simp only [List.mem_cons, List.not_mem_nil, or_false] at hc
        rcases hc with rfl | rfl <;> decide
      · exact digit_plain ((showNat_isDecimal n).2.1 c hc)
    | lowerBound n =>
      rcases List.mem_append.mp hc with hc | hc
      · simp only [List.mem_cons, List.not_mem_nil, or_false] at hc
        rcases hc with rfl | rfl | rfl <;> decide
      · exact digit_plain ((showNat_isDecimal n).2.1 c hc)
  rw [h2]
  simp

theorem lex_local (l : Local) (acc : Str) (ts : List DotTok) :
    (c!"\\nlocal = " ++ l.show).foldlM lexStep (.quoted acc, ts) =
      some (.quoted ((c!"\\nlocal = " ++ l.show).reverse ++ acc), ts) := by
  have h1 : (c!"\\nlocal = ").foldlM lexStep (.quoted acc, ts) =
      some (.quoted ((c!"\\nlocal = ").reverse ++ acc), ts) := rfl
  rw [List.foldlM_append, h1]
  simp only [Option.bind_eq_bind, Option.bind_some]
  have h2 : l.show.foldlM lexStep (.quoted ((c!"\\nlocal = ").reverse ++ acc), ts) =
      some (.quoted (l.show.reverse ++ ((c!"\\nlocal = ").reverse ++ acc)), ts) := by
    apply lex_plain
    intro c hc
    cases l with
    | exact n => exact digit_plain ((showNat_isDecimal n).2.1 c hc)
    | unknown =>
      simp only [Local.show, List.mem_cons, List.not_mem_nil, or_false] at hc
      subst hc; decide
  rw [h2]
  simp

/-- Tokens of one node statement. -/
def nodeToks (demangle : Str → Str) (i : Nat) (node : Node) : List DotTok :=
  [.word (showNat i), .lbrack, .word c!"label", .eq, .str (labelOf demangle node)] ++
  (if node.dashed then [.word c!"style", .eq, .word c!"dashed"] else []) ++ [.rbrack]

theorem lex_node (demangle : Str → Str) (i : Nat) (node : Node) (hn : '\\' ∉ demangle node.name)
    (ts : List DotTok) :
    (dotNode demangle i node).foldlM lexStep (.top, ts) =
      some (.top, (nodeToks demangle i node).reverse ++ ts) := by
  have e1 : ∀ ts, (c!"    ").foldlM lexStep (.top, ts) = some (.top, ts) := fun _ => rfl
  have e2 : ∀ acc ts, (c!" [label=\"").foldlM lexStep (.word acc, ts) =
      some (.quoted [], .eq :: .word c!"label" :: .lbrack :: .word acc.reverse :: ts) := fun _ _ => rfl
  have e3 : ∀ acc ts, (c!"\"").foldlM lexStep (.quoted acc, ts) =
      some (.top, .str acc.reverse :: ts) := fun _ _ => rfl
  have e4 : ∀ ts, (c!" style=dashed").foldlM lexStep (.top, ts) =
      some (.word (c!"dashed").reverse, .eq :: .word c!"style" :: ts) := fun _ => rfl
  have e5 : ∀ ts, (c!"]\n").foldlM lexStep (.top, ts) = some (.top, .rbrack :: ts) := fun _ => rfl
  have e6 : ∀ acc ts, (c!"]\n").foldlM lexStep (.word acc, ts) =
      some (.top, .rbrack :: .word acc.reverse :: ts) := fun _ _ => rfl
  have hmid : ∀ ts, (escape (demangle node.name) ++
      dotMax node.max ++ (c!"\\nlocal = " ++ node.loc.show)).foldlM lexStep (.quoted [], ts) =
      some (.quoted (labelOf demangle node).reverse, ts) := by
    intro ts
    rw [List.foldlM_append, List.foldlM_append, lex_escape _ hn]
    simp only [Option.bind_eq_bind, Option.bind_some]
    cases hm : node.max with
    | none =>
      simp only [dotMax, List.foldlM_nil, pure, Option.bind_some]
      rw [lex_local]
      simp [labelOf, hm, dotMax]
    | some m =>
      simp only [dotMax]
      rw [lex_max]
      simp only [Option.bind_some]
      rw [lex_local]
      simp [labelOf, hm, dotMax]
  unfold dotNode nodeToks
  rw [show ∀ a b c d e f g h : Str, a ++ b ++ c ++ d ++ e ++ (f ++ g ++ c!"\"") ++ h ++ c!"]\n" =
    a ++ (b ++ (c ++ ((d ++ e ++ (f ++ g)) ++ (c!"\"" ++ (h ++ c!"]\n"))))) by intros; simp]
  rw [List.foldlM_append, e1]
  simp only [Option.bind_eq_bind, Option.bind_some]
  rw [List.foldlM_append, lex_num]
  simp only [Option.bind_eq_bind, Option.bind_some]
  rw [List.foldlM_append, e2]
  simp only [Option.bind_eq_bind, Option.bind_some]
  rw [List.foldlM_append, hmid]
  simp only [Option.bind_eq_bind, Option.bind_some]
  rw [List.foldlM_append, e3]
  simp only [Option.bind_eq_bind, Option.bind_some]
  cases node.dashed with
  | true =>
    simp only [if_true]
    rw [List.foldlM_append, e4]
    simp only [Option.bind_eq_bind, Option.bind_some]
    rw [e6]
    simp
  | false =>
    simp only [Bool.false_eq_true, if_false, List.nil_append]
    rw [e5]
    simp

/-- Tokens of all node statements. -/
def nodesToks (demangle : Str → Str) : Nat → List Node → List DotTok
  | _, [] => []
  | i, node :: rest => nodeToks demangle i node ++ nodesToks demangle (i + 1) rest

theorem lex_nodes (demangle : Str → Str) (nodes : List Node)
    (hn : ∀ nd ∈ nodes, '\\' ∉ demangle nd.name) (i : Nat) (ts : List DotTok) :
    (dotNodes demangle i nodes).foldlM lexStep (.top, ts) =
      some (.top, (nodesToks demangle i nodes).reverse ++ ts) := by
  induction nodes generalizing i ts with
  | nil => rfl
  | cons nd nodes ih =>
    simp only [dotNodes, nodesToks]
    rw [List.foldlM_append, lex_node demangle i nd (hn nd (by simp))]
    simp only [Option.bind_eq_bind, Option.bind_some]
    rw [ih (fun x hx => hn x (.tail _ hx))]
    simp

def edgeToks (e : Nat × Nat) : List DotTok := [.word (showNat e.1), .arrow, .word (showNat e.2)]

theorem lex_edge (e : Nat × Nat) (ts : List DotTok) :
    (dotEdge e).foldlM lexStep (.top, ts) = some (.top, (edgeToks e).reverse ++ ts) := by
  have e1 : ∀ ts, (c!"    ").foldlM lexStep (.top, ts) = some (.top, ts) := fun _ => rfl
  have e2 : ∀ acc ts, (c!" -> ").foldlM lexStep (.word acc, ts) =
      some (.top, .arrow :: .word acc.reverse :: ts) := fun _ _ => rfl
  have e3 : ∀ acc ts, (c!"\n").foldlM lexStep (.word acc, ts) =
      some (.top, .word acc.reverse :: ts) := fun _ _ => rfl
  unfold dotEdge edgeToks
  simp only [List.foldlM_append, e1, Option.bind_eq_bind, Option.bind_some, lex_num, e2, e3]
  simp

theorem lex_edges (es : List (Nat × Nat)) (ts : List DotTok) :
    (es.flatMap dotEdge).foldlM lexStep (.top, ts) =
      some (.top, (es.flatMap edgeToks).reverse ++ ts) := by
  induction es generalizing ts with
  | nil => rfl
  | cons e es ih =>
    simp only [List.flatMap_cons]
    rw [List.foldlM_append, lex_edge]
    simp only [Option.bind_eq_bind, Option.bind_some]
    rw [ih]
    simp

def clusterToks (i : Nat) (cycle : List Nat) : List DotTok :=
  [.word c!"subgraph", .word (c!"cluster_" ++ showNat i), .lbrace, .word c!"style", .eq,
    .word c!"dashed", .word c!"fontname", .eq, .word font, .word c!"label", .eq,
    .str (c!"SCC" ++ showNat i)] ++ cycle.map (fun n => .word (showNat n)) ++ [.rbrace]

theorem lex_cluster (i : Nat) (cycle : List Nat) (ts : List DotTok) :
    (dotCluster i cycle).foldlM lexStep (.top, ts) =
      some (.top, (clusterToks i cycle).reverse ++ ts) := by
  have e1 : ∀ ts, (c!"\n    subgraph cluster_").foldlM lexStep (.top, ts) =
      some (.word (c!"cluster_").reverse, .word c!"subgraph" :: ts) := fun _ => rfl
  have e2 : ∀ acc ts, (c!" {\n").foldlM lexStep (.word acc, ts) =
      some (.top, .lbrace :: .word acc.reverse :: ts) := fun _ _ => rfl
  have e3 : ∀ ts, (c!"        style=dashed\n").foldlM lexStep (.top, ts) =
      some (.top, .word c!"dashed" :: .eq :: .word c!"style" :: ts) := fun _ => rfl
  have e4 : ∀ ts, (c!"        fontname=" ++ font ++ c!"\n").foldlM lexStep (.top, ts) =
      some (.top, .word font :: .eq :: .word c!"fontname" :: ts) := fun _ => rfl
  have e5 : ∀ ts, (c!"        label=\"SCC").foldlM lexStep (.top, ts) =
      some (.quoted (c!"SCC").reverse, .eq :: .word c!"label" :: ts) := fun _ => rfl
  have e6 : ∀ acc ts, (c!"\"\n").foldlM lexStep (.quoted acc, ts) =
      some (.top, .str acc.reverse :: ts) := fun _ _ => rfl
  have e7 : ∀ ts, (c!"        ").foldlM lexStep (.top, ts) = some (.top, ts) := fun _ => rfl
  have e8 : ∀ acc ts, (c!"\n").foldlM lexStep (.word acc, ts) =
      some (.top, .word acc.reverse :: ts) := fun _ _ => rfl
  have e9 : ∀ ts, (c!"    }\n").foldlM lexStep (.top, ts) = some (.top, .rbrace :: ts) := fun _ => rfl
  have em : ∀ (cycle : List Nat) (ts : List DotTok), (cycle.flatMap (fun node => c!"        " ++ showNat node ++ c!"\n")).foldlM
      lexStep (.top, ts) =
      some (.top, (cycle.map (fun n => DotTok.word (showNat n))).reverse ++ ts) := by
    intro cycle
    induction cycle with
    | nil => intro; rfl
    | cons n cycle ih =>
      intro ts
      simp only [List.flatMap_cons]
      rw [List.foldlM_append]
      have : (c!"        " ++ showNat n ++ c!"\n").foldlM lexStep (.top, ts) =
          some (.top, .word (showNat n) :: ts) := by
        rw [List.foldlM_append, List.foldlM_append, e7]
        simp only [Option.bind_eq_bind, Option.bind_some]
        rw [lex_num]
        simp only [Option.bind_some]
        rw [e8]
        simp
      rw [this]
      simp only [Option.bind_eq_bind, Option.bind_some]
      rw [ih]
      simp
  have h := lexSeq (lexSeq (lexSeq (lexSeq (lexSeq (lexSeq (lexSeq (e1 ts) (lex_word_num i _ _))
    (e2 _ _)) (e3 _)) (e4 _)) (lexSeq (lexSeq (e5 _) (lex_num_quoted i _ _)) (e6 _ _)))
    (em cycle _)) (e9 _)
  refine Eq.trans h ?_
  simp [clusterToks]

def clustersToks : Nat → List (List Nat) → List DotTok
  | _, [] => []
  | i, c :: cs => clusterToks i c ++ clustersToks (i + 1) cs

theorem lex_clusters (cs : List (List Nat)) (i : Nat) (ts : List DotTok) :
    (dotClusters i cs).foldlM lexStep (.top, ts) =
      some (.top, (clustersToks i cs).reverse ++ ts) := by
  induction cs generalizing i ts with
  | nil => rfl
  | cons c cs ih =>
    simp only [dotClusters, clustersToks]
    rw [List.foldlM_append, lex_cluster]
    simp only [Option.bind_eq_bind, Option.bind_some]
    rw [ih]
    simp

/-- Tokens of the whole file. -/
def fileToks (demangle : Str → Str) (g : Graph) (cycles : List (List Nat)) : List DotTok :=
  [.word c!"digraph", .lbrace, .word c!"node", .lbrack, .word c!"fontname", .eq, .word font,
    .word c!"shape", .eq, .word c!"box", .rbrack] ++ nodesToks demangle 0 g.nodes ++
  g.edges.flatMap edgeToks ++ clustersToks 0 cycles ++ [.rbrace]

theorem lex_dot (demangle : Str → Str) (g : Graph) (cycles : List (List Nat))
    (hn : ∀ nd ∈ g.nodes, '\\' ∉ demangle nd.name) :
    dotLex (dotText demangle g cycles) = some (fileToks demangle g cycles) := by
  have e1 : (c!"digraph {\n" ++ (c!"    node [fontname=" ++ font ++ c!" shape=box]\n")).foldlM
      lexStep (.top, []) = some (.top, ([.word c!"digraph", .lbrace, .word c!"node", .lbrack,
        .word c!"fontname", .eq, .word font, .word c!"shape", .eq, .word c!"box",
        .rbrack] : List DotTok).reverse) := rfl
  have e2 : ∀ ts, (c!"}\n").foldlM lexStep (.top, ts) = some (.top, .rbrace :: ts) := fun _ => rfl
  unfold dotLex dotText fileToks
  rw [List.foldlM_append, List.foldlM_append, List.foldlM_append, List.foldlM_append, e1]
  simp only [Option.bind_eq_bind, Option.bind_some]
  rw [lex_nodes _ _ hn]
  simp only [Option.bind_some]
  rw [lex_edges]
  simp only [Option.bind_some]
  rw [lex_clusters]
  simp only [Option.bind_some]
  rw [e2]
  simp

/-! ### parsing -/

def nodeAttrs (demangle : Str → Str) (node : Node) : Attrs :=
  (c!"label", labelOf demangle node) :: if node.dashed then [(c!"style", c!"dashed")] else []

theorem showNat_ne_word (n : Nat) {w : Str} (hw : ∃ c ∈ w, c ∉ c!"0123456789") : showNat n ≠ w := by
  rintro rfl
  obtain ⟨c, hc, hn⟩ := hw
  exact hn ((showNat_isDecimal n).2.1 c hc)

theorem parse_node (demangle : Str → Str) (i : Nat) (node : Node) (d : DotFile) :
    (nodeToks demangle i node).foldlM dotStep (.body, d) =
      some (.body, { d with nodes := d.nodes ++ [(showNat i, nodeAttrs demangle node)] }) := by
  have h1 : showNat i ≠ c!"subgraph" := showNat_ne_word i ⟨'s', by decide, by decide⟩
  have h2 : showNat i ≠ c!"node" := showNat_ne_word i ⟨'n', by decide, by decide⟩
  unfold nodeToks nodeAttrs
  cases node.dashed <;>
    simp [dotStep, h1, DotFile.addAttrs, h2]

def nodesParsed (demangle : Str → Str) : Nat → List Node → List (Str × Attrs)
  | _, [] => []
  | i, node :: rest => (showNat i, nodeAttrs demangle node) :: nodesParsed demangle (i + 1) rest

theorem parse_nodes (demangle : Str → Str) (nodes : List Node) (i : Nat) (d : DotFile) :
    (nodesToks demangle i nodes).foldlM dotStep (.body, d) =
      some (.body, { d with nodes := d.nodes ++ nodesParsed demangle i nodes }) := by
  induction nodes generalizing i d with
  | nil => simp [nodesToks, nodesParsed]
  | cons nd nodes ih =>
    simp only [nodesToks, nodesParsed]
    rw [List.foldlM_append, parse_node]
    simp only [Option.bind_eq_bind, Option.bind_some]
    rw [ih]
    simp

theorem parse_edges (es : List (Nat × Nat)) (d : DotFile) :
    (es.flatMap edgeToks).foldlM dotStep (.body, d) =
      some (.body, { d with edges := d.edges ++ es.map (fun e => (showNat e.1, showNat e.2)) }) := by
  induction es generalizing d with
  | nil => simp
  | cons e es ih =>
    have h1 : showNat e.1 ≠ c!"subgraph" := showNat_ne_word _ ⟨'s', by decide, by decide⟩
    have : (edgeToks e).foldlM dotStep (.body, d) =
        some (.body, { d with edges := d.edges ++ [(showNat e.1, showNat e.2)] }) := by
      simp [edgeToks, dotStep, h1]
    simp only [List.flatMap_cons]
    rw [List.foldlM_append, this]
    simp only [Option.bind_eq_bind, Option.bind_some]
    rw [ih]
    simp

def clusterAttrs (i : Nat) : Attrs :=
  [(c!"style", c!"dashed"), (c!"fontname", font), (c!"label", c!"SCC" ++ showNat i)]

theorem parse_members (n : Str) (as : Attrs) (cycle : List Nat) (ns : List Str) (w : Str)
    (d : DotFile) :
    (cycle.map (fun n => DotTok.word (showNat n)) ++ [DotTok.rbrace]).foldlM dotStep
        (.clusterId n as ns w, d) =
      some (.body, { d with clusters := d.clusters ++ [(n, as, ns ++ w :: cycle.map showNat)] }) := by
  induction cycle generalizing ns w with
  | nil => simp [dotStep]
  | cons c cycle ih =>
    simp only [List.map_cons, List.cons_append, List.foldlM_cons, dotStep, Option.bind_eq_bind,
      Option.bind_some]
    have := ih (ns ++ [w]) (showNat c)
    rw [this]
    simp

theorem parse_cluster (i : Nat) (cycle : List Nat) (d : DotFile) :
    (clusterToks i cycle).foldlM dotStep (.body, d) =
      some (.body, { d with clusters := d.clusters ++
        [(c!"cluster_" ++ showNat i, clusterAttrs i, cycle.map showNat)] }) := by
  unfold clusterToks
  rw [List.append_assoc, List.foldlM_append]
  have : ([.word c!"subgraph", .word (c!"cluster_" ++ showNat i), .lbrace, .word c!"style", .eq,
    .word c!"dashed", .word c!"fontname", .eq, .word font, .word c!"label", .eq,
    .str (c!"SCC" ++ showNat i)] : List DotTok).foldlM dotStep (.body, d) =
      some (.cluster (c!"cluster_" ++ showNat i) (clusterAttrs i) [], d) := by
    simp [dotStep, clusterAttrs]
  rw [this]
  simp only [Option.bind_eq_bind, Option.bind_some]
  cases cycle with
  | nil => simp [dotStep]
  | cons c cycle =>
    simp only [List.map_cons, List.cons_append, List.foldlM_cons, dotStep, Option.bind_eq_bind,
      Option.bind_some]
    rw [parse_members]
    simp

def clustersParsed : Nat → List (List Nat) → List (Str × Attrs × List Str)
  | _, [] => []
  | i, c :: cs => (c!"cluster_" ++ showNat i, clusterAttrs i, c.map showNat) ::
      clustersParsed (i + 1) cs

theorem parse_clusters (cs : List (List Nat)) (i : Nat) (d : DotFile) :
    (clustersToks i cs).foldlM dotStep (.body, d) =
      some (.body, { d with clusters := d.clusters ++ clustersParsed i cs }) := by
  induction cs generalizing i d with
  | nil => simp [clustersToks, clustersParsed]
  | cons c cs ih =>
    simp only [clustersToks, clustersParsed]
    rw [List.foldlM_append, parse_cluster]
    simp only [Option.bind_eq_bind, Option.bind_some]
    rw [ih]
    simp

theorem readDot_dotText (demangle : Str → Str) (g : Graph) (cycles : List (List Nat))
    (hn : ∀ nd ∈ g.nodes, '\\' ∉ demangle nd.name) :
    readDot (dotText demangle g cycles) = some
      { defaults := [[(c!"fontname", font), (c!"shape", c!"box")]]
        nodes := nodesParsed demangle 0 g.nodes
        edges := g.edges.map (fun e => (showNat e.1, showNat e.2))
        clusters := clustersParsed 0 cycles } := by
  unfold readDot
  rw [lex_dot demangle g cycles hn]
  simp only [fileToks]
  have e1 : ([.word c!"digraph", .lbrace, .word c!"node", .lbrack, .word c!"fontname", .eq, .word font,
      .word c!"shape", .eq, .word c!"box", .rbrack] : List DotTok).foldlM dotStep
        (.start, ⟨[], [], [], []⟩) =
      some (.body, ⟨[[(c!"fontname", font), (c!"shape", c!"box")]], [], [], []⟩) := rfl
  rw [List.foldlM_append, List.foldlM_append, List.foldlM_append, List.foldlM_append, e1]
  simp only [Option.bind_eq_bind, Option.bind_some]
  rw [parse_nodes]
  simp only [Option.bind_some]
  rw [parse_edges]
  simp only [Option.bind_some]
  rw [parse_clusters]
  simp [dotStep]

/-! ### meaning -/

theorem splitEsc_cons {c : Char} (hc : c ≠ '\\') (rest : Str) :
    splitEsc (c :: rest) = (splitEsc rest).map fun (a, b) => (c :: a, b) := by
  rw [splitEsc]
  · intro h1 _
    exact hc h1
  · intro c' rest' h1 _
    exact hc h1

theorem splitEsc_spec (s t : Str) (hs : '\\' ∉ s) :
    splitEsc (s ++ c!"\\n" ++ t) = some (s, some t) := by
  induction s with
  | nil => rfl
  | cons c s ih =>
    have hc : c ≠ '\\' := fun h => hs (by simp [h])
    have hs' : '\\' ∉ s := fun h => hs (.tail _ h)
    simp only [List.cons_append]
    rw [splitEsc_cons hc, ih hs']
    rfl

theorem splitEsc_none (s : Str) (hs : '\\' ∉ s) : splitEsc s = some (s, none) := by
  induction s with
  | nil => rfl
  | cons c s ih =>
    have hc : c ≠ '\\' := fun h => hs (by simp [h])
    have hs' : '\\' ∉ s := fun h => hs (.tail _ h)
    rw [splitEsc_cons hc, ih hs']
    rfl

theorem afterPrefix_append (p s : Str) : afterPrefix p (p ++ s) = some s := by
  induction p with
  | nil => simp [afterPrefix]
  | cons c p ih => simp [afterPrefix, ih]

theorem local_plain (l : Local) : '\\' ∉ l.show := by
  cases l with
  | exact n => exact fun h => (digit_plain ((showNat_isDecimal n).2.1 _ h)).2 rfl
  | unknown => decide

theorem max_plain (m : Max) : '\\' ∉ m.show := by
  cases m with
  | exact n =>
    intro h
    rcases List.mem_append.mp h with h | h
    · revert h; decide
    · exact (digit_plain ((showNat_isDecimal n).2.1 _ h)).2 rfl
  | lowerBound n =>
    intro h
    rcases List.mem_append.mp h with h | h
    · revert h; decide
    · exact (digit_plain ((showNat_isDecimal n).2.1 _ h)).2 rfl

theorem readLocal_show (l : Local) : readLocal (c!"local = " ++ l.show) = some l := by
  unfold readLocal
  rw [afterPrefix_append]
  cases l with
  | exact n =>
    have : showNat n ≠ c!"?" := showNat_ne_word n ⟨'?', by decide, by decide⟩
    simp [Local.show, this, readDec_showNat]
  | unknown => rfl

theorem readMax_show (m : Max) : readMax (c!"max " ++ m.show) = some m := by
  unfold readMax
  cases m with
  | exact n =>
    have : c!"max " ++ (Max.exact n).show = c!"max = " ++ showNat n := rfl
    rw [this, afterPrefix_append]
    simp [readDec_showNat]
  | lowerBound n =>
    have e : c!"max " ++ (Max.lowerBound n).show = c!"max >= " ++ showNat n := rfl
    have : afterPrefix c!"max = " (c!"max >= " ++ showNat n) = none := rfl
    rw [e, this, afterPrefix_append]
    simp [readDec_showNat]

theorem readLabel_labelOf (demangle : Str → Str) (node : Node) (hn : '\\' ∉ demangle node.name) :
    readLabel (labelOf demangle node) = some (demangle node.name, node.max, node.loc) := by
  unfold readLabel labelOf
  have hloc : '\\' ∉ c!"local = " ++ node.loc.show := by
    intro h
    rcases List.mem_append.mp h with h | h
    · revert h; decide
    · exact local_plain _ h
  cases hm : node.max with
  | none =>
    simp only [dotMax, List.append_nil]
    have e : demangle node.name ++ (c!"\\nlocal = " ++ node.loc.show) =
        demangle node.name ++ c!"\\n" ++ (c!"local = " ++ node.loc.show) := by simp
    rw [e, splitEsc_spec _ _ hn]
    simp only
    rw [splitEsc_none _ hloc]
    simp only
    rw [readLocal_show]
    rfl
  | some m =>
    simp only [dotMax]
    have e : demangle node.name ++ (c!"\\nmax " ++ m.show) ++ (c!"\\nlocal = " ++ node.loc.show) =
        demangle node.name ++ c!"\\n" ++ ((c!"max " ++ m.show) ++ c!"\\n" ++
          (c!"local = " ++ node.loc.show)) := by simp
    have hmx : '\\' ∉ c!"max " ++ m.show := by
      intro h
      rcases List.mem_append.mp h with h | h
      · revert h; decide
      · exact max_plain _ h
    rw [e, splitEsc_spec _ _ hn]
    simp only
    rw [splitEsc_spec _ _ hmx]
    simp only
    rw [readLocal_show, readMax_show]

/-- What should be shown for a node. -/
def shownOf (demangle : Str → Str) (node : Node) : ShownNode :=
  ⟨demangle node.name, node.max, node.loc, node.dashed⟩

theorem readNodeAttrs_spec (demangle : Str → Str) (node : Node) (hn : '\\' ∉ demangle node.name) :
    readNodeAttrs (nodeAttrs demangle node) = some (shownOf demangle node) := by
  unfold nodeAttrs shownOf
  cases hd : node.dashed <;> simp [readNodeAttrs, readLabel_labelOf demangle node hn]

theorem readNodes_spec (demangle : Str → Str) (nodes : List Node)
    (hn : ∀ nd ∈ nodes, '\\' ∉ demangle nd.name) (i : Nat) :
    readNodes i (nodesParsed demangle i nodes) = some (nodes.map (shownOf demangle)) := by
  induction nodes generalizing i with
  | nil => rfl
  | cons nd nodes ih =>
    simp only [nodesParsed, readNodes, readDec_showNat, if_true,
      readNodeAttrs_spec demangle nd (hn nd (by simp)), ih (fun x hx => hn x (.tail _ hx)),
      List.map_cons]

theorem mapM_readDec (l : List Nat) : (l.map showNat).mapM readDec = some l := by
  induction l with
  | nil => rfl
  | cons a l ih => simp [List.mapM_cons, readDec_showNat, ih]

theorem mapM_readEdge (es : List (Nat × Nat)) :
    (es.map (fun e => (showNat e.1, showNat e.2))).mapM readEdge = some es := by
  induction es with
  | nil => rfl
  | cons e es ih => simp [List.mapM_cons, readEdge, readDec_showNat, ih]

theorem mapM_clusters (cs : List (List Nat)) (i : Nat) :
    (clustersParsed i cs).mapM (fun c => c.2.2.mapM readDec) = some cs := by
  induction cs generalizing i with
  | nil => rfl
  | cons c cs ih =>
    simp only [clustersParsed, List.mapM_cons, mapM_readDec, ih]
    rfl

/-! ### the top listing -/

theorem topVal_eq (l : Local) : l.topVal = l.bytes := by cases l <;> rfl

theorem insertTop_perm (a : Node) (l : List Node) : (insertTop a l).Perm (a :: l) := by
  induction l with
  | nil => exact .refl _
  | cons b l ih =>
    simp only [insertTop]
    by_cases h : b.loc.topVal ≤ a.loc.topVal
    · rw [if_pos h]
    · rw [if_neg h]
      exact (ih.cons b).trans (.swap a b l)

theorem sortTop_perm (l : List Node) : (sortTop l).Perm l := by
  induction l with
  | nil => exact .refl _
  | cons a l ih => exact (insertTop_perm a _).trans (ih.cons a)

theorem insertTop_sorted (a : Node) (l : List Node)
    (h : l.Pairwise (fun x y => y.loc.topVal ≤ x.loc.topVal)) :
    (insertTop a l).Pairwise (fun x y => y.loc.topVal ≤ x.loc.topVal) := by
  induction l with
  | nil => simp [insertTop]
  | cons b l ih =>
    have hb := List.pairwise_cons.mp h
    simp only [insertTop]
    by_cases hab : b.loc.topVal ≤ a.loc.topVal
    · rw [if_pos hab, List.pairwise_cons]
      refine ⟨?_, h⟩
      intro x hx
      rcases List.mem_cons.mp hx with rfl | hx
      · exact hab
      · exact Nat.le_trans (hb.1 x hx) hab
    · rw [if_neg hab, List.pairwise_cons]
      refine ⟨?_, ih hb.2⟩
      intro x hx
      rcases List.mem_cons.mp ((insertTop_perm a l).mem_iff.mp hx) with rfl | hx
      · omega
      · exact hb.1 x hx

theorem sortTop_sorted (l : List Node) :
    (sortTop l).Pairwise (fun x y => y.loc.topVal ≤ x.loc.topVal) := by
  induction l with
  | nil => simp [sortTop]
  | cons a l ih => exact insertTop_sorted a _ ih

theorem insertTop_filter (a : Node) (l : List Node) (k : Nat)
    (h : l.Pairwise (fun x y => y.loc.topVal ≤ x.loc.topVal)) :
    (insertTop a l).filter (fun x => x.loc.topVal == k) =
      (a :: l).filter (fun x => x.loc.topVal == k) := by
  induction l with
  | nil => rfl
  | cons b l ih =>
    have hb := List.pairwise_cons.mp h
    simp only [insertTop]
    by_cases hab : b.loc.topVal ≤ a.loc.topVal
    · rw [if_pos hab]
    · rw [if_neg hab, List.filter_cons, ih hb.2, List.filter_cons, List.filter_cons (x := a),
        List.filter_cons (x := b)]
      by_cases ha : a.loc.topVal = k
      · have hbk : b.loc.topVal ≠ k := by omega
        simp [ha, hbk]
      · simp [ha]

theorem sortTop_filter (l : List Node) (k : Nat) :
    (sortTop l).filter (fun x => x.loc.topVal == k) = l.filter (fun x => x.loc.topVal == k) := by
  induction l with
  | nil => rfl
  | cons a l ih =>
    simp only [sortTop]
    rw [insertTop_filter a _ k (sortTop_sorted l), List.filter_cons, ih, List.filter_cons]

/-- A sorted list is determined by its groups of equal keys. -/
theorem sorted_unique (l₁ l₂ : List Node)
    (h₁ : l₁.Pairwise (fun x y => y.loc.topVal ≤ x.loc.topVal))
    (h₂ : l₂.Pairwise (fun x y => y.loc.topVal ≤ x.loc.topVal))
    (hf : ∀ k, l₁.filter (fun x => x.loc.topVal == k) = l₂.filter (fun x => x.loc.topVal == k)) :
    l₁ = l₂ := by
  have hmem : ∀ x, x ∈ l₁ ↔ x ∈ l₂ := by
    intro x
    have := hf x.loc.topVal
    constructor
    · intro hx
      have hx' : x ∈ l₁.filter (fun y => y.loc.topVal == x.loc.topVal) := by simp [hx]
      rw [this] at hx'
      exact (List.mem_filter.mp hx').1
    · intro hx
      have hx' : x ∈ l₂.filter (fun y => y.loc.topVal == x.loc.topVal) := by simp [hx]
      rw [← this] at hx'
      exact (List.mem_filter.mp hx').1
  induction l₁ generalizing l₂ with
  | nil =>
    cases l₂ with
    | nil => rfl
    | cons b l₂ => exact absurd ((hmem b).mpr (by simp)) (by simp)
  | cons a l₁ ih =>
    cases l₂ with
    | nil => exact absurd ((hmem a).mp (by simp)) (by simp)
    | cons b l₂ =>
      have p1 := List.pairwise_cons.mp h₁
      have p2 := List.pairwise_cons.mp h₂
      have hab : a.loc.topVal = b.loc.topVal := by
        have c1 : b.loc.topVal ≤ a.loc.topVal := by
          rcases List.mem_cons.mp ((hmem b).mpr (by simp)) with h | h
          · exact Nat.le_of_eq (by rw [h])
          · exact p1.1 b h
        have c2 : a.loc.topVal ≤ b.loc.topVal := by
          rcases List.mem_cons.mp ((hmem a).mp (by simp)) with h | h
          · exact Nat.le_of_eq (by rw [h])
          · exact p2.1 a h
        omega
      have hk := hf a.loc.topVal
      simp only [List.filter_cons, beq_self_eq_true, if_true, ← hab, List.cons.injEq] at hk
      obtain ⟨rfl, _⟩ := hk
      have hf' : ∀ k, l₁.filter (fun x => x.loc.topVal == k) =
          l₂.filter (fun x => x.loc.topVal == k) := by
        intro k
        have := hf k
        simp only [List.filter_cons] at this
        by_cases hka : (a.loc.topVal == k) = true
        · simpa [hka] using this
        · simpa [hka] using this
      have hmem' : ∀ x, x ∈ l₁ ↔ x ∈ l₂ := by
        intro x
        have := hf' x.loc.topVal
        constructor
        · intro hx
          have hx' : x ∈ l₁.filter (fun y => y.loc.topVal == x.loc.topVal) := by simp [hx]
          rw [this] at hx'
          exact (List.mem_filter.mp hx').1
        · intro hx
          have hx' : x ∈ l₂.filter (fun y => y.loc.topVal == x.loc.topVal) := by simp [hx]
          rw [← this] at hx'
          exact (List.mem_filter.mp hx').1
      rw [ih l₂ p1.2 p2.2 hf' hmem']

/-! ### reading the top listing -/

theorem escape_no_newline {s : Str} (h : '\n' ∉ s) : '\n' ∉ escape s := by
  induction s with
  | nil => simp [escape]
  | cons c s ih =>
    have hc : c ≠ '\n' := fun e => h (by simp [e])
    have hs : '\n' ∉ s := fun e => h (.tail _ e)
    intro hm
    simp only [escape, List.flatMap_cons] at hm
    rcases List.mem_append.mp hm with hm | hm
    · unfold escapeChar at hm
      split at hm
      · simp at hm
      · simp only [List.mem_singleton] at hm
        exact hc hm.symm
    · exact ih hs hm

theorem escape_append (a b : Str) : escape (a ++ b) = escape a ++ escape b := by
  simp [escape]

theorem showNat_no {n : Nat} {c : Char} (hc : c ∉ c!"0123456789") : c ∉ showNat n :=
  fun h => hc ((showNat_isDecimal n).2.1 c h)

end CallStack
