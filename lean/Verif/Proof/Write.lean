import Verif.Model.Write

/-!
The writing functions are `Sink.fmt` of a list of pieces.
-/

namespace CallStack

variable {σ ε : Type}

theorem Written.next_none (r : Written σ ε) : r.next (fun s => ⟨none, s⟩) = r := by
  rcases r with ⟨_ | _, _⟩ <;> rfl

theorem Written.next_next (r : Written σ ε) (k k' : σ → Written σ ε) :
    (r.next k).next k' = r.next (fun s => (k s).next k') := by
  rcases r with ⟨_ | _, _⟩ <;> rfl

theorem Sink.fmt_append (w : Sink σ ε) (a b : List Str) (s : σ) :
    w.fmt (a ++ b) s = (w.fmt a s).next (w.fmt b) := by
  induction a generalizing s with
  | nil => rfl
  | cons p ps ih =>
    simp only [List.cons_append, Sink.fmt, Written.next_next]
    congr 1; funext s; exact ih s

theorem Sink.fmt_append' (w : Sink σ ε) (a b : List Str) :
    w.fmt (a ++ b) = fun s => (w.fmt a s).next (w.fmt b) := funext (w.fmt_append a b)

/-- The pieces that `Escaper` hands over. -/
def charPieces (c : Char) : List Str := if c = '"' then [c!"\\", [c]] else [[c]]

theorem charPieces_flatten (c : Char) : (charPieces c).flatten = escapeChar c := by
  unfold charPieces escapeChar
  split
  · subst_vars; rfl
  · split
    · contradiction
    · rfl

theorem charPieces_escape (t : Str) : (t.flatMap charPieces).flatten = escape t := by
  induction t with
  | nil => rfl
  | cons c t ih =>
    simp only [escape, List.flatMap_cons, List.flatten_append, charPieces_flatten] at ih ⊢
    rw [ih]

/-- The result of a function of `Escaper`, if no error was there before. -/
def Escaper.Does (w : Sink σ ε) (f : Escaper σ ε → Bool × Escaper σ ε) (ps : List Str) : Prop :=
  ∀ s, f ⟨s, none⟩ =
    match w.fmt ps s with
    | ⟨some e, s'⟩ => (false, ⟨s', some e⟩)
    | ⟨none, s'⟩ => (true, ⟨s', none⟩)

theorem Escaper.writeChar_does (w : Sink σ ε) (c : Char) :
    Escaper.Does w (Escaper.writeChar w c) (charPieces c) := by
  intro s
  unfold Escaper.writeChar charPieces
  by_cases h : c = '"'
  · simp only [if_pos h]
    have h2 := w.fmt_append [c!"\\"] [[c]] s
    rw [List.cons_append, List.nil_append] at h2
    rw [h2]
    generalize (w.fmt [c!"\\"] s).next (w.fmt [[c]]) = r
    rcases r with ⟨_ | _, _⟩ <;> rfl
  · simp only [if_neg h]
    generalize w.fmt [[c]] s = r
    rcases r with ⟨_ | _, _⟩ <;> rfl

theorem Escaper.writeStr_does (w : Sink σ ε) (t : Str) :
    Escaper.Does w (Escaper.writeStr w t) (t.flatMap charPieces) := by
  induction t with
  | nil => intro s; rfl
  | cons c t ih =>
    intro s
    simp only [Escaper.writeStr, List.flatMap_cons, Sink.fmt_append]
    rw [Escaper.writeChar_does w c s]
    rcases h : w.fmt (charPieces c) s with ⟨_ | e, s'⟩
    · exact ih s'
    · rfl

theorem Escaper.writeFmt_does (w : Sink σ ε) (ts : List Str) :
    Escaper.Does w (Escaper.writeFmt w ts) (ts.flatten.flatMap charPieces) := by
  induction ts with
  | nil => intro s; rfl
  | cons t ts ih =>
    intro s
    simp only [Escaper.writeFmt, List.flatten_cons, List.flatMap_append, Sink.fmt_append]
    rw [Escaper.writeStr_does w t s]
    rcases h : w.fmt (t.flatMap charPieces) s with ⟨_ | e, s'⟩
    · exact ih s'
    · rfl

theorem escaped_eq (w : Sink σ ε) (ts : List Str) :
    escaped w ts = w.fmt (ts.flatten.flatMap charPieces) := by
  funext s
  unfold escaped
  rw [Escaper.writeFmt_does w ts s]
  rcases h : w.fmt (ts.flatten.flatMap charPieces) s with ⟨_ | e, s'⟩ <;> rfl

theorem forEach_fmt {α : Type} (w : Sink σ ε) (P : α → List Str) (l : List α) :
    forEach (fun a => w.fmt (P a)) l = w.fmt (l.flatMap P) := by
  funext s
  induction l generalizing s with
  | nil => rfl
  | cons a l ih =>
    simp only [forEach, List.flatMap_cons, Sink.fmt_append]
    congr 1; funext s; exact ih s

/-- The pieces of one node. -/
def nodePieces (display : Str → List Str) (i : Nat) (node : Node) : List Str :=
  [c!"    ", showNat i, c!" [label=\""] ++ ((display node.name).flatten.flatMap charPieces ++
  ((match node.max with
    | some max => c!"\\nmax " :: max.pieces
    | none => []) ++
  ([c!"\\nlocal = ", node.loc.show, c!"\""] ++
  ((if node.dashed then [c!" style=dashed"] else []) ++ [c!"]\n"]))))

theorem writeNode_eq (w : Sink σ ε) (display : Str → List Str) (i : Nat) (node : Node) :
    writeNode w display i node = w.fmt (nodePieces display i node) := by
  funext s
  unfold writeNode nodePieces
  simp only [Sink.fmt_append', escaped_eq]
  rcases node with ⟨n, l, m, d⟩
  cases m <;> cases d <;> rfl

theorem nodePieces_flatten (display : Str → List Str) (i : Nat) (node : Node) :
    (nodePieces display i node).flatten = dotNode (fun n => (display n).flatten) i node := by
  unfold nodePieces dotNode dotMax
  simp only [List.flatten_append, charPieces_escape, List.append_assoc]
  rcases node with ⟨n, l, m, d⟩
  rcases m with _ | (m | m) <;> cases d <;>
    simp [Max.pieces, Max.show]

/-- The pieces of all nodes. -/
def nodesPieces (display : Str → List Str) : Nat → List Node → List Str
  | _, [] => []
  | i, node :: rest => nodePieces display i node ++ nodesPieces display (i + 1) rest

theorem writeNodes_eq (w : Sink σ ε) (display : Str → List Str) (i : Nat) (l : List Node) :
    writeNodes w display i l = w.fmt (nodesPieces display i l) := by
  funext s
  induction l generalizing i s with
  | nil => rfl
  | cons nd l ih =>
    simp only [writeNodes, nodesPieces, Sink.fmt_append', writeNode_eq]
    congr 1; funext s; exact ih (i + 1) s

theorem nodesPieces_flatten (display : Str → List Str) (i : Nat) (l : List Node) :
    (nodesPieces display i l).flatten = dotNodes (fun n => (display n).flatten) i l := by
  induction l generalizing i with
  | nil => rfl
  | cons nd l ih => simp only [nodesPieces, dotNodes, List.flatten_append, nodePieces_flatten, ih]

/-- The pieces of an edge. -/
def edgePieces (e : Nat × Nat) : List Str := [c!"    ", showNat e.1, c!" -> ", showNat e.2, c!"\n"]

theorem edgePieces_flatten (l : List (Nat × Nat)) : (l.flatMap edgePieces).flatten = l.flatMap dotEdge := by
  induction l with
  | nil => rfl
  | cons e l ih =>
    simp only [List.flatMap_cons, List.flatten_append, ih]
    congr 1
    simp [edgePieces, dotEdge]

/-- The pieces of a cluster. -/
def clusterPieces (i : Nat) (cycle : List Nat) : List Str :=
  [c!"\n    subgraph cluster_", showNat i, c!" {\n"] ++ ([c!"        style=dashed\n"] ++
  ([c!"        fontname=", font, c!"\n"] ++ ([c!"        label=\"SCC", showNat i, c!"\"\n"] ++
  (cycle.flatMap (fun node => [c!"        ", showNat node, c!"\n"]) ++ [c!"    }\n"]))))

theorem writeCluster_eq (w : Sink σ ε) (i : Nat) (cycle : List Nat) :
    writeCluster w i cycle = w.fmt (clusterPieces i cycle) := by
  funext s
  unfold writeCluster clusterPieces
  simp only [Sink.fmt_append', forEach_fmt]

theorem clusterPieces_flatten (i : Nat) (cycle : List Nat) :
    (clusterPieces i cycle).flatten = dotCluster i cycle := by
  have h : ∀ l : List Nat, (l.flatMap (fun node => [c!"        ", showNat node, c!"\n"])).flatten =
      l.flatMap (fun node => c!"        " ++ showNat node ++ c!"\n") := by
    intro l
    induction l with
    | nil => rfl
    | cons a l ih =>
      simp only [List.flatMap_cons, List.flatten_append, ih]
      simp
  unfold clusterPieces dotCluster
  simp only [List.flatten_append, h, List.append_assoc]
  simp

/-- The pieces of all clusters. -/
def clustersPieces : Nat → List (List Nat) → List Str
  | _, [] => []
  | i, cycle :: rest => clusterPieces i cycle ++ clustersPieces (i + 1) rest

theorem writeClusters_eq (w : Sink σ ε) (i : Nat) (l : List (List Nat)) :
    writeClusters w i l = w.fmt (clustersPieces i l) := by
  funext s
  induction l generalizing i s with
  | nil => rfl
  | cons nd l ih =>
    simp only [writeClusters, clustersPieces, Sink.fmt_append', writeCluster_eq]
    congr 1; funext s; exact ih (i + 1) s

theorem clustersPieces_flatten (i : Nat) (l : List (List Nat)) :
    (clustersPieces i l).flatten = dotClusters i l := by
  induction l generalizing i with
  | nil => rfl
  | cons nd l ih => simp only [clustersPieces, dotClusters, List.flatten_append, clusterPieces_flatten, ih]

theorem dotWrite_pieces (display : Str → List Str) (g : Graph) (cycles : List (List Nat)) :
    ∃ ps : List Str, ps.flatten = dotText (fun n => (display n).flatten) g cycles ∧
      ∀ (σ ε : Type) (w : Sink σ ε) (s : σ), dotWrite w display g cycles s = w.fmt ps s := by
  refine ⟨[c!"digraph {\n"] ++ ([c!"    node [fontname=", font, c!" shape=box]\n"] ++
    (nodesPieces display 0 g.nodes ++ (g.edges.flatMap edgePieces ++
    (clustersPieces 0 cycles ++ [c!"}\n"])))), ?_, ?_⟩
  · unfold dotText
    simp only [List.flatten_append, nodesPieces_flatten, edgePieces_flatten, clustersPieces_flatten,
      List.append_assoc]
    simp
  · intro σ ε w s
    have h : (forEach (writeEdge w) g.edges : σ → Written σ ε) = w.fmt (g.edges.flatMap edgePieces) :=
      forEach_fmt w edgePieces g.edges
    unfold dotWrite
    simp only [Sink.fmt_append', writeNodes_eq, writeClusters_eq, h]

theorem topLine_flatten (display : Str → List Str) (nd : Node) :
    ([showNat nd.loc.topVal, c!" "] ++
      (display nd.name ++ [c!"\n"]).flatten.flatMap charPieces).flatten =
      topLine (fun n => (display n).flatten) nd := by
  simp only [List.flatten_append, charPieces_escape, topLine]
  simp

theorem topWrite_pieces (display : Str → List Str) (g : Graph) :
    ∃ ps : List Str, ps.flatten = topText (fun n => (display n).flatten) g ∧
      ∀ (σ ε : Type) (w : Sink σ ε) (s : σ), topWrite w display g s = w.fmt ps s := by
  refine ⟨(match maxOf (g.nodes.map (fun n => n.max.getD (.exact 0))) with
    | some max => [showNat max.topVal, c!" MAX\n"]
    | none => []) ++ ([c!"Usage Function\n"] ++
    (sortTop g.nodes).flatMap (fun nd => [showNat nd.loc.topVal, c!" "] ++
      (display nd.name ++ [c!"\n"]).flatten.flatMap charPieces)), ?_, ?_⟩
  · have h : ∀ l : List Node, (l.flatMap (fun nd => [showNat nd.loc.topVal, c!" "] ++
        (display nd.name ++ [c!"\n"]).flatten.flatMap charPieces)).flatten =
        l.flatMap (topLine (fun n => (display n).flatten)) := by
      intro l
      induction l with
      | nil => rfl
      | cons a l ih =>
        rw [List.flatMap_cons, List.flatten_append, ih, topLine_flatten, List.flatMap_cons]
    unfold topText topMaxLine
    rw [List.flatten_append, List.flatten_append, h]
    cases maxOf (g.nodes.map (fun n => n.max.getD (.exact 0))) <;> simp
  · intro σ ε w s
    have h : (forEach (writeTopLine w display) (sortTop g.nodes) : σ → Written σ ε) =
        w.fmt ((sortTop g.nodes).flatMap (fun nd => [showNat nd.loc.topVal, c!" "] ++
          (display nd.name ++ [c!"\n"]).flatten.flatMap charPieces)) := by
      rw [← forEach_fmt]
      congr 1; funext nd s
      simp only [writeTopLine, escaped_eq, Sink.fmt_append']
    unfold topWrite
    simp only [Sink.fmt_append', h]
    congr 1
    cases maxOf (g.nodes.map (fun n => n.max.getD (.exact 0))) <;> rfl

theorem runWrite_pieces {display : Str → List Str} {ord : HashOrder} {search : TagSearch} {p : Program} {elf : Elf}
    {start : Option Str} {format : OutputFormat} {text : Str}
    (h : runText (fun n => (display n).flatten) ord search p elf start format = .ok text) :
    ∃ ps : List Str, ps.flatten = text ∧
      ∀ (σ ε : Type) (w : Sink σ ε) (s : σ),
        runWrite w display ord search p elf start format s = .ok (w.fmt ps s) := by
  unfold runText at h
  unfold runWrite
  cases hf : finalGraph (fun n => (display n).flatten) ord search p elf start with
  | error e => rw [hf] at h; cases h
  | ok r =>
    obtain ⟨g, cycles⟩ := r
    rw [hf] at h
    cases format with
    | dot =>
      simp only [Except.ok.injEq] at h
      obtain ⟨ps, h1, h2⟩ := dotWrite_pieces display g cycles
      exact ⟨ps, h1.trans h, fun σ ε w s => congrArg Except.ok (h2 σ ε w s)⟩
    | top =>
      simp only [Except.ok.injEq] at h
      obtain ⟨ps, h1, h2⟩ := topWrite_pieces display g
      exact ⟨ps, h1.trans h, fun σ ε w s => congrArg Except.ok (h2 σ ε w s)⟩

end CallStack
