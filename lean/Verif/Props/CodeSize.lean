import Verif.Props.Thumb

/-!
Property C81: functions whose size is missing in the symbol table.
-/

namespace CallStack

/-- **C81** A function without size in the symbol table is decoded up to the next mapping symbol: the calls and
jumps in this range are edges of the call graph. Partial: the next mapping symbol has to be one for code, see
`C81_calls_hidden`. -/
theorem C81_without_size_partial {demangle : Str → Str} {ord : HashOrder} {search : TagSearch} {p : Program}
    {elf : Elf} {st : Build} {g : Graph} (once : p.NamesOnce) (ht : p.target.isThumb = true) {stext : Nat}
    {text : List Nat} (hx : elf.text = some (stext, text))
    (h : callGraph demangle ord search p elf = .ok (st, g)) {i a stop : Nat} {s : Sym}
    (he : p.defined[i]? = some (a, s)) (zero : s.size % 2 ^ 32 = 0) {pre post : List (Nat × Tag)}
    (hm : Markers elf.symtab (pre ++ (a % 2 ^ 32, .thumb) :: (stop, .thumb) :: post))
    (alone : ∀ t ∈ pre ++ (stop, .thumb) :: post, t.1 ≠ a % 2 ^ 32) :
    ∃ r, p.Decoded search elf i (a % 2 ^ 32) (stop - a % 2 ^ 32) r ∧
      (∀ t, LeavesTo r (a % 2 ^ 32) (stop - a % 2 ^ 32) t → ∃ j, p.StartsAt j t ∧ g.Calls i j) := by
  obtain ⟨address, size, r, hd, hall⟩ := C49_jumps_are_calls once ht hx h (List.getElem?_eq_some_iff.mp he).1
  obtain ⟨a', s', stext', text', tags, h1, h2, h3, h4, h5, _⟩ := id hd
  rw [he] at h1
  simp only [Option.some.injEq, Prod.mk.injEq] at h1
  obtain ⟨rfl, rfl⟩ := h1
  subst h3
  have htags : tags = pre ++ (a % 2 ^ 32, .thumb) :: (stop, .thumb) :: post :=
    (markers_iff.mp h4).trans (markers_iff.mp hm).symm
  have hfind : search.find tags (a % 2 ^ 32) = some pre.length := by
    cases hf : search.find tags (a % 2 ^ 32) with
    | none =>
      exact absurd rfl (search.complete _ _ h4.1 hf (a % 2 ^ 32, .thumb) (by simp [htags]))
    | some k =>
      obtain ⟨t, hk⟩ := search.sound _ _ _ hf
      rw [htags] at hk
      congr 1
      rcases Nat.lt_trichotomy k pre.length with hlt | rfl | hgt
      · rw [List.getElem?_append_left hlt] at hk
        exact absurd rfl (alone _ (List.mem_append_left _ (List.mem_of_getElem? hk)))
      · rfl
      · obtain ⟨m, rfl⟩ : ∃ m, k = pre.length + (m + 1) := ⟨k - pre.length - 1, by omega⟩
        rw [List.getElem?_append_right (by omega), Nat.add_sub_cancel_left, List.getElem?_cons_succ] at hk
        exact absurd rfl (alone _ (List.mem_append_right _ (List.mem_of_getElem? hk)))
  have hsize : size = stop - a % 2 ^ 32 := by
    rw [codeSize_iff.mp h5, zero]
    exact (codeSize_iff.mp (.next pre.length stop hfind (by simp [htags])
      (by rw [htags, List.getElem?_append_right (by omega)]; simp))).symm
  subst hsize
  exact ⟨r, hd, fun t hl => (hall t hl).imp fun j hj => ⟨hj.1, hj.2.1⟩⟩

/-- **C81** The exact condition, if there is at most one mapping symbol at the address of the function: some of its
code is decoded exactly if the mapping symbol there and the next one are both for code. Then all bytes in between are
decoded, otherwise none. -/
theorem C81_size_iff {search : TagSearch} {p : Program} {elf : Elf} {i address size : Nat} {r : ThumbState}
    {s : Sym} {a : Nat} (hd : p.Decoded search elf i address size r) (he : p.defined[i]? = some (a, s))
    (zero : s.size % 2 ^ 32 = 0) {tags : List (Nat × Tag)} (hm : Markers elf.symtab tags)
    (alone : ∀ (k k' : Nat) t t', tags[k]? = some (address, t) → tags[k']? = some (address, t') → k = k') :
    (size = 0 ∨ ∃ k : Nat, tags[k]? = some (address, .thumb) ∧ tags[k + 1]? = some (address + size, .thumb)) ∧
    (size ≠ 0 ↔ ∃ (k stop : Nat), tags[k]? = some (address, .thumb) ∧ tags[k + 1]? = some (stop, .thumb)) := by
  obtain ⟨a', s', stext', text', tags', h1, h2, h3, h4, h5, _⟩ := hd
  rw [he] at h1
  simp only [Option.some.injEq, Prod.mk.injEq] at h1
  obtain ⟨rfl, rfl⟩ := h1
  obtain rfl : tags' = tags := (markers_iff.mp h4).trans (markers_iff.mp hm).symm
  rw [zero] at h5
  have later : ∀ {k stop : Nat}, tags'[k]? = some (address, .thumb) → tags'[k + 1]? = some (stop, .thumb) →
      address < stop := by
    intro k stop hk hk'
    have hle := List.pairwise_iff_getElem.mp hm.1 k (k + 1) (List.getElem?_eq_some_iff.mp hk).1
      (List.getElem?_eq_some_iff.mp hk').1 (by omega)
    rw [(List.getElem?_eq_some_iff.mp hk).2, (List.getElem?_eq_some_iff.mp hk').2] at hle
    have hne : address ≠ stop := by
      rintro rfl
      have := alone k (k + 1) _ _ hk hk'
      omega
    simp only at hle
    omega
  generalize hz : (0 : Nat) = z at h5
  cases h5 with
  | declared n hn => exact absurd hz.symm hn
  | next k stop _ hk hk' =>
    have := later hk hk'
    refine ⟨Or.inr ⟨k, hk, ?_⟩, ⟨fun _ => ⟨k, stop, hk, hk'⟩, fun _ => by omega⟩⟩
    rw [hk']
    congr 2
    omega
  | empty hno =>
    refine ⟨Or.inl rfl, ⟨fun h => absurd rfl h, ?_⟩⟩
    rintro ⟨k, stop, hk, hk'⟩
    exfalso
    cases hf : search.find tags' address with
    | none => exact search.complete _ _ hm.1 hf _ (List.mem_of_getElem? hk) rfl
    | some k' =>
      obtain ⟨t, ht⟩ := search.sound _ _ _ hf
      obtain rfl := alone k k' _ _ hk ht
      exact hno k stop hf hk hk'

/-- **C81** does not hold in general: if the next mapping symbol begins data, as after a function with a literal
pool, or if there is none, as after the last function, then the function is taken to be empty. If neither the
compiler reports a figure for it nor the LLVM-IR defines it, then it is shown with a frame of 0 bytes and calls no
function of the program. -/
theorem C81_calls_hidden {demangle : Str → Str} {ord : HashOrder} {search : TagSearch} {p : Program}
    {elf : Elf} {st : Build} {g : Graph} (once : p.NamesOnce) (ht : p.target.isThumb = true) {stext : Nat}
    {text : List Nat} (hx : elf.text = some (stext, text))
    (h : callGraph demangle ord search p elf = .ok (st, g)) {i a : Nat} {s : Sym}
    (he : p.defined[i]? = some (a, s)) (zero : s.size % 2 ^ 32 = 0) {tags : List (Nat × Tag)}
    (hm : Markers elf.symtab tags)
    (noCode : ∀ k stop, tags[k]? = some (a % 2 ^ 32, .thumb) → tags[k + 1]? ≠ some (stop, .thumb))
    (noFrame : ∀ k, ¬ p.Frame i k) (noIr : p.NoIr i) :
    g.locOf i = .exact 0 ∧ ∀ j < p.defined.length, ¬ g.Calls i j := by
  have hi := (List.getElem?_eq_some_iff.mp he).1
  have key : ∀ address size r, p.Decoded search elf i address size r → r = ThumbState.init := by
    intro address size r hd
    obtain ⟨a', s', stext', text', tags', h1, h2, h3, h4, h5, _, _, h8⟩ := hd
    rw [he] at h1
    simp only [Option.some.injEq, Prod.mk.injEq] at h1
    obtain ⟨rfl, rfl⟩ := h1
    subst h3
    obtain rfl : tags' = tags := (markers_iff.mp h4).trans (markers_iff.mp hm).symm
    have : size = 0 := by
      rw [codeSize_iff.mp h5, zero]
      exact (codeSize_iff.mp (.empty fun k stop _ h2 h3 => noCode k stop h2 h3)).symm
    subst this
    simp only [List.take_zero, Except.ok.injEq] at h8
    exact (Except.ok.inj h8).symm
  constructor
  · obtain ⟨address, size, r, llvm, name, h1, h2, _, h4⟩ := C50_in_call_graph once ht hx h hi
    obtain rfl := key _ _ _ h1
    cases llvm with
    | some k => exact absurd h2 (noFrame k)
    | none =>
      generalize hl : g.locOf i = l at h4
      cases h4 with
      | ours k _ => rfl
  · intro j hj hc
    obtain ⟨cs, ext, st0, stIr, f⟩ := callGraph_facts once h
    rcases C49_edges_justified once h hc with ⟨s', _, ⟨d, hd, hl, _⟩, _⟩ | ⟨address, size, r, t, h1, h2, _⟩ |
      ⟨address, size, r, _, h1, h2, _⟩ | ⟨k, nd, hk, hnd, hdash⟩
    · exact noIr d hd hl
    · obtain rfl := key _ _ _ h1
      rcases h2 with ⟨off, h3, _⟩ | ⟨off, h3, _⟩ <;> exact absurd h3 (by simp [ThumbState.init])
    · obtain rfl := key _ _ _ h1
      simp [ThumbState.init] at h2
    · have hlive : k < cs.length := by
        rw [f.ir.sym.len]
        rcases hk with rfl | rfl <;> omega
      have hk' : (cs ++ ext)[k]? = some cs[k] := by
        rw [List.getElem?_append_left hlive, List.getElem?_eq_getElem hlive]
      obtain ⟨nd', h7, _, h8, _⟩ := f.node hk'
      rw [hnd] at h7
      rw [Option.some.inj h7, h8] at hdash
      cases hdash

/-- `main` calls `f`, which is written in assembly, has no size, calls `g` and ends in a literal pool. -/
def exSizeless (pool : Bool) : Program :=
  { target := .thumbv7m
    defined := [(256, ⟨[c!"main"], 8⟩), (264, ⟨[c!"f"], 0⟩), (if pool then 276 else 272, ⟨[c!"g"], 4⟩)]
    undefined := []
    stackSizes := [(c!"main", 8)]
    defines := [⟨c!"main", exSig, [.directCall c!"f"]⟩]
    declares := [] }

/-- The code of `f`. -/
def exSizelessItems : List CodeItem :=
  [.instr (.push 0x80 true), .instr (.bl 6), .instr (.other 0xBD80), .data [0x1234, 0x5678]]

def exSizelessElf (pool : Bool) : Elf :=
  if pool then
    { symtab := [(256, c!"$t"), (264, c!"$t"), (272, c!"$d"), (276, c!"$t")]
      text := some (256, [0x80, 0xB5, 0x00, 0xF0, 0x01, 0xF8, 0x80, 0xBD] ++ codeBytes exSizelessItems ++
        [0x80, 0xB5, 0x80, 0xBD]) }
  else
    { symtab := [(256, c!"$t"), (264, c!"$t"), (272, c!"$t")]
      text := some (256, [0x80, 0xB5, 0x00, 0xF0, 0x01, 0xF8, 0x80, 0xBD] ++
        [0x80, 0xB5, 0x00, 0xF0, 0x01, 0xF8, 0x80, 0xBD] ++ [0x80, 0xB5, 0x80, 0xBD]) }

/-- **C81** In this program `f` pushes 8 bytes and calls `g`, which pushes another 8 bytes, but `main` is printed
with a maximum of its own 8 bytes. -/
theorem C81_understates :
    (∃ pre post, exSizelessElf true = ⟨(exSizelessElf true).symtab, some (256, pre ++ codeBytes exSizelessItems ++ post)⟩ ∧
      256 + pre.length = 264 ∧ InstrAt exSizelessItems 2 (.bl 6) ∧ 264 + 2 + 4 + 6 = 276 ∧
      (exSizeless true).StartsAt 1 264 ∧ (exSizeless true).StartsAt 2 276) ∧
    (finalGraph id sameOrder linearSearch (exSizeless true) (exSizelessElf true) none).toOption.map
      (fun x => (x.1.nodes.map (fun nd => (nd.name, nd.loc, nd.max)), x.1.edges)) =
        some ([(c!"main", .exact 8, some (.exact 8)), (c!"f", .exact 0, some (.exact 0)),
          (c!"g", .exact 8, some (.exact 8))], [(0, 1)]) := by
  refine ⟨⟨[0x80, 0xB5, 0x00, 0xF0, 0x01, 0xF8, 0x80, 0xBD], [0x80, 0xB5, 0x80, 0xBD], rfl, by decide, ?_, by decide,
    ⟨_, rfl⟩, ⟨_, rfl⟩⟩, by decide +kernel⟩
  exact ⟨[.instr (.push 0x80 true)], [.instr (.other 0xBD80), .data [0x1234, 0x5678]], rfl, by decide +kernel⟩

/-- Without the literal pool, the same program is analysed correctly. -/
example :
    Markers (exSizelessElf false).symtab ([(256, .thumb)] ++ (264, .thumb) :: (272, .thumb) :: []) ∧
    (finalGraph id sameOrder linearSearch (exSizeless false) (exSizelessElf false) none).toOption.map
      (fun x => (x.1.nodes.map (fun nd => (nd.name, nd.loc, nd.max)), x.1.edges)) =
        some ([(c!"main", .exact 8, some (.exact 24)), (c!"f", .exact 8, some (.exact 16)),
          (c!"g", .exact 8, some (.exact 8))], [(0, 1), (1, 2)]) :=
  ⟨markers_iff.mpr (by decide +kernel), by decide +kernel⟩

/-- The hypotheses of `C81_calls_hidden` are met by the first program. -/
example : (exSizeless true).NamesOnce ∧
    Markers (exSizelessElf true).symtab [(256, .thumb), (264, .thumb), (272, .data), (276, .thumb)] ∧
    (∀ k stop, ([(256, .thumb), (264, .thumb), (272, .data), (276, .thumb)] : List (Nat × Tag))[k]? =
      some (264, .thumb) → ([(256, .thumb), (264, .thumb), (272, .data), (276, .thumb)] : List (Nat × Tag))[k + 1]? ≠
        some (stop, .thumb)) ∧
    (∀ k, ¬ (exSizeless true).Frame 1 k) ∧ (exSizeless true).NoIr 1 := by
  refine ⟨namesOnce_of (by decide), markers_iff.mpr (by decide +kernel), ?_, ?_, ?_⟩
  · intro k stop h
    match k with
    | 0 => simp at h
    | 1 => simp
    | 2 => simp at h
    | 3 => simp at h
    | k + 4 => simp at h
  · rintro k ⟨_, _, pre, n, post, h1, h2, _, h4, _⟩
    simp only [exSizeless, List.getElem?_cons_succ, List.getElem?_cons_zero, Option.some.injEq,
      Prod.mk.injEq] at h1
    rw [← h1.2] at h2
    obtain ⟨rfl, rfl, rfl⟩ : pre = [] ∧ n = c!"f" ∧ post = [] := by
      cases pre with
      | nil => simp at h2; simp [h2]
      | cons x pre => simp at h2
    revert h4
    unfold Program.Reported
    simp [exSizeless, mget]
  · intro d hd
    simp only [exSizeless, List.mem_singleton] at hd
    subst hd
    rintro ⟨a, s, h1, h2, _⟩
    simp only [exSizeless, List.getElem?_cons_succ, List.getElem?_cons_zero, Option.some.injEq,
      Prod.mk.injEq] at h1
    rw [← h1.2] at h2
    revert h2
    decide

end CallStack
