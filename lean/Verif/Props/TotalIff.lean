import Verif.Proof.TotalIff
import Verif.Proof.Need

/-!
Property C75, exactly: when a run ends with output, without and with a start point.
-/

namespace CallStack

/-- **C75** Once the call graph has been built, the tool ends with output exactly if
- every node whose name looks as if it ended in a hash shares its path with a live function, and
- the heaviest chain from every function fits into 64 bits, or the compiler reports no frame at all.

(When the call graph can be built is `C75_graph_iff`.) -/
theorem C75_output_iff {demangle : Str → Str} {ord : HashOrder} {search : TagSearch} {p : Program} {elf : Elf}
    {st : Build} {g : Graph} (sizes : p.SizesU64) (fits : elf.Fits32)
    (hc : callGraph demangle ord search p elf = .ok (st, g)) (format : OutputFormat) :
    (∃ text, runText demangle ord search p elf none format = .ok text) ↔
      (∀ nd ∈ g.nodes, ∀ path, HashOf path (demangle nd.name) →
        ∃ i other, p.Principal i other ∧ HashOf path (demangle other)) ∧
      ((∃ i k, p.Frame i k) →
        ∀ v < g.nodes.length, ∀ k, Heaviest g.Calls g.locOf v k → k < 2 ^ 64) := by
  obtain ⟨cs, st0, stIr, r⟩ := callGraph_shared hc
  exact output_kept_iff r hc format rfl r.wf (r.u64 sizes fits)

/-- **C75** With a start point, the tool ends with output exactly if the two conditions hold for the nodes that are
kept. A node that cannot be reached from the start point never prevents output. -/
theorem C75_output_start_iff {demangle : Str → Str} {ord : HashOrder} {search : TagSearch} {p : Program} {elf : Elf}
    {st : Build} {g : Graph} (sizes : p.SizesU64) (fits : elf.Fits32)
    (hc : callGraph demangle ord search p elf = .ok (st, g)) (s : Str) (format : OutputFormat) :
    (∃ text, runText demangle ord search p elf (some s) format = .ok text) ↔
      (∀ v nd, g.nodes[v]? = some nd → p.Kept demangle st.indices g s v →
        ∀ path, HashOf path (demangle nd.name) → ∃ i other, p.Principal i other ∧ HashOf path (demangle other)) ∧
      ((∃ i k, p.Frame i k) → ∀ v < g.nodes.length, p.Kept demangle st.indices g s v →
        ∀ k, Heaviest g.Calls g.locOf v k → k < 2 ^ 64) := by
  obtain ⟨cs, st0, stIr, r⟩ := callGraph_shared hc
  have hu := r.u64 sizes fits
  have hres := resolve_shown (demangle := demangle) r.indices_nodup r.shown_iff
  cases hr : resolveStart demangle st.indices s with
  | none =>
    have hkept : ∀ v, p.Kept demangle st.indices g s v := by
      intro v n i hn hs
      rw [(hres s i).mpr ⟨n, hn, hs⟩] at hr
      simp at hr
    rw [output_kept_iff r hc format (start := some s) (gk := g) (by simp [applyStart, hr]) r.wf hu]
    simp only [hkept, true_imp_iff]
    exact and_congr ⟨fun h v nd hv => h nd (List.mem_of_getElem? hv), fun h nd hnd => by
      obtain ⟨v, hv⟩ := List.getElem?_of_mem hnd
      exact h v nd hv⟩ Iff.rfl
  | some i =>
    have hkept : ∀ v, p.Kept demangle st.indices g s v ↔ Reach g.Calls i v := by
      intro v
      constructor
      · intro h
        obtain ⟨n, hn, hs⟩ := (hres s i).mp hr
        exact h n i hn hs
      · intro h n j hn hs
        have := (hres s j).mpr ⟨n, hn, hs⟩
        rw [hr] at this
        obtain rfl := Option.some.inj this
        exact h
    obtain ⟨key, hk, hkey⟩ := resolveStart_key hr
    obtain ⟨nd, hn, hname⟩ := r.index hk
    have hi : i < g.nodes.length := (List.getElem?_eq_some_iff.mp hn).1
    obtain ⟨fs, ren, e, hw, h1, h2, h3, h4, h5⟩ := filterGraph_full r.wf hi
    have hu2 : fs.g2.LocalsU64 := by
      apply localsU64_of_nodes
      intro nd hnd
      obtain ⟨k, hk⟩ := List.mem_iff_getElem?.mp hnd
      obtain ⟨j, hj, rfl⟩ := h3 k (List.getElem?_eq_some_iff.mp hk).1
      rw [h4 j hj] at hk
      exact hu.node (List.mem_of_getElem? hk)
    have hemb := filterGraph_embed hw h2 h3 h4 h5
    rw [output_kept_iff r hc format (start := some s) (gk := fs.g2) (by simp [applyStart, hr, e]) hw hu2]
    simp only [hkept]
    refine and_congr ⟨?_, ?_⟩ (imp_congr_right fun _ => ⟨?_, ?_⟩)
    · intro h v nd hv hrv
      exact h nd (List.mem_of_getElem? ((h4 v hrv).trans hv))
    · intro h nd hnd
      obtain ⟨k, hk⟩ := List.mem_iff_getElem?.mp hnd
      obtain ⟨j, hj, rfl⟩ := h3 k (List.getElem?_eq_some_iff.mp hk).1
      rw [h4 j hj] at hk
      exact h j nd hk hj
    · intro h v hv hrv k hk
      exact h (ren v) (h1 v hrv) k (hemb.heaviest hrv hk)
    · intro h v hv k hk
      obtain ⟨j, hj, rfl⟩ := h3 v hv
      have hjl := r.wf.reach_lt hj hi
      obtain ⟨k', hk'⟩ := exists_heaviest (E := g.Calls) (loc := g.locOf) (v := j) (N := g.nodes.length)
        (fun u hu => r.wf.reach_lt hu hjl)
      rw [hk.unique (hemb.heaviest hj hk')]
      exact h j hjl hj k' hk'

/-- A program in which a pointer to a function is called whose type ends in 19 bytes that begin with `::h`. -/
def exHashType : Program :=
  { target := .other
    defined := [(256, ⟨[c!"main"], 8⟩), (264, ⟨[c!"f"], 4⟩)]
    undefined := []
    stackSizes := [(c!"main", 8), (c!"f", 0)]
    defines := [⟨c!"main", ⟨[], none⟩, [.indirectCall ⟨[.pointer (.alias c!"mycrate::heapless_pool")], none⟩]⟩,
      ⟨c!"f", ⟨[.pointer (.alias c!"mycrate::heapless_pool")], none⟩, [.other]⟩]
    declares := [] }

/-- **C20 is false** for whole programs too: all code is understood and the graph is built, but the tool ends
without output because of the name of a type. -/
theorem C20_run_aborts :
    (∃ out, callGraph id sameOrder linearSearch exHashType ⟨[], none⟩ = .ok out) ∧
    runText id sameOrder linearSearch exHashType ⟨[], none⟩ none .dot =
      .error (.missingAmbiguous c!"void (%\"mycrate") := by
  refine ⟨?_, by decide +kernel⟩
  have hok : (callGraph id sameOrder linearSearch exHashType ⟨[], none⟩).isOk = true := by decide +kernel
  cases h : callGraph id sameOrder linearSearch exHashType ⟨[], none⟩ with
  | ok out => exact ⟨out, rfl⟩
  | error e => rw [h] at hok; simp [Except.isOk, Except.toBool] at hok

/-- With the frames of `exHashType` changed to nearly 2^64 bytes and another type, the sum does not fit; with no
frames reported at all there is output. -/
example :
    runText id sameOrder linearSearch
      { exHashType with stackSizes := [(c!"main", 2 ^ 63), (c!"f", 2 ^ 63)]
                        defines := [⟨c!"main", ⟨[], none⟩, [.directCall c!"f"]⟩] } ⟨[], none⟩ none .dot =
      .error .overflow ∧
    (runText id sameOrder linearSearch
      { exHashType with stackSizes := []
                        defines := [⟨c!"main", ⟨[], none⟩, [.directCall c!"f"]⟩] } ⟨[], none⟩ none .dot).isOk =
      true := by
  constructor <;> decide +kernel

/-- Started at `f`, which does not call `main`, both programs that fail have output. -/
example :
    (runText id sameOrder linearSearch exHashType ⟨[], none⟩ (some c!"f") .dot).isOk = true ∧
    (runText id sameOrder linearSearch
      { exHashType with stackSizes := [(c!"main", 2 ^ 63), (c!"f", 2 ^ 63)]
                        defines := [⟨c!"main", ⟨[], none⟩, [.directCall c!"f"]⟩] } ⟨[], none⟩ (some c!"f") .dot).isOk =
      true ∧
    runText id sameOrder linearSearch exHashType ⟨[], none⟩ (some c!"main") .dot =
      .error (.missingAmbiguous c!"void (%\"mycrate") := by
  refine ⟨?_, ?_, ?_⟩ <;> decide +kernel

end CallStack
