import Verif.Proof.Write
import Verif.Props.Top

/-!
C113: errors of standard output are reported, and what arrives is the beginning of the text.
-/

namespace CallStack

/-- The sink takes all these pieces, one after the other. -/
inductive Sink.Takes {σ ε : Type} (w : Sink σ ε) : List Str → σ → σ → Prop
  | nil (s : σ) : w.Takes [] s s
  | cons {p : Str} {ps : List Str} {s s1 s' : σ} (h : w.put p s = ⟨none, s1⟩) (ht : w.Takes ps s1 s') :
      w.Takes (p :: ps) s s'

theorem Sink.fmt_takes {σ ε : Type} (w : Sink σ ε) (ps : List Str) (s : σ) :
    ((w.fmt ps s).error = none ∧ w.Takes ps s (w.fmt ps s).state) ∨
    ∃ before p after s1 e, ps = before ++ p :: after ∧ w.Takes before s s1 ∧
      w.put p s1 = ⟨some e, (w.fmt ps s).state⟩ ∧ (w.fmt ps s).error = some e := by
  induction ps generalizing s with
  | nil => exact Or.inl ⟨rfl, .nil s⟩
  | cons p ps ih =>
    rcases hp : w.put p s with ⟨_ | e, s1⟩
    · have he : w.fmt (p :: ps) s = w.fmt ps s1 := by simp only [Sink.fmt, hp, Written.next]
      rw [he]
      rcases ih s1 with ⟨h1, h2⟩ | ⟨before, q, after, s2, e, h1, h2, h3, h4⟩
      · exact Or.inl ⟨h1, .cons hp h2⟩
      · exact Or.inr ⟨p :: before, q, after, s2, e, by rw [h1]; rfl, .cons hp h2, h3, h4⟩
    · have he : w.fmt (p :: ps) s = ⟨some e, s1⟩ := by simp only [Sink.fmt, hp, Written.next]
      rw [he]
      exact Or.inr ⟨[], p, ps, s, e, rfl, .nil s, hp, rfl⟩

/-- C113: the text is handed to standard output in order and without gaps. If all writes succeed, the run succeeds.
If a write fails, the run fails with the error of that write, and nothing is written after it. This holds for every
kind of standard output. -/
theorem C113_write_errors {display : Str → List Str} {ord : HashOrder} {search : TagSearch} {p : Program} {elf : Elf}
    {start : Option Str} {format : OutputFormat} {text : Str}
    (h : runText (fun n => (display n).flatten) ord search p elf start format = .ok text) :
    ∃ ps : List Str, ps.flatten = text ∧
      ∀ (σ ε : Type) (w : Sink σ ε) (s : σ),
        ∃ r, runWrite w display ord search p elf start format s = .ok r ∧
          ((r.error = none ∧ w.Takes ps s r.state) ∨
            ∃ before q after s1 e, ps = before ++ q :: after ∧ w.Takes before s s1 ∧
              w.put q s1 = ⟨some e, r.state⟩ ∧ r.error = some e) := by
  obtain ⟨ps, h1, h2⟩ := runWrite_pieces h
  exact ⟨ps, h1, fun σ ε w s => ⟨_, h2 σ ε w s, w.fmt_takes ps s⟩⟩

/-- C113: a run that panics has not written anything. -/
theorem C113_panic_silent {σ ε : Type} {display : Str → List Str} {ord : HashOrder} {search : TagSearch} {p : Program}
    {elf : Elf} {start : Option Str} {format : OutputFormat} (w : Sink σ ε) (s : σ) :
    (∃ e, runText (fun n => (display n).flatten) ord search p elf start format = .error e) ↔
      ∃ e, runWrite w display ord search p elf start format s = .error e := by
  unfold runText runWrite
  cases finalGraph (fun n => (display n).flatten) ord search p elf start with
  | error e => simp
  | ok r => cases format <;> simp

/-- A device with room for a number of characters: what is written, and the room that is left. -/
def limited : Sink (Str × Nat) Unit where
  put p d :=
    if p.length ≤ d.2 then ⟨none, (d.1 ++ p, d.2 - p.length)⟩ else ⟨some (), (d.1 ++ p.take d.2, 0)⟩

theorem limited_fmt (ps : List Str) (out : Str) (n : Nat) :
    (limited.fmt ps (out, n)).state.1 = out ++ ps.flatten.take n ∧
      ((limited.fmt ps (out, n)).error = none ↔ ps.flatten.length ≤ n) := by
  induction ps generalizing out n with
  | nil => simp [Sink.fmt]
  | cons p ps ih =>
    by_cases h : p.length ≤ n
    · have he : limited.fmt (p :: ps) (out, n) = limited.fmt ps (out ++ p, n - p.length) := by
        simp only [Sink.fmt, limited, if_pos h, Written.next]
      rw [he]
      obtain ⟨h1, h2⟩ := ih (out ++ p) (n - p.length)
      constructor
      · rw [h1, List.flatten_cons, List.take_append, List.take_of_length_le h, List.append_assoc]
      · rw [h2, List.flatten_cons, List.length_append]; omega
    · have he : limited.fmt (p :: ps) (out, n) = ⟨some (), (out ++ p.take n, 0)⟩ := by
        simp only [Sink.fmt, limited, if_neg h, Written.next]
      rw [he, List.flatten_cons, List.take_append_of_le_length (by omega), List.length_append]
      exact ⟨rfl, by simp; omega⟩

/-- C113: on a device with room for `n` characters, the first `n` characters of the text arrive, and the exit status
is 0 exactly if that is all of it. -/
theorem C113_full_device {display : Str → List Str} {ord : HashOrder} {search : TagSearch} {p : Program} {elf : Elf}
    {start : Option Str} {format : OutputFormat} {text : Str}
    (h : runText (fun n => (display n).flatten) ord search p elf start format = .ok text) (n : Nat) :
    ∃ r, runWrite limited display ord search p elf start format ([], n) = .ok r ∧
      r.state.1 = text.take n ∧ exitStatus r.error = if text.length ≤ n then 0 else 1 := by
  obtain ⟨ps, h1, h2⟩ := runWrite_pieces h
  obtain ⟨h3, h4⟩ := limited_fmt ps [] n
  rw [h1] at h3 h4
  refine ⟨_, h2 _ _ limited ([], n), by simpa using h3, ?_⟩
  by_cases hn : text.length ≤ n
  · rw [if_pos hn, h4.mpr hn]; rfl
  · rw [if_neg hn]
    cases he : (limited.fmt ps ([], n)).error with
    | none => exact absurd (h4.mp he) hn
    | some e => rfl

/-- A program of which the table has 25 characters: on a device with room for 20 of them the run fails, and no
function is shown. -/
example : ∃ r, runWrite limited (fun n => [n]) sameOrder linearSearch exLoop ⟨[], none⟩ none .top ([], 20) = .ok r ∧
    r.state.1 = c!"8 MAX\nUsage Function" ∧ exitStatus r.error = 1 := by
  have h : runText (fun n => ([n] : List Str).flatten) sameOrder linearSearch exLoop ⟨[], none⟩ none .top =
      .ok c!"8 MAX\nUsage Function\n8 f\n" := by decide +kernel
  obtain ⟨r, h1, h2, h3⟩ := C113_full_device (display := fun n => [n]) h 20
  exact ⟨r, h1, h2, h3⟩

/-- A quote in a name is two writes. A device that takes only the first leaves the label open and the run fails; this
needs the error that `Escaper` has kept. -/
example : (dotWrite limited (fun n => [n]) ⟨[⟨c!"\"", .exact 0, none, false⟩], []⟩ [] ([], 65)).state.1 =
      c!"digraph {\n    node [fontname=monospace shape=box]\n    0 [label=\"\\" ∧
    exitStatus (dotWrite limited (fun n => [n]) ⟨[⟨c!"\"", .exact 0, none, false⟩], []⟩ [] ([], 65)).error = 1 := by
  decide +kernel

end CallStack
