import Verif.Proof.IrWF
import Verif.Proof.ParseLine

/-!
Properties C52, C53, C55, C56: the LLVM-IR parser (src/ir.rs, src/ir/ty.rs).
-/

namespace CallStack

/-- A character table for the examples. -/
def exClass : CharClass where
  alphabetic c := (65 ≤ c.toNat && c.toNat ≤ 90) || (97 ≤ c.toNat && c.toNat ≤ 122)
  numeric := isDigit
  alphabetic_ascii _ _ := rfl
  numeric_ascii _ _ := rfl

/-! ### C52 -/

/-- **C52** The printed form of a type is read back as that type, and the text after it is left alone. -/
theorem C52_print_parse (u : CharClass) (t : Ty) (ht : t.WF) (k : Str) (hk : EndsType u k) :
    typeP u (t.show ++ k) = .ok k t := (ht.text u).reads.ends hk

/-- **C52** The same for every way of writing the type that LLVM allows: names with or without quotes, any
number of blanks. -/
theorem C52_written_types (u : CharClass) (t : Ty) (s : Str) (hs : TyText u t s) (k : Str)
    (hk : EndsType u k) : typeP u (s ++ k) = .ok k t := hs.reads.ends hk

/-- **C52** Whatever is read is well-formed, so it can be printed and read again. -/
theorem C52_parsed_wf (u : CharClass) (i r : Str) (t : Ty) (h : typeP u i = .ok r t) :
    t.WF ∧ typeP u t.show = .ok [] t := by
  have ht := yields_typeP u i r t h
  refine ⟨ht, ?_⟩
  have := C52_print_parse u t ht [] (endsType_nil u)
  rwa [List.append_nil] at this

/-- **C52**, and the exclusion in `Ty.WF` is necessary: a function that returns a pointer to a `void`
function is printed by the tool in a form that it does not read back. -/
theorem C52_void_function_output :
    ∃ t : Ty, ∀ u, typeP u t.show = .ok c!" (i8)" (.pointer (.fn [] none)) ∧
      t = .fn [.integer 8] (some (.pointer (.fn [] none))) := by
  refine ⟨.fn [.integer 8] (some (.pointer (.fn [] none))), fun u => ⟨?_, rfl⟩⟩
  have hw : (Ty.pointer (.fn [] none)).WF := by simp [Ty.WF, Ty.WFs]
  have h := ((hw.text u).reads c!" (i8)" (stop_cons u _ (identChar_space u (by decide)))).1 (.pointer (.fn []))
  have e1 : (Ty.fn [.integer 8] (some (.pointer (.fn [] none)))).show = c!"void ()* (i8)" := by decide
  have e2 : (Ty.pointer (.fn [] none)).show ++ c!" (i8)" = c!"void ()* (i8)" := by decide
  rw [e1, ← e2, h]
  exact starsP_stop (by simp)

example : (Ty.fn [.pointer (.struct [.integer 8, .array 3 (.mvtVector 4 .float)]), .varargs]
    (some (.alias c!"core::fmt::Formatter"))).WF := by
  simp [Ty.WF, Ty.WFs]
  rintro (⟨⟩ | ⟨⟩)

example : typeP exClass c!"%\"core::fmt::Formatter\" ({i8, [3 x <4 x float>] }*, ...)* %x" =
    .ok c!" %x" (.pointer (.fn [.pointer (.struct [.integer 8, .array 3 (.mvtVector 4 .float)]), .varargs]
      (some (.alias c!"core::fmt::Formatter")))) := by decide +kernel

/-! ### C53 -/

/-- **C53** Different signatures have different labels. -/
theorem C53_distinct_labels (s s' : FnSig) (h : s.WF) (h' : s'.WF) (he : s.show = s'.show) : s = s' := by
  -- reading the label gives back the output or the whole signature
  have key : ∀ (s : FnSig), s.WF →
      ((∃ t, s.output = some t ∧ t.VoidFn ∧
        typeP exClass s.show = .ok (c!" (" ++ (showInputs s.inputs ++ c!")")) t) ∨
      typeP exClass s.show = .ok [] (.fn s.inputs s.output)) := by
    intro s hs
    by_cases hv : ∃ t, s.output = some t ∧ t.VoidFn
    · obtain ⟨t, ht, hv⟩ := hv
      refine .inl ⟨t, ht, hv, ?_⟩
      have hst : s.show = t.show ++ (c!" (" ++ (showInputs s.inputs ++ c!")")) := by
        rw [FnSig.show, Ty.show, ht, showOutput]
        simp
      have h1 := (((hs.2 t ht).text exClass).reads (c!" (" ++ (showInputs s.inputs ++ c!")"))
        (stop_cons _ _ (identChar_space _ (by decide)))).1 hv
      rw [hst, h1]
      exact starsP_stop (by simp)
    · refine .inr ?_
      have : (Ty.fn s.inputs s.output).WF := by
        cases ho : s.output with
        | none => rw [Ty.WF]; exact hs.1
        | some t => rw [Ty.WF]; exact ⟨hs.1, hs.2 t ho, fun h => hv ⟨t, ho, h⟩⟩
      have := C52_print_parse exClass _ this [] (endsType_nil _)
      rwa [List.append_nil] at this
  have hin : ∀ {ts ts' : List Ty}, Ty.WFs ts → Ty.WFs ts' →
      showInputs ts ++ c!")" = showInputs ts' ++ c!")" → ts = ts' := by
    intro ts ts' hts hts' heq
    have h1 := fnInputsP_eq (inputs_text exClass hts).reads optBlanks_nil []
    have h2 := fnInputsP_eq (inputs_text exClass hts').reads optBlanks_nil []
    rw [heq, h2] at h1
    injection h1 with _ h1
    exact h1.symm
  cases s with
  | mk ins out =>
    cases s' with
    | mk ins' out' =>
      rcases key _ h with ⟨t, ht, _, h1⟩ | h1 <;> rcases key _ h' with ⟨t', ht', _, h2⟩ | h2 <;>
        rw [he, h2] at h1 <;> injection h1 with hr hv
      · simp only at ht ht' hr
        have := hin h'.1 h.1 (List.append_cancel_left hr)
        simp only at this
        rw [ht, ht', this, hv]
      · exact absurd hr (by simp)
      · exact absurd hr (by simp)
      · injection hv with hv1 hv2
        simp only at hv1 hv2
        rw [hv1, hv2]

/-- **C53** All signatures of a file that was read are of this kind. -/
theorem C53_parsed (u : CharClass) (ll : Str) (items : List Item) (h : parseIr u ll = .ok items) :
    ∀ item ∈ items, item.SigsWF := parseIr_sigs u h

/-- A quote in a name of a type could make the labels of two different signatures equal. -/
theorem C53_quotes :
    FnSig.show ⟨[.alias c!"a", .alias c!"b"], none⟩ = FnSig.show ⟨[.alias c!"a\", %\"b"], none⟩ := by decide

example : (FnSig.mk [.integer 8] (some (.pointer (.fn [] none)))).WF := by simp [FnSig.WF, Ty.WF, Ty.WFs]

/-! ### C55 -/

/-- **C55** Reading a file either takes all of it, or reports the line of the first character that was
not read; it does not panic. -/
theorem C55_error_line (u : CharClass) (ll : Str) :
    (∃ items, itemsP u ll = .ok items ∧ parseIr u ll = .ok items) ∨
    ∃ done c rest, ll = done ++ c :: rest ∧ itemsP u ll = .failure (c :: rest) ∧
      parseIr u ll = .errorAt (done.count '\n' + 1) := by
  rcases itemsP_cases u ll with ⟨items, h⟩ | ⟨done, c, rest, h1, h2⟩
  · exact .inl ⟨items, h, by unfold parseIr; rw [h]⟩
  · refine .inr ⟨done, c, rest, h1, h2, ?_⟩
    unfold parseIr
    rw [h2]
    have : utf8Len ll - utf8Len (c :: rest) = utf8Len done := by
      rw [h1, utf8Len_append]
      omega
    simp only [this]
    rw [h1, findLine_eq done c rest 0, Nat.zero_add]

example : parseIr exClass c!"; a\n\nsource_filename = \"é\"\nfoo\n" = .errorAt 4 := by decide +kernel

example : parseIr exClass c!"; a\n\nsource_filename = \"é\"\n" = .ok [.comment, .sourceFilename] := by
  decide +kernel

/-! ### C56 -/

/-- The parser returns on every input, not with the error of a repetition that makes no progress; what
it leaves is a proper suffix of the input. -/
def Sound {α : Type} (p : P α) : Prop :=
  ∀ i, p i ≠ .stuck ∧ ∀ r a, p i = .ok r a → ∃ c s, i = c :: (s ++ r)

theorem sound_of_eats {α : Type} {p : P α} (h : ∀ n, EatsTo n p) : Sound p := fun i => by
  have h1 := h (i.length + 1) i (Nat.lt_succ_self _)
  refine ⟨h1.1, fun r a ha => ?_⟩
  obtain ⟨⟨s, hs⟩, h3⟩ := h1.2 r a ha
  cases s with
  | nil => rw [← hs] at h3; simp at h3
  | cons c s => exact ⟨c, s, hs.symm⟩

/-- **C56** -/
theorem C56_sound (u : CharClass) :
    Sound (typeP u) ∧ Sound (attributeP u) ∧ Sound (bitcastP u) ∧ Sound (getelementptrP u) ∧
    Sound (parameterP u) ∧ Sound (argumentP u) ∧ Sound (stmtP u) ∧ Sound (defineP u) ∧
    Sound (itemP u) :=
  ⟨sound_of_eats fun _ => eats_typeP u, sound_of_eats fun _ => eats_attributeP u,
    sound_of_eats fun _ => eats_bitcastP u, sound_of_eats fun _ => eats_getelementptrP u,
    sound_of_eats fun _ => eats_parameterP u, sound_of_eats fun _ => eats_argumentP u,
    sound_of_eats fun _ => eats_stmtP u, sound_of_eats fun _ => eats_defineP u,
    sound_of_eats fun _ => eats_itemP u⟩

/-- **C56** for whole files. -/
theorem C56_file (u : CharClass) (ll : Str) : itemsP u ll ≠ .stuck ∧ ∀ p, parseIr u ll ≠ .panic p := by
  refine ⟨fun h => ?_, fun p hp => ?_⟩
  · rcases itemsP_cases u ll with ⟨items, h'⟩ | ⟨_, _, _, _, h'⟩ <;> rw [h] at h' <;>
      exact absurd h' (by simp)
  · rcases C55_error_line u ll with ⟨items, _, h⟩ | ⟨_, _, _, _, _, h⟩ <;> rw [hp] at h <;>
      exact absurd h (by simp)

/-- **C56** The model of `type_` satisfies the recursion of the code as it stands, without a bound on its
depth. -/
theorem C56_type_recursion (u : CharClass) (i : Str) : typeP u i = typeBody u (typeP u) i :=
  typeP_unfold u i

example : typeP exClass c!"{ {i8}, [2 x {}" = .error := by decide +kernel

end CallStack
