import Verif.Props.ParseModule
import Verif.Proof.IrExact

/-!
Properties C106 and C70: what is recorded about an LLVM-IR file is written there (src/ir.rs, src/ir/ty.rs,
src/ir/define.rs, src/ir/item.rs).
-/

namespace CallStack

/-! ### C106 -/

/-- **C106** A type that is read is written: the text that was consumed is a way to write this type. -/
theorem C106_types (u : CharClass) (i r : Str) (t : Ty) (h : typeP u i = .ok r t) :
    ∃ s, i = s ++ r ∧ TyText u t s := gives_typeP u i r t h

/-- **C106** Before text that cannot continue a type, the type read is exactly the type written. -/
theorem C106_types_iff (u : CharClass) (s k : Str) (t : Ty) (hk : EndsType u k) :
    typeP u (s ++ k) = .ok k t ↔ TyText u t s := by
  constructor
  · intro h
    obtain ⟨s', h1, h2⟩ := C106_types u _ _ _ h
    rw [List.append_cancel_right h1]
    exact h2
  · exact fun h => C52_written_types u t s h k hk

/-- **C106** A text is a way to write at most one type. -/
theorem C106_types_unique (u : CharClass) (s : Str) (t t' : Ty) (h : TyText u t s) (h' : TyText u t' s) :
    t = t' := by
  have h1 := (C106_types_iff u s [] t (endsType_nil u)).2 h
  have h2 := (C106_types_iff u s [] t' (endsType_nil u)).2 h'
  rw [h1] at h2
  injection h2

/-- `[4 x { i8*, %"a b" }] (...)*` followed by ` %x` is read as the type that it denotes. -/
example : ∃ s, c!"[4 x { i8*, %\"a b\" }] (...)* %x" = s ++ c!" %x" ∧
    TyText exClass (.pointer (.fn [.varargs] (some (.array 4 (.struct [.pointer (.integer 8), .alias c!"a b"]))))) s :=
  C106_types exClass _ _ _ (by decide +kernel)

/-- **C106** Everything recorded about an accepted file is written there. The file consists of the texts of
the items and of line breaks, in this order. The text of a definition is `define`, attributes, the recorded
output type, the recorded name, the recorded parameter types and one line for each recorded statement. The
line of a direct call is `call` or `invoke`, attributes, a type and the recorded name; the line of an indirect
call contains the recorded output type, a local variable and arguments of the recorded types; inline assembly
and the call of a cast function are written as recorded (see `FileRead`). Declarations and aliases are
written with the recorded names and signature. -/
theorem C106_file (u : CharClass) (ll : Str) (items : List Item) (h : parseIr u ll = .ok items) :
    FileRead u items ll := parseIr_reads h

/-- A definition and a statement of a file. -/
theorem pieces_mem {α : Type} {one : α → Str → Prop} {as : List α} {x : Str} (h : Pieces one as x) {a : α}
    (ha : a ∈ as) : ∃ x1 y x2, x = x1 ++ (y ++ x2) ∧ one a y ∧ (x1 = [] ∨ ∃ z e, x1 = z ++ e ∧ Eols e) ∧
      (x2 = [] ∨ ∃ e z, x2 = e ++ z ∧ Eols e) := by
  induction h with
  | one h =>
    rw [List.mem_singleton] at ha
    subst ha
    exact ⟨[], _, [], by simp, h, .inl rfl, .inl rfl⟩
  | cons h he hp ih =>
    rename_i a' as' x e y
    rcases List.mem_cons.1 ha with rfl | ha
    · exact ⟨[], x, e ++ y, by simp, h, .inl rfl, .inr ⟨e, y, rfl, he⟩⟩
    · obtain ⟨x1, z, x2, rfl, h1, h2, h3⟩ := ih ha
      refine ⟨x ++ (e ++ x1), z, x2, by simp, h1, .inr ?_, h3⟩
      rcases h2 with rfl | ⟨w, e', rfl, he'⟩
      · exact ⟨x, e, by simp, he⟩
      · exact ⟨x ++ (e ++ w), e', by simp, he'⟩

/-- **C106** A recorded direct call is written: in the text of a definition of the calling function there is a
line with `call` or `invoke`, attributes, a type, `@`, the name of the called function and `(`. -/
theorem C106_direct_call (u : CharClass) (ll : Str) (items : List Item) (h : parseIr u ll = .ok items)
    (d : Define) (hd : .define d ∈ items) (name : Str) (hc : .directCall name ∈ d.stmts) :
    ∃ x s y, ll = x ++ (s ++ y) ∧ DefineRead u d s ∧
      ∃ z t c b1 a o b2 n e w out, s = z ++ (t ++ (c ++ (b1 ++ (a ++ (o ++ (b2 ++ (c!"@" ++ (n ++ (c!"(" ++
          (e ++ w)))))))))) ∧
        TailText t ∧ CallText c ∧ Blanks b1 ∧ AttrsText u a ∧ OutText u out o ∧ Blanks b2 ∧ NameText u name n ∧
        OneLine e := by
  cases C106_file u ll items h with
  | empty => simp at hd
  | items hp he =>
    rename_i s0 e0
    obtain ⟨x1, s, x2, rfl, hs, _, _⟩ := pieces_mem hp hd
    cases hs with
    | item hn => exact absurd rfl (hn d)
    | define hs =>
      refine ⟨x1, s, x2 ++ e0, by simp only [List.append_assoc], hs, ?_⟩
      cases hs with
      | mk hb1 ha ho hb2 hn hps he hl hst hl' =>
        rename_i c1 c2 c3 c4 _ c5 c6 c7 c8 _ c9 _ _ _
        obtain ⟨y1, st, y2, rfl, hst, _, _⟩ := pieces_mem hst hc
        have key : ∀ s, InstrRead u (.directCall name) s → ∃ t c b1 a o b2 n e out,
            s = t ++ (c ++ (b1 ++ (a ++ (o ++ (b2 ++ (c!"@" ++ (n ++ (c!"(" ++ e)))))))) ∧
            TailText t ∧ CallText c ∧ Blanks b1 ∧ AttrsText u a ∧ OutText u out o ∧ Blanks b2 ∧
            NameText u name n ∧ OneLine e := by
          intro s hs
          cases hs with
          | call _ _ hs =>
            cases hs with
            | direct ht hc hb1 ha ho hb2 hn he => exact ⟨_, _, _, _, _, _, _, _, _, rfl, ht, hc, hb1, ha, ho, hb2, hn, he⟩
        cases hst with
        | instr hb hi =>
          rename_i b s'
          obtain ⟨t, c, b1, a, o, b2, n, e, out, rfl, hh⟩ := key _ hi
          refine ⟨(c!"define" ++ (c1 ++ (c2 ++ (c3 ++ (c4 ++ (c!"@" ++ (c5 ++ (c!"(" ++ (c6 ++ (c!")" ++ (c7 ++ (c8 ++ y1)))))))))))) ++ b,
            t, c, b1, a, o, b2, n, e, y2 ++ (c9 ++ c!"}"), out, ?_, hh⟩
          simp only [List.append_assoc]
        | assign hb hl hb1 hb2 hi =>
          rename_i b l b1' b2' s'
          obtain ⟨t, c, b1, a, o, b2, n, e, out, rfl, hh⟩ := key _ hi
          refine ⟨(c!"define" ++ (c1 ++ (c2 ++ (c3 ++ (c4 ++ (c!"@" ++ (c5 ++ (c!"(" ++ (c6 ++ (c!")" ++ (c7 ++ (c8 ++ y1)))))))))))) ++
            (b ++ (l ++ (b1' ++ (c!"=" ++ b2')))),
            t, c, b1, a, o, b2, n, e, y2 ++ (c9 ++ c!"}"), out, ?_, hh⟩
          simp only [List.append_assoc]

/-- The module of `exModuleText_text`, with a definition and two kinds of calls, is accepted; so everything
recorded about it is written. -/
example : FileRead exClass [.comment, .define exDefine, .declare ⟨c!"llvm.trap", none⟩, .attributes]
    (c!"; ModuleID\r\n\n" ++ (exDefineText ++
      c!"\n\ndeclare void @llvm.trap() #1\nattributes #0 = { nounwind }\n\n")) :=
  C106_file _ _ _ (C58_module_reads_back _ _ _ exModuleText_text)

/-- The tolerance of `FileRead` is that of the tool: no `call` is needed for an indirect call, and a parameter
may have two names. -/
example : parseIr exClass c!"define i8 @f(i8 %a %b) {\n  ret i8 %a(i8 0)\n}" =
    .ok [.define ⟨c!"f", ⟨[.integer 8], some (.integer 8)⟩,
      [.indirectCall ⟨[.integer 8], some (.integer 8)⟩]⟩] := by decide +kernel

/-! ### C70 -/

/-- **C70**, the exact condition for any line. A line (with closed quotes and without the word `call`) is
recorded as an instruction without interest exactly if it is not written as a call the tool understands. -/
theorem C70_dropped_iff (u : CharClass) (b p s k : Str) (hb : Blanks b) (hp : AssignText u s p)
    (hs : CallFreeLine s) (hk : k = [] ∨ ∃ l k', Eol l ∧ k = l ++ k') :
    stmtP u (b ++ (p ++ (s ++ k))) = .ok k .other ↔ ¬ ∃ st, st ≠ .other ∧ InstrRead u st s :=
  stmt_other_iff hb hp hs hk

/-- **C70**, the exact condition for `invoke`. An `invoke` line (with closed quotes, without the word `call`)
is dropped exactly if it is neither written `invoke`, attributes, a type, `@name(`, nor `invoke`, attributes, a
type, a local variable and arguments in parentheses. -/
theorem C70_invoke_iff (u : CharClass) (b p b1 z k : Str) (hb : Blanks b) (hb1 : Blanks b1)
    (hz : z.head? ≠ some ' ' ∧ z.head? ≠ some '\t')
    (hp : AssignText u (c!"invoke" ++ (b1 ++ z)) p) (hs : CallFreeLine (c!"invoke" ++ (b1 ++ z)))
    (hk : k = [] ∨ ∃ l k', Eol l ∧ k = l ++ k') :
    stmtP u (b ++ (p ++ (c!"invoke" ++ (b1 ++ z) ++ k))) = .ok k .other ↔
      (¬ ∃ a o b2 name n e out, z = a ++ (o ++ (b2 ++ (c!"@" ++ (n ++ (c!"(" ++ e))))) ∧ AttrsText u a ∧
        OutText u out o ∧ Blanks b2 ∧ NameText u name n ∧ OneLine e) ∧
      ¬ ∃ a o b2 l s e out ins, z = a ++ (o ++ (b2 ++ (l ++ (c!"(" ++ (s ++ (c!")" ++ e)))))) ∧ AttrsText u a ∧
        OutText u out o ∧ Blanks b2 ∧ LocalText u l ∧ ListText (ArgText u) ins s ∧ OneLine e := by
  rw [C70_dropped_iff u b p _ k hb hp hs hk]
  have hnb : NoBlank z := fun c hc => by
    simp only [isSpace, Bool.or_eq_false_iff, beq_eq_false_iff_ne]
    exact ⟨fun h => hz.1 (h ▸ hc), fun h => hz.2 (h ▸ hc)⟩
  constructor
  · intro h
    constructor
    · rintro ⟨a, o, b2, name, n, e, out, rfl, ha, ho, hb2, hn, he⟩
      exact h ⟨.directCall name, by simp, .call (by simp) (by simp)
        (by simpa using InstrText.direct .nil .invoke hb1 ha ho hb2 hn he)⟩
    · rintro ⟨a, o, b2, l, s, e, out, ins, rfl, ha, ho, hb2, hl, hs, he⟩
      refine h ⟨.indirectCall ⟨ins, out⟩, by simp, ?_⟩
      simpa only [List.append_assoc, List.nil_append] using
        InstrRead.indirect .nil (.cons invoke_attr hb1 ha) ho hb2 hl hs he
  · rintro ⟨h1, h2⟩ ⟨st, hst, hr⟩
    have hi := hr.invoke hst hb1 hnb
    have cancel : ∀ {a r : Str}, AttrsText u a → ∀ {b' : Str}, Blanks b' → NoBlank (a ++ r) →
        c!"invoke" ++ (b1 ++ z) = c!"invoke" ++ (b' ++ (a ++ r)) → z = a ++ r := by
      intro a r _ b' hb' hn heq
      have heq := List.append_cancel_left heq
      have e1 := space1_eq hb1 hnb
      rw [heq, space1_eq hb' hn] at e1
      injection e1 with e1 _
      exact e1.symm
    generalize hx : c!"invoke" ++ (b1 ++ z) = x at hi
    cases hi with
    | asm ht =>
      cases ht <;> simp at hx
    | bitcast ht =>
      cases ht <;> simp at hx
    | direct ht hc hb1' ha ho hb2 hn he =>
      cases ht with
      | tail => simp at hx
      | nil =>
        cases hc with
        | call => simp at hx
        | invoke =>
          rw [List.nil_append] at hx
          exact h1 ⟨_, _, _, _, _, _, _, cancel ha hb1' (ha.noBlank (ho.noBlank _)) hx, ha, ho, hb2, hn, he⟩
    | indirect ht hc hb1' ha ho hb2 hl hs he =>
      cases ht with
      | tail => simp at hx
      | nil =>
        cases hc with
        | call => simp at hx
        | invoke =>
          rw [List.nil_append] at hx
          exact h2 ⟨_, _, _, _, _, _, _, _, cancel ha hb1' (ha.noBlank (ho.noBlank _)) hx, ha, ho, hb2, hl, hs, he⟩
    | other => exact hst rfl

/-- An `invoke` of a cast function satisfies the assumptions and is dropped. -/
example : CallFreeLine c!"invoke void bitcast (i8 ()* @g to void ()*)()" ∧
    stmtP exClass (c!"  " ++ ([] ++ (c!"invoke void bitcast (i8 ()* @g to void ()*)()" ++ c!"\n"))) =
      .ok c!"\n" .other := by
  refine ⟨⟨by decide, ?_, by decide, by decide, by decide, ?_⟩, by decide +kernel⟩
  · intro c hc
    have h : c!"invoke void bitcast (i8 ()* @g to void ()*)()".all (fun c => decide (c ≠ '\n' ∧ c ≠ '\r')) = true := by
      decide
    simpa using List.all_eq_true.1 h c hc
  · rintro ⟨a, b, h, _⟩
    have : ¬ c!"call" <:+: c!"invoke void bitcast (i8 ()* @g to void ()*)()" := by decide
    exact this ⟨a, b, by rw [h]; simp⟩

end CallStack
