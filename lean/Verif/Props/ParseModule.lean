import Verif.Proof.IrModule
import Verif.Props.Parse

/-!
Properties C54, C57, C58, C70: statements, definitions and whole files of LLVM-IR (src/ir.rs,
src/ir/define.rs, src/ir/item.rs).
-/

namespace CallStack

/-! ### C54 -/

/-- **C54** An accepted file is divided without gaps among the items, and a definition without gaps among
its statements (see `FilePiece`). A statement about which nothing is recorded is a single line without the
word `call`; comments and labels look like comments and labels. -/
theorem C54_nothing_skipped (u : CharClass) (ll : Str) (items : List Item) (h : parseIr u ll = .ok items) :
    FilePiece u items ll := parseIr_pieces h

/-- **C54** A statement that contains the word `call` is a call of one of the four kinds, or a comment or
label. -/
theorem C54_call_recorded (u : CharClass) (i r : Str) (st : Stmt) (h : stmtP u i = .ok r st) :
    ∃ x, i = x ++ r ∧ InLine x ∧ (HasWord c!"call" x →
      (∃ s, st = .asm s) ∨ (∃ f, st = .bitcastCall f) ∨ (∃ f, st = .directCall f) ∨
      (∃ sig, st = .indirectCall sig) ∨ (st = .comment ∧ c!";" <+: x) ∨
      (st = .label ∧ ∃ l e, x = l ++ (c!":" ++ e) ∧ LabelText u l)) := by
  obtain ⟨x, hx, hp⟩ := gives_stmtP u i r st h
  refine ⟨x, hx, hp.inLine, fun hw => ?_⟩
  cases st with
  | asm s => exact .inl ⟨s, rfl⟩
  | bitcastCall f => exact .inr (.inl ⟨f, rfl⟩)
  | directCall f => exact .inr (.inr (.inl ⟨f, rfl⟩))
  | indirectCall s => exact .inr (.inr (.inr (.inl ⟨s, rfl⟩)))
  | comment =>
    obtain ⟨e, rfl, _⟩ := hp.comment rfl
    exact .inr (.inr (.inr (.inr (.inl ⟨rfl, List.prefix_append _ _⟩))))
  | label =>
    obtain ⟨l, e, rfl, hl, _⟩ := hp.label rfl
    exact .inr (.inr (.inr (.inr (.inr ⟨rfl, l, e, rfl, hl⟩))))
  | other => exact absurd hw (hp.other rfl).2

/-- **C54** The name in a recorded direct call is written in the statement, between `@` and `(`. -/
theorem C54_direct_name (u : CharClass) (i r name : Str) (h : stmtP u i = .ok r (.directCall name)) :
    ∃ a n b, i = a ++ (c!"@" ++ (n ++ (c!"(" ++ (b ++ r)))) ∧ NameText u name n := by
  obtain ⟨x, rfl, hp⟩ := gives_stmtP u i r _ h
  obtain ⟨a, n, b, rfl, hn⟩ := hp.direct name rfl
  exact ⟨a, n, b, by simp, hn⟩

/-- A call in a form that the tool does not know makes the whole file fail. -/
example : parseIr exClass c!"define void @f() {\n  musttail call void @g()\n  ret void\n}\n" = .errorAt 1 := by
  decide +kernel

/-- The same file without the word is accepted. -/
example : parseIr exClass c!"define void @f() {\n  ret void\n}\n" =
    .ok [.define ⟨c!"f", ⟨[], none⟩, [.other]⟩] := by decide +kernel

/-! ### C57, C58 -/

/-- **C57** A definition is read back: name, signature and statements in order. -/
theorem C57_define_reads_back (u : CharClass) (d : Define) (s : Str) (h : DefineText u d s) (k : Str) :
    defineP u (s ++ k) = .ok k d := h.reads k

/-- **C57** Hence a text is the text of at most one definition. -/
theorem C57_unambiguous (u : CharClass) (d d' : Define) (s : Str) (h : DefineText u d s)
    (h' : DefineText u d' s) : d = d' := by
  have h1 := h.reads []
  rw [h'.reads []] at h1
  injection h1 with _ h1
  exact h1.symm

/-- **C58** A file of well-formed items, with any positive number of line ends between them and any number
at its end, is read as those items in order. -/
theorem C58_module_reads_back (u : CharClass) (items : List Item) (ll : Str) (h : ModuleText u items ll) :
    parseIr u ll = .ok items := h.reads

/-- **C58** Hence a file is the text of at most one list of items. -/
theorem C58_unambiguous (u : CharClass) (items items' : List Item) (ll : Str) (h : ModuleText u items ll)
    (h' : ModuleText u items' ll) : items = items' := by
  have h1 := h.reads
  rw [h'.reads] at h1
  injection h1 with h1
  exact h1.symm

/-- The definition used in the examples. -/
def exDefine : Define :=
  ⟨c!"f", ⟨[.pointer (.integer 8)], some (.integer 32)⟩,
    [.label, .directCall c!"core::g", .indirectCall ⟨[.pointer (.integer 8)], none⟩, .asm c!"nop", .other]⟩

/-- Its text. -/
def exDefineText : Str := c!"define internal i32 @f(i8* noundef %x) #0 {\nstart: ; preds = %a\n  %y = tail call fastcc i32 @\"core::g\"(i8* %x), !dbg !7\n\n  call void %y(i8* null)\n  call void asm sideeffect \"nop\", \"~{memory}\"()\n  ret i32 %y\n}"

/-- `exDefineText` is text of the grammar. -/
theorem exDefineText_text : DefineText exClass exDefine exDefineText := by
  have blank : ∀ {s : Str}, s ≠ [] → s.all (fun c => decide (c = ' ' ∨ c = '\t')) = true → Blanks s :=
    fun h1 h2 => ⟨h1, fun c hc => by simpa using List.all_eq_true.1 h2 c hc⟩
  have oneLine : ∀ {s : Str}, s.all (fun c => decide (c ≠ '\n' ∧ c ≠ '\r')) = true → OneLine s :=
    fun h c hc => by simpa using List.all_eq_true.1 h c hc
  have digits : ∀ {s : Str}, s ≠ [] → s.all (fun c => decide (c ∈ c!"0123456789")) = true → Digits s :=
    fun h1 h2 => ⟨h1, fun c hc => by simpa using List.all_eq_true.1 h2 c hc⟩
  have ident : ∀ {s : Str}, s ≠ [] → s.all (identChar exClass) = true →
      s.head?.all (fun c => decide (c ∉ c!"0123456789")) = true → Ident exClass s :=
    fun h1 h2 h3 => ⟨h1, fun c hc => (identChar_iff _ c).1 (List.all_eq_true.1 h2 c hc), fun c hc => by
      rw [hc] at h3; simpa using h3⟩
  have word : ∀ {s : Str}, s ≠ [] → s.all (wordChar exClass) = true → s ∉ numberAttrs → s ∉ typeAttrs →
      s ≠ c!"align" → s ∉ keywords → AttrText exClass s :=
    fun h1 h2 h3 h4 h5 h6 => .word h1 (fun c hc => (wordChar_iff _ c).1 (List.all_eq_true.1 h2 c hc)) h3 h4 h5 h6
  have dec8 : IsDecimal c!"8" 8 := ((parseDigits_isDecimal (by decide) _).1 (by decide +kernel)).1
  have dec32 : IsDecimal c!"32" 32 := ((parseDigits_isDecimal (by decide) _).1 (by decide +kernel)).1
  have i8 : TyText exClass (.pointer (.integer 8)) c!"i8*" := .pointer (.integer (by decide) dec8)
  have i32 : TyText exClass (.integer 32) c!"i32" := .integer (by decide) dec32
  have sp : Blanks c!" " := blank (by decide) (by decide)
  have sp2 : Blanks c!"  " := blank (by decide) (by decide)
  have nl : Eol c!"\n" := .inl rfl
  have x : LocalText exClass c!"%x" := .plain (ident (by decide) (by decide) (by decide))
  have y : LocalText exClass c!"%y" := .plain (ident (by decide) (by decide) (by decide))
  have label : StmtText exClass .label c!"start: ; preds = %a" :=
    .labelComment (b := c!" ") (e := c!" preds = %a")
      (.plain (ident (s := c!"start") (by decide) (by decide) (by decide))) sp (oneLine (by decide))
  have direct : StmtText exClass (.directCall c!"core::g")
      c!"  %y = tail call fastcc i32 @\"core::g\"(i8* %x), !dbg !7" :=
    .assign sp2 y sp sp (.direct (.tail sp) .call sp
      (.cons (word (s := c!"fastcc") (by decide) (by decide) (by decide) (by decide) (by decide) (by decide)) sp .nil)
      (.some i32) sp (.quoted (name := c!"core::g") (by decide)) (e := c!"i8* %x), !dbg !7") (oneLine (by decide)))
  have indirect : StmtText exClass (.indirectCall ⟨[.pointer (.integer 8)], none⟩) c!"  call void %y(i8* null)" :=
    .instr sp2 (by decide) (.indirect .nil .call sp .nil .void sp y (.one (.mk i8 sp .nil .null)) (e := [])
      (oneLine (by decide)))
  have asm : StmtText exClass (.asm c!"nop") c!"  call void asm sideeffect \"nop\", \"~{memory}\"()" :=
    .instr sp2 (by decide) (.asm .nil sp .void sp sp
      (.cons (ident (s := c!"sideeffect") (by decide) (by decide) (by decide)) sp .nil) (by decide)
      (e := c!", \"~{memory}\"()") (oneLine (by decide)))
  have noWord : ∀ {w s : Str}, ¬ w <:+: s → ¬ HasWord w s := fun h ⟨a, b, hs, _⟩ => h ⟨a, b, by simp [hs]⟩
  have other : StmtText exClass .other c!"  ret i32 %y" :=
    .instr sp2 (by decide) (.other ⟨by decide, oneLine (by decide), by decide, by decide, noWord (by decide),
      noWord (by decide), fun ⟨a, n, b, h, _⟩ => absurd (h ▸ by simp : '(' ∈ c!"ret i32 %y") (by decide), by decide⟩)
  exact .mk (u := exClass) sp
    (.cons (word (s := c!"internal") (by decide) (by decide) (by decide) (by decide) (by decide) (by decide)) sp .nil)
    (.some i32) sp (.plain (ident (s := c!"f") (by decide) (by decide) (by decide)))
    (.one (.named i8 (.cons sp
      (word (s := c!"noundef") (by decide) (by decide) (by decide) (by decide) (by decide) (by decide)) .nil) sp
      (.plain (ident (s := c!"x") (by decide) (by decide) (by decide)))))
    (e := c!" #0 {") (oneLine (by decide)) nl
    (.cons label (.one nl) (.cons direct (.cons nl (.one nl)) (.cons indirect (.one nl)
      (.cons asm (.one nl) (.one other))))) nl

/-- A module with this definition, in two lines of other kinds and with blank lines. -/
theorem exModuleText_text : ModuleText exClass
    [.comment, .define exDefine, .declare ⟨c!"llvm.trap", none⟩, .attributes]
    (c!"; ModuleID\r\n\n" ++ (exDefineText ++
      c!"\n\ndeclare void @llvm.trap() #1\nattributes #0 = { nounwind }\n\n")) := by
  have sp : Blanks c!" " := ⟨by decide, by decide⟩
  have oneLine : ∀ {s : Str}, s.all (fun c => decide (c ≠ '\n' ∧ c ≠ '\r')) = true → OneLine s :=
    fun h c hc => by simpa using List.all_eq_true.1 h c hc
  have nl : Eol c!"\n" := .inl rfl
  have ident : Ident exClass c!"llvm.trap" :=
    ⟨by decide, fun c hc => (identChar_iff _ c).1 (List.all_eq_true.1 (by decide) c hc), by decide⟩
  have h := ModuleText.itemsEol
    (.cons (.comment (e := c!" ModuleID") (oneLine (by decide))) (.cons (.inr rfl : Eol c!"\r\n") (.one nl))
      (.cons (.define exDefineText_text) (.cons nl (.one nl))
        (.cons (.declare (.intrinsic sp .nil .void sp (.plain ident) (by decide) (e := c!") #1") (oneLine (by decide))))
          (.one nl) (.one (.attributes sp (e := c!"0 = { nounwind }") (oneLine (by decide)))))))
    (.cons nl (.one nl))
  simpa only [List.append_assoc, List.cons_append, List.nil_append] using h

/-- The module is read. -/
example : parseIr exClass (c!"; ModuleID\r\n\n" ++ (exDefineText ++
      c!"\n\ndeclare void @llvm.trap() #1\nattributes #0 = { nounwind }\n\n")) =
    .ok [.comment, .define exDefine, .declare ⟨c!"llvm.trap", none⟩, .attributes] :=
  C58_module_reads_back _ _ _ exModuleText_text

/-! ### C70 -/

/-- **C70** does not hold: an `invoke` of a casted function, which LLVM allows like a `call` of one, is taken
for an instruction without interest; so is an `invoke` with an attribute the tool does not know. The file is
accepted and no call is recorded. -/
theorem C70_invoke_dropped :
    parseIr exClass c!"define void @f() {\n  invoke void bitcast (i8 ()* @g to void ()*)()\n          to label %a unwind label %b\n}\n" =
      .ok [.define ⟨c!"f", ⟨[], none⟩, [.other, .other]⟩] ∧
    parseIr exClass c!"define void @f() {\n  invoke addrspace(1) void @g()\n          to label %a unwind label %b\n}\n" =
      .ok [.define ⟨c!"f", ⟨[], none⟩, [.other, .other]⟩] := by decide +kernel

/-- **C70** does not hold for inline assembly, either: assembly that may unwind is written with `invoke` and
assembly that may jump with `callbr`. Both are taken for instructions without interest, so that the function
counts as one without inline assembly; the same piece after `call` is recorded. -/
theorem C70_assembly_dropped :
    parseIr exClass c!"define void @f() {\n  invoke void asm sideeffect unwind \"push {r0}\", \"\"()\n          to label %a unwind label %b\n}\n" =
      .ok [.define ⟨c!"f", ⟨[], none⟩, [.other, .other]⟩] ∧
    parseIr exClass c!"define void @f() {\n  callbr void asm sideeffect \"push {r0}\", \"!i\"()\n          to label %a [label %b]\n}\n" =
      .ok [.define ⟨c!"f", ⟨[], none⟩, [.other, .other]⟩] ∧
    parseIr exClass c!"define void @f() {\n  call void asm sideeffect \"push {r0}\", \"\"()\n  ret void\n}\n" =
      .ok [.define ⟨c!"f", ⟨[], none⟩, [.asm c!"push {r0}", .other]⟩] := by decide +kernel

/-- **C70** A `tail call`, `call` or `invoke` written as the tool expects is recorded, direct calls with
their name and indirect calls with their signature. Missing: other ways to write an `invoke`
(`C70_invoke_dropped`). -/
theorem C70_invoke_recorded_partial (u : CharClass) (b a b1 o b2 e k : Str) (out : Option Ty)
    (hb : Blanks b) (hb1 : Blanks b1) (ha : AttrsText u a) (ho : OutText u out o) (hb2 : Blanks b2)
    (he : OneLine e) (hk : k = [] ∨ ∃ l k', Eol l ∧ k = l ++ k') :
    (∀ name n, NameText u name n →
      stmtP u (b ++ (c!"invoke" ++ (b1 ++ (a ++ (o ++ (b2 ++ (c!"@" ++ (n ++ (c!"(" ++ (e ++ k)))))))))) =
        .ok k (.directCall name)) ∧
    ∀ l ins s, LocalText u l → ListText (ArgText u) ins s →
      stmtP u (b ++ (c!"invoke" ++ (b1 ++ (a ++ (o ++ (b2 ++ (l ++ (c!"(" ++ (s ++ (c!")" ++ (e ++ k))))))))))) =
        .ok k (.indirectCall ⟨ins, out⟩) := by
  constructor
  · intro name n hn
    have h := (StmtText.instr hb (by simp) (.direct .nil .invoke hb1 ha ho hb2 hn he)).reads hk
    simpa only [List.append_assoc, List.nil_append] using h
  · intro l ins s hl hs
    have h := (StmtText.instr hb (by simp) (.indirect .nil .invoke hb1 ha ho hb2 hl hs he)).reads hk
    simpa only [List.append_assoc, List.nil_append] using h

end CallStack
