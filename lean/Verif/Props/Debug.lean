import Verif.Lemmas.Debug

/-! **C81** The texts of `Debug`. -/

namespace Verif
open Spec

/-- **C81** The `Debug` text of a string or character is a Rust literal for it, and a literal stands for one string or character only. -/
theorem C81_literal (plain : Char → Bool) :
    (∀ s, StringLiteral (strDebug plain s) s) ∧ (∀ t s s', StringLiteral t s → StringLiteral t s' → s = s') ∧
    (∀ c, CharLiteral (charDebug plain c) c) ∧ ∀ t c c', CharLiteral t c → CharLiteral t c' → c = c' := by
  refine ⟨fun s => ⟨_, quoted_flatMap plain (.inl rfl) s, rfl⟩, ?_, fun c => ⟨_, quoted_flatMap plain (.inr rfl) [c], by simp [charDebug]⟩, ?_⟩
  · rintro t s s' ⟨t1, h1, rfl⟩ ⟨t2, h2, e⟩
    exact (quoted_unique (by decide) h1 h2 (List.cons.inj e).2).2.1
  · rintro t c c' ⟨t1, h1, rfl⟩ ⟨t2, h2, e⟩
    exact (List.cons.inj (quoted_unique (by decide) h1 h2 (List.cons.inj e).2).2.1).1

/-- **C81** Notes, comments, messages, plural sets, plural forms and lines with the same `Debug` text are the same. -/
theorem C81_data (plain : Char → Bool) :
    (∀ a b : Note, a.debug plain = b.debug plain → a = b) ∧ (∀ a b : Comment, a.debug plain = b.debug plain → a = b) ∧
    (∀ a b : Message, a.debug plain = b.debug plain → a = b) ∧ (∀ a b : Plural, a.debug plain = b.debug plain → a = b) ∧
    (∀ a b : PluralForms, a.debug plain = b.debug plain → a = b) ∧ ∀ a b : PoLine, a.debug plain = b.debug plain → a = b :=
  ⟨fun _ _ => (note_code plain).inj, fun _ _ => (comment_code plain).inj, fun _ _ => (message_code plain).inj, fun _ _ => (plural_code plain).inj,
    fun _ _ => (forms_code plain).inj, fun _ _ => (line_code plain).inj⟩

/-- **C81** Units with the same `Debug` text have the same flags, and are the same in everything else.  The flags may be shown in any order. -/
theorem C81_unit (plain : Char → Bool) (u v : PoUnit) (fs gs : List Str) (hf : fs.Perm u.flags) (hg : gs.Perm v.flags) (h : u.debug plain fs = v.debug plain gs) :
    u.flags.Perm v.flags ∧ { u with flags := [] } = { v with flags := [] } := by
  obtain ⟨h1, h2⟩ := unit_debug h
  subst h1
  exact ⟨hf.symm.trans hg, h2⟩

/-- **C81** `Debug` texts are on one line, and all their characters are printable if the table shows only printable ones. -/
theorem C81_shows (plain : Char → Bool) :
    (∀ a : Note, Shows plain (a.debug plain)) ∧ (∀ a : Comment, Shows plain (a.debug plain)) ∧ (∀ a : Message, Shows plain (a.debug plain)) ∧
    (∀ a : Plural, Shows plain (a.debug plain)) ∧ (∀ a : PluralForms, Shows plain (a.debug plain)) ∧ (∀ a : PoLine, Shows plain (a.debug plain)) ∧ ∀ (u : PoUnit) (fs : List Str), Shows plain (u.debug plain fs) :=
  ⟨shows_note, shows_comment, shows_message, shows_plural, shows_forms, shows_line, fun u fs => shows_unit fs u⟩

/-- The table for ASCII. -/
def asciiPlain (c : Char) : Bool := decide (32 ≤ c.toNat ∧ c.toNat < 127)

-- src/note.rs:40-48, src/comment.rs, src/enums/origin.rs:18-23, src/enums/state.rs:36-39
example : (Note.mk .translator (c!"message")).debug asciiPlain = c!"Note { origin: Translator, value: \"message\" }" := by decide
example : (Comment.mk 'X' (c!"Comment")).debug asciiPlain = c!"Comment { kind: 'X', content: \"Comment\" }" := by decide
example : State.debug .empty = c!"Empty" ∧ Origin.debug .developer = c!"Developer" := by decide

-- src/unit.rs:343-361, src/enums/message.rs:125, src/po/line.rs:66
example : PoUnit.default.debug asciiPlain [] = c!"Unit { context: None, message: Simple { id: \"\", text: None }, prev_context: None, prev_message: Simple { id: \"\", text: None }, flags: {}, notes: [], locations: [], comments: [], state: Empty, obsolete: false }" := by
  decide +kernel
example : (Message.simple (c!"id") none).debug asciiPlain = c!"Simple { id: \"id\", text: None }" ∧ PoLine.blank.debug asciiPlain = c!"Blank" := by decide
-- src/plural/formula/node.rs:384-419
example : Node.var.debug = c!"Var" ∧ (Node.num 0).debug = c!"Num(0)" ∧ (Node.unop .not .var).debug = c!"UnOp { op: Not, rhs: Var }" ∧
    (Node.binop .add .var .var).debug = c!"BinOp { op: Add, lhs: Var, rhs: Var }" ∧
    (Node.cond .var .var .var).debug = c!"Cond { test: Var, if_true: Var, if_false: Var }" := by decide +kernel

-- escapes
example : strDebug asciiPlain (c!"a\"'\n\\é") = c!"\"a\\\"'\\n\\\\\\u{e9}\"" := by decide
example : charDebug asciiPlain '\'' = c!"'\\''" := by decide
example : StringLiteral (c!"\"\\u{e9}\\t\"") (c!"é\t") :=
  ⟨c!"\\u{e9}\\t", .unicode (ds := c!"e9") (by decide) (by decide) (by decide) (.escape (by decide) .nil), by decide⟩

-- a unit
example : ({ PoUnit.default with message := .plural ⟨c!"a", c!"b", [c!"x", c!"y"], some ⟨.binop .ne .var (.num 1), 2, c!"d", c!"n!=1"⟩⟩, flags := [c!"f", c!"g"] } : PoUnit).debug asciiPlain [c!"g", c!"f"] =
    c!"Unit { context: None, message: Plural(Plural { forms: Some(PluralForms { formula: Formula { expr: BinOp { op: Ne, lhs: Var, rhs: Num(1) } }, count: 2, definition: \"d\", formula_source: \"n!=1\" }), singular: \"a\", plural: \"b\", values: [\"x\", \"y\"] }), prev_context: None, prev_message: Simple { id: \"\", text: None }, flags: {\"g\", \"f\"}, notes: [], locations: [], comments: [], state: Empty, obsolete: false }" := by
  decide +kernel

-- `C81_unit`: the flags may be shown in another order
example := C81_unit asciiPlain { PoUnit.default with flags := [c!"f", c!"g"] } { PoUnit.default with flags := [c!"g", c!"f"] } [c!"g", c!"f"] [c!"g", c!"f"]
  (.swap _ _ _) (.refl _) rfl

end Verif
