import Verif.Spec.DebugTree
import Verif.Props.Debug

/-! **C81** The texts of `Debug` follow the declarations. -/

namespace Verif
open Spec

theorem text_word (t : Str) : Shape.text (.word t) = t := by rw [Shape.text]
theorem text_tuple (name : Str) (as : List Shape) : Shape.text (.tuple name as) = name ++ c!"(" ++ commas (as.map Shape.text) ++ c!")" := by
  rw [Shape.text, List.attach_map_val (f := Shape.text)]
theorem text_record (name : Str) (fs : List (Str × Shape)) :
    Shape.text (.record name fs) = name ++ c!" { " ++ commas (fs.map fun f => f.1 ++ c!": " ++ f.2.text) ++ c!" }" := by
  rw [Shape.text, List.attach_map_val (f := fun f : Str × Shape => f.1 ++ c!": " ++ f.2.text)]
theorem text_list (as : List Shape) : Shape.text (.list as) = c!"[" ++ commas (as.map Shape.text) ++ c!"]" := by
  rw [Shape.text, List.attach_map_val (f := Shape.text)]
theorem text_set (as : List Shape) : Shape.text (.set as) = c!"{" ++ commas (as.map Shape.text) ++ c!"}" := by
  rw [Shape.text, List.attach_map_val (f := Shape.text)]

theorem commas_nil : commas [] = [] := rfl
theorem commas_one (t : Str) : commas [t] = t := by simp [commas, List.intercalate]
theorem commas_cons (t t' : Str) (ts : List Str) : commas (t :: t' :: ts) = t ++ c!", " ++ commas (t' :: ts) := by
  simp [commas, List.intercalate, List.intersperse]

theorem numberWord_nat (n : Nat) : (numberWord n).text = dec n := by
  rw [numberWord, text_word]
  show (Nat.repr n).toList = _
  simp [Nat.repr, dec]

theorem numberWord_int (v : Int64) : (numberWord v.toInt).text = intDebug v := by
  rw [numberWord, text_word, intDebug]
  generalize v.toInt = i
  cases i with
  | ofNat n =>
    rw [if_neg (by simp)]
    show (Nat.repr n).toList = dec n
    simp [Nat.repr, dec]
  | negSucc n =>
    rw [if_pos (Int.negSucc_lt_zero n)]
    show ("-" ++ Nat.repr (n + 1)).toList = '-' :: dec (n + 1)
    simp [Nat.repr, dec]

theorem items_text {α : Type} {f : α → Str} {g : α → Shape} (h : ∀ a, (g a).text = f a) (as : List α) : commas ((as.map g).map Shape.text) = itemsDebug f as := by
  induction as with
  | nil => rfl
  | cons a as ih =>
    cases as with
    | nil => simp only [List.map_cons, List.map_nil, commas_one, h, itemsDebug]
    | cons b as =>
      simp only [List.map_cons] at ih ⊢
      rw [commas_cons, ih, h]; rfl

theorem opt_text {α : Type} {f : α → Str} {g : α → Shape} (h : ∀ a, (g a).text = f a) (a : Option α) : (optTree (a.map g)).text = optDebug f a := by
  cases a with
  | none => rw [Option.map_none, optTree, text_word]; rfl
  | some a => rw [Option.map_some, optTree, text_tuple, List.map_singleton, commas_one, h]; rfl

theorem node_text (t : Node) : (nodeTree t).text = t.debug := by
  induction t with
  | var => rw [nodeTree, text_word]; rfl
  | num v => rw [nodeTree, text_tuple, List.map_singleton, commas_one, numberWord_int]; rfl
  | unop op r ih =>
    rw [nodeTree, text_record]
    cases op <;> simp [commas_cons, commas_one, ih, text_word, unOpName, Node.debug, UnOp.debug]
  | binop op l r ihl ihr =>
    rw [nodeTree, text_record]
    cases op <;> simp [commas_cons, commas_one, ihl, ihr, text_word, binOpName, Node.debug, BinOp.debug]
  | cond t a b iht iha ihb =>
    rw [nodeTree, text_record]
    simp [commas_cons, commas_one, iht, iha, ihb, Node.debug]

section
variable (plain : Char → Bool)

/-- A string as a literal. -/
def strTree (s : Str) : Shape := .word (strDebug plain s)
/-- A character as a literal. -/
def chrTree (c : Char) : Shape := .word (charDebug plain c)

theorem str_text (s : Str) : (strTree plain s).text = strDebug plain s := text_word _
theorem chr_text (c : Char) : (chrTree plain c).text = charDebug plain c := text_word _

theorem forms_text (f : PluralForms) : (formsTree (strTree plain) f).text = f.debug plain := by
  simp [formsTree, text_record, commas_cons, commas_one, str_text, node_text, numberWord_nat, PluralForms.debug]

theorem plural_text (p : Plural) : (pluralTree (strTree plain) p).text = p.debug plain := by
  simp [pluralTree, text_record, commas_cons, commas_one, str_text, Plural.debug, opt_text (forms_text plain), text_list, items_text (str_text plain), listDebug,
    -List.map_map]

theorem message_text (m : Message) : (messageTree (strTree plain) m).text = m.debug plain := by
  cases m with
  | simple id text => simp [messageTree, text_record, commas_cons, commas_one, str_text, Message.debug, opt_text (str_text plain)]
  | plural p => simp [messageTree, text_tuple, commas_one, plural_text, Message.debug]

theorem note_text (n : Note) : (noteTree (strTree plain) n).text = n.debug plain := by
  rcases n with ⟨_ | _, v⟩ <;> simp [noteTree, text_record, commas_cons, commas_one, str_text, text_word, Note.debug, originName, Origin.debug]

theorem comment_text (c : Comment) : (commentTree (strTree plain) (chrTree plain) c).text = c.debug plain := by
  simp [commentTree, text_record, commas_cons, commas_one, str_text, chr_text, Comment.debug]

theorem line_text (l : PoLine) : (lineTree (strTree plain) (chrTree plain) l).text = l.debug plain := by
  cases l <;> simp [lineTree, text_word, text_tuple, commas_cons, commas_one, str_text, chr_text, numberWord_nat, PoLine.debug]

theorem unit_text (flags : List Str) (u : PoUnit) : (unitTree (strTree plain) (chrTree plain) flags u).text = u.debug plain flags := by
  have hb : (boolTree u.obsolete).text = boolDebug u.obsolete := by cases u.obsolete <;> simp [boolTree, text_word, boolDebug]
  have hs : stateName u.state = u.state.debug := by cases u.state <;> rfl
  delta unitTree PoUnit.debug
  rw [text_record]
  simp only [List.map_cons, List.map_nil, commas_cons, commas_one, opt_text (str_text plain), message_text, text_set, text_list, text_word,
    items_text (str_text plain), items_text (note_text plain), items_text (comment_text plain), listDebug, setDebug, hb, hs]
  generalize optDebug (strDebug plain) u.context = a1
  generalize u.message.debug plain = a2
  generalize optDebug (strDebug plain) u.prevContext = a3
  generalize u.prevMessage.debug plain = a4
  generalize itemsDebug (strDebug plain) flags = a5
  generalize itemsDebug (Note.debug plain) u.notes = a6
  generalize itemsDebug (strDebug plain) u.locations = a7
  generalize itemsDebug (Comment.debug plain) u.comments = a8
  generalize u.state.debug = a9
  generalize boolDebug u.obsolete = a10
  simp only [List.append_assoc, List.cons_append, List.nil_append]

end

/-- **C81** The `Debug` texts are those of the declarations: the names of the types, variants and fields, with the fields in their order and strings and
characters as literals (`C81_literal`). -/
theorem C81_declared (plain : Char → Bool) :
    (∀ n : Note, n.debug plain = (noteTree (strTree plain) n).text) ∧
    (∀ c : Comment, c.debug plain = (commentTree (strTree plain) (chrTree plain) c).text) ∧
    (∀ m : Message, m.debug plain = (messageTree (strTree plain) m).text) ∧
    (∀ p : Plural, p.debug plain = (pluralTree (strTree plain) p).text) ∧
    (∀ f : PluralForms, f.debug plain = (formsTree (strTree plain) f).text) ∧
    (∀ l : PoLine, l.debug plain = (lineTree (strTree plain) (chrTree plain) l).text) ∧
    ∀ (u : PoUnit) (flags : List Str), u.debug plain flags = (unitTree (strTree plain) (chrTree plain) flags u).text :=
  ⟨fun n => (note_text plain n).symm, fun c => (comment_text plain c).symm, fun m => (message_text plain m).symm, fun p => (plural_text plain p).symm,
    fun f => (forms_text plain f).symm, fun l => (line_text plain l).symm, fun u flags => (unit_text plain flags u).symm⟩

/-- **C81** Only the quotation mark in use, the backslash, the four control characters with an escape of their own and the characters that the table does not
show are escaped. -/
theorem C81_plain (plain : Char → Bool) :
    (∀ s : Str, (∀ c ∈ s, plain c = true ∧ c ∉ ['\x00', '\t', '\r', '\n', '\\', '"']) → strDebug plain s = '"' :: s ++ ['"']) ∧
    ∀ c : Char, plain c = true → c ∉ ['\x00', '\t', '\r', '\n', '\\', '\''] → charDebug plain c = ['\'', c, '\''] := by
  have key : ∀ q c : Char, plain c = true → c ∉ ['\x00', '\t', '\r', '\n', '\\', q] → escapeDebug plain q c = [c] := by
    intro q c h1 h2
    simp only [List.mem_cons, List.not_mem_nil, or_false, not_or] at h2
    obtain ⟨h3, h4, h5, h6, h7, h8⟩ := h2
    rw [escapeDebug, if_neg h3, if_neg h4, if_neg h5, if_neg h6, if_neg h7, if_neg h8, if_pos h1]
  refine ⟨fun s h => ?_, fun c h1 h2 => by rw [charDebug, key _ _ h1 h2]; rfl⟩
  rw [strDebug]
  congr 2
  induction s with
  | nil => rfl
  | cons c s ih =>
    rw [List.flatMap_cons, ih fun x hx => h x (List.mem_cons_of_mem _ hx), key _ _ (h c (by simp)).1 (h c (by simp)).2]; rfl

example : strDebug asciiPlain (c!"it's") = c!"\"it's\"" ∧ charDebug asciiPlain '"' = c!"'\"'" := by decide

-- a formula with a negative number: `-(n - 1)` written out
example : (nodeTree (.unop .neg (.binop .sub .var (.num (-1))))).text = c!"UnOp { op: Neg, rhs: BinOp { op: Sub, lhs: Var, rhs: Num(-1) } }" := by
  rw [node_text]; decide +kernel

end Verif
