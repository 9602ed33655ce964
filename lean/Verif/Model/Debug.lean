import Verif.Model.Data

/-! Model of `format!("{:?}", ..)` for the data types with a derived `Debug`: src/note.rs:6, src/comment.rs:1, src/unit.rs:19, src/enums, src/plural, src/po/line.rs:1.

The derived implementations write the name of the type or variant and the fields in the order of their declaration; `Option`, `Vec`, `HashSet`, `Rc`, `Box` and
the primitive types are those of std.  The table by which std decides which characters are shown by themselves is the parameter `plain`; the characters
with an escape of their own are never looked up. -/

namespace Verif

/-- A character in a quoted text (std, `char::escape_debug_ext`); `quote` is the quotation mark in use. -/
def escapeDebug (plain : Char → Bool) (quote c : Char) : Str :=
  if c = '\x00' then c!"\\0"
  else if c = '\t' then c!"\\t"
  else if c = '\r' then c!"\\r"
  else if c = '\n' then c!"\\n"
  else if c = '\\' then c!"\\\\"
  else if c = quote then ['\\', quote]
  else if plain c then [c]
  else c!"\\u{" ++ Nat.toDigits 16 c.toNat ++ c!"}"

/-- `Debug` of `String` (std). -/
def strDebug (plain : Char → Bool) (s : Str) : Str := '"' :: s.flatMap (escapeDebug plain '"') ++ ['"']

/-- `Debug` of `char` (std). -/
def charDebug (plain : Char → Bool) (c : Char) : Str := '\'' :: escapeDebug plain '\'' c ++ ['\'']

/-- `Debug` of `i64` (std). -/
def intDebug (v : Int64) : Str := if v.toInt < 0 then '-' :: dec v.toInt.natAbs else dec v.toInt.natAbs

/-- `Debug` of `bool` (std). -/
def boolDebug : Bool → Str
  | true => c!"true"
  | false => c!"false"

/-- `Debug` of `Option` (std). -/
def optDebug {α : Type} (f : α → Str) : Option α → Str
  | none => c!"None"
  | some a => c!"Some(" ++ f a ++ c!")"

/-- The elements of a list or set, separated (std). -/
def itemsDebug {α : Type} (f : α → Str) : List α → Str
  | [] => []
  | [a] => f a
  | a :: as => f a ++ c!", " ++ itemsDebug f as

/-- `Debug` of `Vec` (std). -/
def listDebug {α : Type} (f : α → Str) (as : List α) : Str := c!"[" ++ itemsDebug f as ++ c!"]"

/-- `Debug` of `HashSet` (std), in the order in which it is iterated. -/
def setDebug {α : Type} (f : α → Str) (as : List α) : Str := c!"{" ++ itemsDebug f as ++ c!"}"

/-- `UnOp`, src/plural/formula/node.rs:1-5. -/
def UnOp.debug : UnOp → Str
  | .neg => c!"Neg"
  | .not => c!"Not"

/-- `BinOp`, src/plural/formula/node.rs:7-22. -/
def BinOp.debug : BinOp → Str
  | .add => c!"Add" | .sub => c!"Sub" | .mul => c!"Mul" | .div => c!"Div" | .mod => c!"Mod" | .and => c!"And" | .or => c!"Or"
  | .eq => c!"Eq" | .ne => c!"Ne" | .lt => c!"Lt" | .lte => c!"Lte" | .gt => c!"Gt" | .gte => c!"Gte"

/-- `Node`, src/plural/formula/node.rs:42-60. -/
def Node.debug : Node → Str
  | .var => c!"Var"
  | .num v => c!"Num(" ++ intDebug v ++ c!")"
  | .unop op r => c!"UnOp { op: " ++ op.debug ++ c!", rhs: " ++ r.debug ++ c!" }"
  | .binop op l r => c!"BinOp { op: " ++ op.debug ++ c!", lhs: " ++ l.debug ++ c!", rhs: " ++ r.debug ++ c!" }"
  | .cond t a b => c!"Cond { test: " ++ t.debug ++ c!", if_true: " ++ a.debug ++ c!", if_false: " ++ b.debug ++ c!" }"

/-- `PluralForms` with `Formula`, src/plural/forms.rs:5-11, src/plural/formula/mod.rs:8-11. -/
def PluralForms.debug (plain : Char → Bool) (f : PluralForms) : Str :=
  c!"PluralForms { formula: Formula { expr: " ++ f.formula.debug ++ c!" }, count: " ++ dec f.count ++ c!", definition: " ++ strDebug plain f.definition ++
    c!", formula_source: " ++ strDebug plain f.formulaSource ++ c!" }"

/-- `Plural`, src/plural/plural.rs:5-11. -/
def Plural.debug (plain : Char → Bool) (p : Plural) : Str :=
  c!"Plural { forms: " ++ optDebug (PluralForms.debug plain) p.forms ++ c!", singular: " ++ strDebug plain p.singular ++ c!", plural: " ++ strDebug plain p.plural ++
    c!", values: " ++ listDebug (strDebug plain) p.values ++ c!" }"

/-- `Message`, src/enums/message.rs:6-13. -/
def Message.debug (plain : Char → Bool) : Message → Str
  | .simple id text => c!"Simple { id: " ++ strDebug plain id ++ c!", text: " ++ optDebug (strDebug plain) text ++ c!" }"
  | .plural p => c!"Plural(" ++ p.debug plain ++ c!")"

/-- `Origin`, src/enums/origin.rs:2-9. -/
def Origin.debug : Origin → Str
  | .developer => c!"Developer"
  | .translator => c!"Translator"

/-- `State`, src/enums/state.rs:7-16. -/
def State.debug : State → Str
  | .empty => c!"Empty"
  | .needsWork => c!"NeedsWork"
  | .final => c!"Final"

/-- `Note`, src/note.rs:6-10. -/
def Note.debug (plain : Char → Bool) (n : Note) : Str := c!"Note { origin: " ++ n.origin.debug ++ c!", value: " ++ strDebug plain n.value ++ c!" }"

/-- `Comment`, src/comment.rs:1-5. -/
def Comment.debug (plain : Char → Bool) (c : Comment) : Str :=
  c!"Comment { kind: " ++ charDebug plain c.kind ++ c!", content: " ++ strDebug plain c.content ++ c!" }"

/-- `PoLine`, src/po/line.rs:1-13. -/
def PoLine.debug (plain : Char → Bool) : PoLine → Str
  | .blank => c!"Blank"
  | .comment n k s => c!"Comment(" ++ dec n ++ c!", " ++ charDebug plain k ++ c!", " ++ strDebug plain s ++ c!")"
  | .message n f t s => c!"Message(" ++ dec n ++ c!", " ++ strDebug plain f ++ c!", " ++ strDebug plain t ++ c!", " ++ strDebug plain s ++ c!")"
  | .continuation n f s => c!"Continuation(" ++ dec n ++ c!", " ++ strDebug plain f ++ c!", " ++ strDebug plain s ++ c!")"

/-- `Unit`, src/unit.rs:19-31; `flags` is the order in which the set of flags is iterated. -/
def PoUnit.debug (plain : Char → Bool) (flags : List Str) (u : PoUnit) : Str :=
  c!"Unit { context: " ++ optDebug (strDebug plain) u.context ++ c!", message: " ++ u.message.debug plain ++ c!", prev_context: " ++
    optDebug (strDebug plain) u.prevContext ++ c!", prev_message: " ++ u.prevMessage.debug plain ++ c!", flags: " ++ setDebug (strDebug plain) flags ++
    c!", notes: " ++ listDebug (Note.debug plain) u.notes ++ c!", locations: " ++ listDebug (strDebug plain) u.locations ++ c!", comments: " ++
    listDebug (Comment.debug plain) u.comments ++ c!", state: " ++ u.state.debug ++ c!", obsolete: " ++ boolDebug u.obsolete ++ c!" }"

end Verif
