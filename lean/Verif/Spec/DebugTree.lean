import Verif.Model.Data

/-! The general shape of the texts of a derived `Debug`, and the declarations of the data types: names of types, variants and fields in their order. -/

namespace Verif.Spec

/-- A value as `Debug` sees it. -/
inductive Shape where
  /-- a literal, or a variant without fields -/
  | word (t : Str)
  /-- a variant with unnamed fields -/
  | tuple (name : Str) (args : List Shape)
  /-- a struct, or a variant with named fields -/
  | record (name : Str) (fields : List (Str × Shape))
  | list (elems : List Shape)
  | set (elems : List Shape)

/-- Texts with separators in between. -/
def commas (ts : List Str) : Str := List.intercalate (c!", ") ts

/-- `name(a, b)`, `Name { f: a, g: b }`, `[a, b]`, `{a, b}`. -/
def Shape.text : Shape → Str
  | .word t => t
  | .tuple name args => name ++ c!"(" ++ commas (args.attach.map fun a => a.1.text) ++ c!")"
  | .record name fields => name ++ c!" { " ++ commas (fields.attach.map fun f => f.1.1 ++ c!": " ++ f.1.2.text) ++ c!" }"
  | .list es => c!"[" ++ commas (es.attach.map fun a => a.1.text) ++ c!"]"
  | .set es => c!"{" ++ commas (es.attach.map fun a => a.1.text) ++ c!"}"
termination_by t => sizeOf t
decreasing_by
  all_goals simp_wf
  · have := List.sizeOf_lt_of_mem a.2; omega
  · have h1 := List.sizeOf_lt_of_mem f.2
    have h2 : sizeOf f.1.2 < sizeOf f.1 := by rcases f.1 with ⟨x, y⟩; simp; omega
    omega
  · have := List.sizeOf_lt_of_mem a.2; omega
  · have := List.sizeOf_lt_of_mem a.2; omega

/-- A number in decimal. -/
def numberWord (v : Int) : Shape := .word (toString v).toList

/-- `Option`. -/
def optTree : Option Shape → Shape
  | none => .word (c!"None")
  | some t => .tuple (c!"Some") [t]

/-- A truth value. -/
def boolTree (b : Bool) : Shape := .word (if b then c!"true" else c!"false")

/-- The name of an operator. -/
def unOpName : UnOp → Str
  | .neg => c!"Neg"
  | .not => c!"Not"

/-- The name of an operator. -/
def binOpName : BinOp → Str
  | .add => c!"Add"
  | .sub => c!"Sub"
  | .mul => c!"Mul"
  | .div => c!"Div"
  | .mod => c!"Mod"
  | .and => c!"And"
  | .or => c!"Or"
  | .eq => c!"Eq"
  | .ne => c!"Ne"
  | .lt => c!"Lt"
  | .lte => c!"Lte"
  | .gt => c!"Gt"
  | .gte => c!"Gte"

/-- The name of a state. -/
def stateName : State → Str
  | .empty => c!"Empty"
  | .needsWork => c!"NeedsWork"
  | .final => c!"Final"

/-- The name of an origin. -/
def originName : Origin → Str
  | .developer => c!"Developer"
  | .translator => c!"Translator"

/-- A formula. -/
def nodeTree : Node → Shape
  | .var => .word (c!"Var")
  | .num v => .tuple (c!"Num") [numberWord v.toInt]
  | .unop op r => .record (c!"UnOp") [(c!"op", .word (unOpName op)), (c!"rhs", nodeTree r)]
  | .binop op l r => .record (c!"BinOp") [(c!"op", .word (binOpName op)), (c!"lhs", nodeTree l), (c!"rhs", nodeTree r)]
  | .cond t a b => .record (c!"Cond") [(c!"test", nodeTree t), (c!"if_true", nodeTree a), (c!"if_false", nodeTree b)]

section
-- how strings and characters are written
variable (str : Str → Shape) (chr : Char → Shape)

/-- Plural forms. -/
def formsTree (f : PluralForms) : Shape :=
  .record (c!"PluralForms") [(c!"formula", .record (c!"Formula") [(c!"expr", nodeTree f.formula)]), (c!"count", numberWord f.count), (c!"definition", str f.definition),
    (c!"formula_source", str f.formulaSource)]

/-- A set of plural texts. -/
def pluralTree (p : Plural) : Shape :=
  .record (c!"Plural") [(c!"forms", optTree (p.forms.map (formsTree str))), (c!"singular", str p.singular), (c!"plural", str p.plural),
    (c!"values", .list (p.values.map str))]

/-- A message. -/
def messageTree : Message → Shape
  | .simple id text => .record (c!"Simple") [(c!"id", str id), (c!"text", optTree (text.map str))]
  | .plural p => .tuple (c!"Plural") [pluralTree str p]

/-- A note. -/
def noteTree (n : Note) : Shape :=
  .record (c!"Note") [(c!"origin", .word (originName n.origin)), (c!"value", str n.value)]

/-- A comment. -/
def commentTree (c : Comment) : Shape := .record (c!"Comment") [(c!"kind", chr c.kind), (c!"content", str c.content)]

/-- A line. -/
def lineTree : PoLine → Shape
  | .blank => .word (c!"Blank")
  | .comment n k s => .tuple (c!"Comment") [numberWord n, chr k, str s]
  | .message n m k s => .tuple (c!"Message") [numberWord n, str m, str k, str s]
  | .continuation n m s => .tuple (c!"Continuation") [numberWord n, str m, str s]

/-- A unit whose flags are iterated in the order `flags`. -/
def unitTree (flags : List Str) (u : PoUnit) : Shape :=
  .record (c!"Unit") [(c!"context", optTree (u.context.map str)), (c!"message", messageTree str u.message), (c!"prev_context", optTree (u.prevContext.map str)),
    (c!"prev_message", messageTree str u.prevMessage), (c!"flags", .set (flags.map str)), (c!"notes", .list (u.notes.map (noteTree str))),
    (c!"locations", .list (u.locations.map str)), (c!"comments", .list (u.comments.map (commentTree str chr))),
    (c!"state", .word (stateName u.state)), (c!"obsolete", boolTree u.obsolete)]

end

end Verif.Spec
