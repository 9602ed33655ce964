import Verif.Spec.Text
import Verif.Model.Data

/-!
The entry grammar of PO files over classified lines, stated without the reader.
-/

namespace Verif.Spec

/-- The keyword `msgstr[i]`. -/
def valueKeyword (i : Nat) : Str := c!"msgstr[" ++ Nat.toDigits 10 i ++ c!"]"

/-- A marker of an obsolete line: it starts with `~`. -/
def Tilde (p : Str) : Prop := p.head? = some '~'

/-- The lines of one field: a keyword line with marker `p`, then continuation lines with the same marker.  The value is the
concatenation of the texts. -/
def FieldLines (kw p : Str) (block : List PoLine) (v : Str) : Prop :=
  ∃ (n : Nat) (s : Str) (cs : List (Nat × Str)),
    block = .message n p kw s :: cs.map (fun c => .continuation c.1 p c.2) ∧ v = s ++ (cs.map Prod.snd).flatten

/-- A field of an entry that is obsolete (`o = true`) or active (`o = false`). -/
def Field (kw : Str) (o : Bool) (block : List PoLine) (v : Str) : Prop := ∃ p, FieldLines kw p block v ∧ (o = true ↔ Tilde p)

/-- An optional field. -/
inductive OptField (kw : Str) (o : Bool) : List PoLine → Option Str → Prop
  | none : OptField kw o [] none
  | some {b v} : Field kw o b v → OptField kw o b (some v)

/-- Fields `msgstr[i]` with strictly increasing indices from `lo` on and below `hi`. -/
inductive ValueFields (o : Bool) (hi : Nat) : Nat → List PoLine → List Str → Prop
  | nil {lo} : ValueFields o hi lo [] []
  | cons {lo i b v bs vs} : lo ≤ i → i < hi → Field (valueKeyword i) o b v → ValueFields o hi (i + 1) bs vs →
      ValueFields o hi lo (b ++ bs) (v :: vs)

/-- Number of plural texts of an entry: that of the header, 2 without header. -/
def nplurals (forms : Option PluralForms) : Nat :=
  match forms with
  | some f => f.count
  | none => 2

/-- The translation part of an entry with id `id` and plural id `idPl`: one `msgstr` field, or at least one `msgstr[i]` field. -/
inductive TextFields (forms : Option PluralForms) (o : Bool) (id : Str) : Option Str → List PoLine → Message → Prop
  | simple {b v} : Field (c!"msgstr") o b v → TextFields forms o id none b (.simple id (if v = [] then none else some v))
  | plural {pl b vs} : ValueFields o (nplurals forms) 0 b vs → vs ≠ [] → TextFields forms o id (some pl) b (.plural ⟨id, pl, vs, forms⟩)

/-- The message of the previous fields. -/
def previousMessage (forms : Option PluralForms) : Option Str → Option Str → Message
  | none, _ => .simple [] none
  | some id, none => .simple id none
  | some id, some pl => .plural ⟨id, pl, [], forms⟩

/-- The comma-separated items of a `#,` comment. -/
noncomputable def flagItems (c : Char × Str) : List Str := if c.1 = ',' then (cut (· = ',') c.2).map strip else []

/-- The words of a `#:` comment. -/
noncomputable def locationItems (c : Char × Str) : List Str := if c.1 = ':' then (cut (fun c => isWhite c = true) c.2).filter (fun w => w ≠ []) else []

/-- The note of a `#.` (developer) or `# ` (translator) comment. -/
def noteItem (c : Char × Str) : Option Note :=
  if c.1 = '.' then some ⟨.developer, c.2⟩ else if c.1 = ' ' then some ⟨.translator, c.2⟩ else none

/-- Any other comment. -/
def otherItem (c : Char × Str) : Option Comment :=
  if c.1 = ',' ∨ c.1 = ':' ∨ c.1 = '.' ∨ c.1 = ' ' then none else some ⟨c.1, c.2⟩

/-- The elements of a list in the order of first appearance. -/
def distinct (l : List Str) : List Str := l.foldl (fun acc f => if f ∈ acc then acc else acc ++ [f]) []

/-- Some translation text is not empty. -/
def HasText : Message → Prop
  | .simple _ t => ∃ s, t = some s ∧ s ≠ []
  | .plural p => ∃ v ∈ p.values, v ≠ []

/-- A comment line with number `n`, kind and content `c`. -/
def commentLine (c : Nat × Char × Str) : PoLine := .comment c.1 c.2.1 c.2.2

/-- The unit data that come from the comment lines `cs`. -/
structure CommentData (cs : List (Char × Str)) (u : PoUnit) : Prop where
  flags : u.flags = distinct (cs.flatMap flagItems)
  locations : u.locations = cs.flatMap locationItems
  notes : u.notes = cs.filterMap noteItem
  comments : u.comments = cs.filterMap otherItem

/-- The state of a unit. -/
structure StateRule (u : PoUnit) : Prop where
  needsWork : u.state = .needsWork ↔ c!"fuzzy" ∈ u.flags
  final : u.state = .final ↔ c!"fuzzy" ∉ u.flags ∧ HasText u.message

/-- The entry grammar: `block` is an entry for the unit `u`. -/
def Entry (forms : Option PluralForms) (block : List PoLine) (u : PoUnit) : Prop :=
  ∃ (cs : List (Nat × Char × Str)) (b1 b2 b3 b4 b5 b6 b7 : List PoLine) (prevId prevPl : Option Str) (id : Str) (idPl : Option Str),
    block = cs.map commentLine ++ (b1 ++ (b2 ++ (b3 ++ (b4 ++ (b5 ++ (b6 ++ b7)))))) ∧
    OptField (c!"|msgctxt") u.obsolete b1 u.prevContext ∧
    OptField (c!"|msgid") u.obsolete b2 prevId ∧
    OptField (c!"|msgid_plural") u.obsolete b3 prevPl ∧ (prevId = none → prevPl = none) ∧
    OptField (c!"msgctxt") u.obsolete b4 u.context ∧
    Field (c!"msgid") u.obsolete b5 id ∧
    OptField (c!"msgid_plural") u.obsolete b6 idPl ∧
    TextFields forms u.obsolete id idPl b7 u.message ∧
    u.prevMessage = previousMessage forms prevId prevPl ∧
    CommentData (cs.map Prod.snd) u ∧ StateRule u

/-- The number of a line; blank lines have none. -/
def lineNumber : PoLine → Nat
  | .blank => 0
  | .comment n _ _ | .message n _ _ _ | .continuation n _ _ => n

/-- The marker of the last line of a block. -/
def lastMarker (block : List PoLine) : Option Str :=
  match block.getLast? with
  | some (.message _ p _ _) => some p
  | some (.continuation _ p _) => some p
  | _ => none

/-- The keyword of a line, if it is a keyword line. -/
def keywordOf : PoLine → Option Str
  | .message _ _ t _ => some t
  | _ => none

/-- The last keyword of a block. -/
def lastKeyword (block : List PoLine) : Option Str := (block.filterMap keywordOf).getLast?

/-- The block of unit `u` ends before `rest`: what follows is not a continuation line of the block's last field, nor a further
`msgstr[j]` field that the entry can take. -/
def EndsBefore (forms : Option PluralForms) (u : PoUnit) (block : List PoLine) (next : Option PoLine) : Prop :=
  match next with
  | some (.continuation _ p _) => lastMarker block ≠ some p
  | some (.message _ p t _) =>
    (∃ p, u.message = .plural p) → (u.obsolete = true ↔ Tilde p) → ∀ j, j < nplurals forms → t = valueKeyword j →
      ∃ i, j ≤ i ∧ lastKeyword block = some (valueKeyword i)
  | _ => True

end Verif.Spec
