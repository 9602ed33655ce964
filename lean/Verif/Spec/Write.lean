import Verif.Spec.Layout
import Verif.Spec.Catalogue
import Verif.Spec.ValueList

/-!
Writing a catalogue as PO text, and the catalogues that can be written.
-/

namespace Verif.Spec

/-! ### Writing -/

/-- The marker of a line: `~` in obsolete units, `|` in previous fields. -/
def markOf (obsolete previous : Bool) : Option Str :=
  match obsolete, previous with
  | false, false => none
  | true, false => some ['~']
  | false, true => some ['|']
  | true, true => some ['~', '|']

/-- A field on one line: `msgid "…"`, `#~ msgid "…"`, `#| msgid "…"` or `#~| msgid "…"`. -/
def fieldLine (obsolete previous : Bool) (k v : Str) : Str :=
  match markOf obsolete previous with
  | none => kwLine k v
  | some m => '#' :: (m ++ ' ' :: kwLine k v)

/-- An optional field. -/
def optLine (obsolete previous : Bool) (k : Str) : Option Str → List Str
  | none => []
  | some v => [fieldLine obsolete previous k v]

/-- The line of a note. -/
def noteLine (n : Note) : Str :=
  match n.origin with
  | .developer => '#' :: '.' :: ' ' :: n.value
  | .translator => '#' :: ' ' :: n.value

/-- The line of another comment. -/
def otherLine (c : Comment) : Str := '#' :: c.kind :: ' ' :: c.content

/-- The line of the flags. -/
def flagLines (fs : List Str) : List Str := if fs = [] then [] else ['#' :: ',' :: ' ' :: List.intercalate [',', ' '] fs]

/-- The line of the locations. -/
def locationLines (ls : List Str) : List Str := if ls = [] then [] else ['#' :: ':' :: ' ' :: List.intercalate [' '] ls]

/-- The texts `msgstr[i]`, `msgstr[i+1]`, … -/
def valueLines (obsolete : Bool) : Nat → List Str → List Str
  | _, [] => []
  | i, v :: vs => fieldLine obsolete false (valueKeyword i) v :: valueLines obsolete (i + 1) vs

/-- The ids and texts of a message. -/
def messageLines (obsolete : Bool) : Message → List Str
  | .simple id t => [fieldLine obsolete false (c!"msgid") id, fieldLine obsolete false (c!"msgstr") (t.getD [])]
  | .plural p => fieldLine obsolete false (c!"msgid") p.singular :: fieldLine obsolete false (c!"msgid_plural") p.plural :: valueLines obsolete 0 p.values

/-- The ids of a previous message; the empty message is not written. -/
def previousLines (obsolete : Bool) : Message → List Str
  | .simple id _ => if id = [] then [] else [fieldLine obsolete true (c!"msgid") id]
  | .plural p => [fieldLine obsolete true (c!"msgid") p.singular, fieldLine obsolete true (c!"msgid_plural") p.plural]

/-- The lines of a unit. -/
def unitLines (u : PoUnit) : List Str :=
  u.notes.map noteLine ++ (u.comments.map otherLine ++ (locationLines u.locations ++ (flagLines u.flags ++
    (optLine u.obsolete true (c!"msgctxt") u.prevContext ++ (previousLines u.obsolete u.prevMessage ++
      (optLine u.obsolete false (c!"msgctxt") u.context ++ messageLines u.obsolete u.message))))))

/-- A value without the spaces at its ends. -/
def middle (v : Str) : Str := ((v.dropWhile (· == ' ')).reverse.dropWhile (· == ' ')).reverse

/-- The values on the lines for one property.  The values of several lines with the same key are joined with a space, so that a space at an end of a
value is written as a line with an empty value. -/
def pieces (v : Str) : List Str :=
  (v.takeWhile (· == ' ')).map (fun _ => []) ++ middle v :: ((v.dropWhile (· == ' ')).reverse.takeWhile (· == ' ')).map (fun _ => [])

/-- The line `key: value`. -/
def propertyLine (k v : Str) : Str := k ++ (':' :: ' ' :: v)

/-- The lines of the header text. -/
def propertyLines (props : List (Str × Str)) : List Str := props.flatMap fun p => (pieces p.2).map (propertyLine p.1)

/-- The header text: a line `key: value` for every property (more if the value has spaces at its ends). -/
def headerText (props : List (Str × Str)) : Str := (propertyLines props).flatMap fun l => l ++ ['\n']

/-- The lines of the header. -/
def headerLines {L : Type} (h : Header L) : List Str :=
  h.notes.map noteLine ++ (h.comments.map otherLine ++ [kwLine (c!"msgid") [], kwLine (c!"msgstr") (headerText h.properties)])

/-- A catalogue: header data, if there is a header, and units. -/
structure Cat (L : Type) where
  header : Option (Header L)
  units : List PoUnit

/-- The lines of a catalogue: header and units, with a blank line after each. -/
def catLines {L : Type} (c : Cat L) : List Str :=
  (match c.header with
   | none => []
   | some h => headerLines h ++ [[]]) ++ c.units.flatMap fun u => unitLines u ++ [[]]

/-! ### What can be written -/

/-- A comment text that is read back: one line, no white space in front. -/
def CommentText (s : Str) : Prop := '\n' ∉ s ∧ ∀ c, s.head? = some c → isWhite c = false

/-- A note that is read back.  A translator note must not look like a quoted text, with keyword or without (see C07). -/
def WritableNote (n : Note) : Prop := CommentText n.value ∧ (n.origin = .translator → ∀ m k raw, ¬ QuotedLine (noteLine n) m k raw)

/-- A comment that is read back: its kind is not that of a note, a location or a flag, and it does not look like a quoted line. -/
def WritableComment (c : Comment) : Prop :=
  CommentText c.content ∧ c.kind ≠ '\n' ∧ c.kind ≠ ',' ∧ c.kind ≠ ':' ∧ c.kind ≠ '.' ∧ c.kind ≠ ' ' ∧ ∀ m k raw, ¬ QuotedLine (otherLine c) m k raw

/-- A flag that is read back: trimmed, without comma and line feed. -/
def WritableFlag (f : Str) : Prop := Trimmed f ∧ ',' ∉ f ∧ '\n' ∉ f

/-- A location that is read back: a word. -/
def WritableLocation (l : Str) : Prop := l ≠ [] ∧ Solid l

/-- A message that is read back: a source; a text that is not present and empty; between 1 and `nplurals` plural texts, and the plural forms of the catalogue. -/
def WritableMessage (forms : Option PluralForms) : Message → Prop
  | .simple id t => id ≠ [] ∧ t ≠ some []
  | .plural p => p.values ≠ [] ∧ p.values.length ≤ nplurals forms ∧ p.forms = forms

/-- A previous message that is read back: it has no texts. -/
def WritablePrevious (forms : Option PluralForms) : Message → Prop
  | .simple _ t => t = none
  | .plural p => p.values = [] ∧ p.forms = forms

/-- A unit that is read back. -/
structure WritableUnit (forms : Option PluralForms) (u : PoUnit) : Prop where
  notes : ∀ n ∈ u.notes, WritableNote n
  comments : ∀ c ∈ u.comments, WritableComment c
  locations : ∀ l ∈ u.locations, WritableLocation l
  flags : ∀ f ∈ u.flags, WritableFlag f
  /-- flags are a set -/
  distinct : u.flags.Nodup
  message : WritableMessage forms u.message
  previous : WritablePrevious forms u.prevMessage
  /-- the state agrees with flags and texts -/
  state : StateRule u

/-- A property that is read back: the key is trimmed and has no colon, the value has no other white space than spaces at its ends, and neither has a line
feed. -/
def WritableProperty (p : Str × Str) : Prop := Trimmed p.1 ∧ ':' ∉ p.1 ∧ '\n' ∉ p.1 ∧ Trimmed (middle p.2) ∧ '\n' ∉ p.2

/-- Header data that are read back. -/
structure WritableHeader (env : Env) (h : Header env.Lang) : Prop where
  notes : ∀ n ∈ h.notes, WritableNote n
  comments : ∀ c ∈ h.comments, WritableComment c
  properties : ∀ p ∈ h.properties, WritableProperty p
  /-- properties are a map -/
  keys : (h.properties.map Prod.fst).Nodup
  language : h.language = languageOf env (h.properties.lookup (c!"Language"))

/-- A catalogue that is read back; `forms` are its plural forms. -/
def WritableCat (env : Env) (c : Cat env.Lang) (forms : Option PluralForms) : Prop :=
  (match c.header with
   | none => forms = none
   | some h => WritableHeader env h ∧ FormsRule env (h.properties.lookup (c!"Plural-Forms")) (.ok forms)) ∧
  ∀ u ∈ c.units, WritableUnit forms u

end Verif.Spec
