import Verif.Spec.Counting

/-! The quoted texts of an input, in order, with their places in the units. -/

namespace Verif.Spec

/-- The places of a unit for texts from quoted lines. -/
inductive Slot where
  | prevContext | prevId | prevPluralId | context | id | pluralId | text | pluralText
deriving DecidableEq

/-- The keywords for a place; a bar in front stands for a previous text. -/
def SlotKeyword : Slot → Str → Prop
  | .prevContext, k => k = c!"|msgctxt"
  | .prevId, k => k = c!"|msgid"
  | .prevPluralId, k => k = c!"|msgid_plural"
  | .context, k => k = c!"msgctxt"
  | .id, k => k = c!"msgid"
  | .pluralId, k => k = c!"msgid_plural"
  | .text, k => k = c!"msgstr"
  | .pluralText, k => ∃ i, k = valueKeyword i

/-- `ts` are the quoted texts of the lines `rs`, each with its place and whether it is marked as obsolete.  The text of a keyword line is continued by the
continuation lines after it; `t` is the text of the continuation lines before the first keyword line. -/
inductive TextsOf : List (Except IoErr Str) → Str → List (Bool × Slot × Str) → Prop
  | nil : TextsOf [] [] []
  | blank {s rs t ts} : White s → TextsOf rs t ts → TextsOf (.ok s :: rs) t ts
  | comment {s rs ts} : (∀ m k raw, ¬ QuotedLine s m k raw) → TextsOf rs [] ts → TextsOf (.ok s :: rs) [] ts
  | continuation {s m raw rs t ts} : QuotedLine s m none raw → TextsOf rs t ts → TextsOf (.ok s :: rs) (unesc raw ++ t) ts
  | keyword {s m k raw rs t ts} {o : Bool} {x : Slot} : QuotedLine s m (some k) raw → (o = true ↔ Tilde (m.getD [])) → SlotKeyword x (taggedKeyword m k) →
      TextsOf rs t ts → TextsOf (.ok s :: rs) [] ((o, x, unesc raw ++ t) :: ts)

/-- A text that may be absent. -/
def optQuote (o : Bool) (x : Slot) : Option Str → List (Bool × Slot × Str)
  | none => []
  | some s => [(o, x, s)]

/-- The texts of a previous message. -/
def previousQuotes (o : Bool) : Message → List (Bool × Slot × Str)
  | .simple id _ => [(o, .prevId, id)]
  | .plural p => [(o, .prevId, p.singular), (o, .prevPluralId, p.plural)]

/-- The texts of a message. -/
def messageQuotes (o : Bool) : Message → List (Bool × Slot × Str)
  | .simple id t => [(o, .id, id), (o, .text, t.getD [])]
  | .plural p => (o, .id, p.singular) :: (o, .pluralId, p.plural) :: p.values.map fun v => (o, .pluralText, v)

/-- The texts of a unit, in the order of a file. -/
def unitQuotes (u : PoUnit) : List (Bool × Slot × Str) :=
  optQuote u.obsolete .prevContext u.prevContext ++ (previousQuotes u.obsolete u.prevMessage ++ (optQuote u.obsolete .context u.context ++
    messageQuotes u.obsolete u.message))

/-- Not an empty previous id (a unit does not tell whether there was one). -/
def counts (x : Bool × Slot × Str) : Bool := !(x.2.1 == .prevId && x.2.2.isEmpty)

/-- A place for translations. -/
def isTextSlot (x : Bool × Slot × Str) : Bool := x.2.1 == .text || x.2.1 == .pluralText

/-- Two units that differ at most in what comes from comments. -/
structure SameTexts (u u' : PoUnit) : Prop where
  obsolete : u.obsolete = u'.obsolete
  prevContext : u.prevContext = u'.prevContext
  prevMessage : u.prevMessage = u'.prevMessage
  context : u.context = u'.context
  message : u.message = u'.message

end Verif.Spec
