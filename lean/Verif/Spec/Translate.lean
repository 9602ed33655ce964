import Verif.Spec.Opaque

/-! Inputs that differ in their translations, which may also be emptied or filled. -/

namespace Verif.Spec

/-- A relation between texts, one for each keyword, that concatenation respects, and in which an empty id is related to an empty id only. -/
structure SourceRel (R : Str → Str → Str → Prop) : Prop where
  append : ∀ {k a a' b b'}, R k a a' → R k b b' → R k (a ++ b) (a' ++ b')
  empty : ∀ {a a'}, R (c!"msgid") a a' → (a = [] ↔ a' = [])

/-- The text of a translation; an empty one counts as none. -/
def shownText (v : Str) : Option Str := if v = [] then none else some v

/-- Messages of the same shape with related texts; translations may be empty on one side only. -/
inductive SourceMessage (R : Str → Str → Str → Prop) : Message → Message → Prop
  | simple {a a' v v'} : R (c!"msgid") a a' → R (c!"msgstr") v v' → SourceMessage R (.simple a (shownText v)) (.simple a' (shownText v'))
  | plural {a a' b b' vs vs' f} : R (c!"msgid") a a' → R (c!"msgid_plural") b b' → Each (fun v v' => ∃ i, R (valueKeyword i) v v') vs vs' →
      SourceMessage R (.plural ⟨a, b, vs, f⟩) (.plural ⟨a', b', vs', f⟩)

/-- Units that differ only in their texts, which are related, and in whether they are translated. -/
structure SourceUnit (R : Str → Str → Str → Prop) (u u' : PoUnit) : Prop where
  context : Both (R (c!"msgctxt")) u.context u'.context
  prevContext : Both (R (c!"|msgctxt")) u.prevContext u'.prevContext
  message : SourceMessage R u.message u'.message
  prevMessage : PreviousRel R u.prevMessage u'.prevMessage
  flags : u.flags = u'.flags
  notes : u.notes = u'.notes
  locations : u.locations = u'.locations
  comments : u.comments = u'.comments
  obsolete : u.obsolete = u'.obsolete
  needsWork : u.state = .needsWork ↔ u'.state = .needsWork
  final : u'.state = .final ↔ u.state ≠ .needsWork ∧ HasText u'.message

/-- The same text, or any other if it is a translation. -/
def AnyTranslation (k a a' : Str) : Prop := a = a' ∨ IsTextKeyword k

/-- Messages with the same ids; a plural message has as many translations in both. -/
inductive SameIds : Message → Message → Prop
  | simple {a t t'} : SameIds (.simple a t) (.simple a t')
  | plural {a b vs vs' f} : vs.length = vs'.length → SameIds (.plural ⟨a, b, vs, f⟩) (.plural ⟨a, b, vs', f⟩)

/-- The same text, but no text if it is a translation. -/
def NoTranslation (k a a' : Str) : Prop := (IsTextKeyword k ∧ a' = []) ∨ (¬ IsTextKeyword k ∧ a = a')

/-- The message without its translations. -/
def emptyMessage : Message → Message
  | .simple a _ => .simple a none
  | .plural p => .plural { p with values := p.values.map fun _ => [] }

/-- The unit without its translations. -/
def emptyUnit (u : PoUnit) : PoUnit :=
  { u with message := emptyMessage u.message, state := if u.state = .needsWork then .needsWork else .empty }

end Verif.Spec
