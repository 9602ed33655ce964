import Verif.Spec.Catalogue

/-! What holds for all data that the reader gives, whatever the input is. -/

namespace Verif.Spec

/-- The content of a note or comment: one line, without white space at its beginning. -/
def CommentBody (s : Str) : Prop := '\n' ∉ s ∧ ∀ c, s.head? = some c → isWhite c = false

/-- A comment that is neither a flag, a location nor a note. -/
def OtherComment (c : Comment) : Prop := c.kind ∉ [',', ':', '.', ' ', '\n'] ∧ CommentBody c.content

/-- What holds for each unit of a catalogue with plural forms `forms`. -/
structure UnitInvariant (forms : Option PluralForms) (u : PoUnit) : Prop where
  flags : u.flags.Nodup ∧ ∀ f ∈ u.flags, ',' ∉ f ∧ '\n' ∉ f ∧ Trimmed f
  locations : ∀ l ∈ u.locations, l ≠ [] ∧ ∀ c ∈ l, isWhite c = false
  notes : ∀ n ∈ u.notes, CommentBody n.value
  comments : ∀ c ∈ u.comments, OtherComment c
  /-- a source; a text is not empty; as many plural texts as the header allows -/
  message : (∃ id t, u.message = .simple id t ∧ id ≠ [] ∧ t ≠ some []) ∨
    ∃ p, u.message = .plural p ∧ p.forms = forms ∧ 1 ≤ p.values.length ∧ p.values.length ≤ nplurals forms
  /-- no texts -/
  prevMessage : (∃ id, u.prevMessage = .simple id none) ∨ ∃ id pl, u.prevMessage = .plural ⟨id, pl, [], forms⟩
  state : StateRule u

/-- What holds for header data. -/
structure HeaderInvariant {L : Type} (h : Header L) : Prop where
  notes : ∀ n ∈ h.notes, CommentBody n.value
  comments : ∀ c ∈ h.comments, OtherComment c
  /-- the keys are distinct, trimmed, one line, without colon; the values are one line -/
  keys : (h.properties.map Prod.fst).Nodup
  properties : ∀ kv ∈ h.properties, Trimmed kv.1 ∧ ':' ∉ kv.1 ∧ '\n' ∉ kv.1 ∧ '\n' ∉ kv.2

end Verif.Spec
