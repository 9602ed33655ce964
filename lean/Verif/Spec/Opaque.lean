import Verif.Spec.Change

/-! Inputs that differ only in the quoted texts of their lines. -/

namespace Verif.Spec

/-- A relation between texts, one for each keyword, that concatenation respects, and in which an empty text is related to an empty text only. -/
structure TextRel (R : Str → Str → Str → Prop) : Prop where
  append : ∀ {k a a' b b'}, R k a a' → R k b b' → R k (a ++ b) (a' ++ b')
  empty : ∀ {k a a'}, R k a a' → (a = [] ↔ a' = [])

/-- Two inputs, given by their lines, that have the same lines except for the quoted texts of keyword lines and continuation lines; these are related by
`R k`, where `k` is the keyword of the line or, for a continuation line, of the last keyword line before it (at first `k` is empty). -/
inductive Retexted (R : Str → Str → Str → Prop) : Str → List (Except IoErr Str) → List (Except IoErr Str) → Prop
  | nil {k} : Retexted R k [] []
  | failed {k e rs rs'} : Retexted R k (.error e :: rs) (.error e :: rs')
  /-- comment lines, blank lines, unrecognised lines -/
  | line {k s rs rs'} : (∀ m kw raw, ¬ QuotedLine s m kw raw) → Retexted R k rs rs' → Retexted R k (.ok s :: rs) (.ok s :: rs')
  | keyword {k s s' m kw raw raw' rs rs'} : QuotedLine s m (some kw) raw → QuotedLine s' m (some kw) raw' →
      R (taggedKeyword m kw) (unesc raw) (unesc raw') → Retexted R (taggedKeyword m kw) rs rs' → Retexted R k (.ok s :: rs) (.ok s' :: rs')
  | continuation {k s s' m raw raw' rs rs'} : QuotedLine s m none raw → QuotedLine s' m none raw' →
      R k (unesc raw) (unesc raw') → Retexted R k rs rs' → Retexted R k (.ok s :: rs) (.ok s' :: rs')

/-- Messages of the same shape with related texts. -/
inductive MessageRel (R : Str → Str → Str → Prop) : Message → Message → Prop
  | simple {a a' t t'} : R (c!"msgid") a a' → Both (R (c!"msgstr")) t t' → MessageRel R (.simple a t) (.simple a' t')
  | plural {a a' b b' vs vs' f} : R (c!"msgid") a a' → R (c!"msgid_plural") b b' → Each (fun v v' => ∃ i, R (valueKeyword i) v v') vs vs' →
      MessageRel R (.plural ⟨a, b, vs, f⟩) (.plural ⟨a', b', vs', f⟩)

/-- Previous messages of the same shape with related texts. -/
inductive PreviousRel (R : Str → Str → Str → Prop) : Message → Message → Prop
  | none : PreviousRel R .default .default
  | simple {a a'} : R (c!"|msgid") a a' → PreviousRel R (.simple a none) (.simple a' none)
  | plural {a a' b b' f} : R (c!"|msgid") a a' → R (c!"|msgid_plural") b b' → PreviousRel R (.plural ⟨a, b, [], f⟩) (.plural ⟨a', b', [], f⟩)

/-- Units that differ only in their texts, which are related. -/
structure UnitRel (R : Str → Str → Str → Prop) (u u' : PoUnit) : Prop where
  context : Both (R (c!"msgctxt")) u.context u'.context
  prevContext : Both (R (c!"|msgctxt")) u.prevContext u'.prevContext
  message : MessageRel R u.message u'.message
  prevMessage : PreviousRel R u.prevMessage u'.prevMessage
  flags : u.flags = u'.flags
  notes : u.notes = u'.notes
  locations : u.locations = u'.locations
  comments : u.comments = u'.comments
  state : u.state = u'.state
  obsolete : u.obsolete = u'.obsolete

/-- The keywords of translations. -/
def IsTextKeyword (k : Str) : Prop := k = c!"msgstr" ∨ ∃ i, k = valueKeyword i

/-- The same text; a translation may be any text, but an empty one must stay empty and a non-empty one not empty. -/
def Retranslated (k a a' : Str) : Prop := a = a' ∨ (IsTextKeyword k ∧ (a = [] ↔ a' = []))

/-- Messages that differ at most in the texts of translations; absent translations are absent in both. -/
inductive SameSource : Message → Message → Prop
  | simple {a t t'} : (t = none ↔ t' = none) → SameSource (.simple a t) (.simple a t')
  | plural {a b vs vs' f} : Each (fun v v' => v = [] ↔ v' = []) vs vs' → SameSource (.plural ⟨a, b, vs, f⟩) (.plural ⟨a, b, vs', f⟩)

/-- The second text is the first with every character replaced. -/
def Replaced (f : Char → Char) (_ a a' : Str) : Prop := a' = a.map f

/-- A message with every character of its texts replaced. -/
def replaceMessage (f : Char → Char) : Message → Message
  | .simple a t => .simple (a.map f) (t.map (List.map f))
  | .plural p => .plural ⟨p.singular.map f, p.plural.map f, p.values.map (List.map f), p.forms⟩

/-- A unit with every character of its quoted texts replaced. -/
def replaceUnit (f : Char → Char) (u : PoUnit) : PoUnit :=
  { u with
    context := u.context.map (List.map f)
    prevContext := u.prevContext.map (List.map f)
    message := replaceMessage f u.message
    prevMessage := replaceMessage f u.prevMessage }

end Verif.Spec
