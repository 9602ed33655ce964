import Verif.Spec.Counting

/-! Which line may follow which: a check of an input that looks at one line after the other and remembers only the field it is in. -/

namespace Verif.Spec

/-- The fields of an entry. -/
inductive FieldKind where
  | prevContext | prevId | prevPluralId | context | id | pluralId | text | value (i : Nat)
deriving DecidableEq

/-- The keyword of a field; a bar in front stands for a previous text. -/
def FieldKind.word : FieldKind → Str
  | .prevContext => c!"|msgctxt"
  | .prevId => c!"|msgid"
  | .prevPluralId => c!"|msgid_plural"
  | .context => c!"msgctxt"
  | .id => c!"msgid"
  | .pluralId => c!"msgid_plural"
  | .text => c!"msgstr"
  | .value i => valueKeyword i

/-- What the lines so far leave behind: nothing but comments since the last entry, or a field with its marker and its text. -/
inductive Place where
  | fresh
  | field (p : Str) (k : FieldKind) (v : Str)

/-- The fields with which an entry may begin. -/
inductive MayBegin : FieldKind → Prop
  | prevContext : MayBegin .prevContext
  | prevId : MayBegin .prevId
  | context : MayBegin .context
  | id : MayBegin .id

/-- An entry may begin here: there is no entry yet, or it has its translation. -/
inductive AtBorder : Place → Prop
  | fresh : AtBorder .fresh
  | text {p v} : AtBorder (.field p .text v)
  | value {p i v} : AtBorder (.field p (.value i) v)

/-- After a field with text `v`, the entry may go on with another field; `hi` is the number of plural texts. -/
inductive MayGoOn (hi : Nat) : FieldKind → Str → FieldKind → Prop
  | contextId {v} : MayGoOn hi .prevContext v .prevId
  | contextContext {v} : MayGoOn hi .prevContext v .context
  | contextNow {v} : MayGoOn hi .prevContext v .id
  | idPlural {v} : MayGoOn hi .prevId v .prevPluralId
  | idContext {v} : MayGoOn hi .prevId v .context
  | idNow {v} : MayGoOn hi .prevId v .id
  | pluralContext {v} : MayGoOn hi .prevPluralId v .context
  | pluralNow {v} : MayGoOn hi .prevPluralId v .id
  | context {v} : MayGoOn hi .context v .id
  | plural {v} : MayGoOn hi .id v .pluralId
  | text {v} : v ≠ [] → MayGoOn hi .id v .text
  | value {v i} : i < hi → MayGoOn hi .pluralId v (.value i)
  | more {v i j} : i < j → j < hi → MayGoOn hi (.value i) v (.value j)

/-- The line may come at this place, and leads to the next place. -/
inductive MayFollow (hi : Nat) : Place → PoLine → Place → Prop
  | comment {a n c s} : AtBorder a → MayFollow hi a (.comment n c s) .fresh
  | begins {a n p k s} : AtBorder a → MayBegin k → MayFollow hi a (.message n p k.word s) (.field p k s)
  | continues {p k v n s} : MayFollow hi (.field p k v) (.continuation n p s) (.field p k (v ++ s))
  | goesOn {p k v n p' k' s} : MayGoOn hi k v k' → (Tilde p ↔ Tilde p') → MayFollow hi (.field p k v) (.message n p' k'.word s) (.field p' k' s)

/-- Each of the lines may come where it is. -/
inductive EachFollows (hi : Nat) : Place → List PoLine → Place → Prop
  | nil {a} : EachFollows hi a [] a
  | cons {a b c ln ls} : MayFollow hi a ln b → EachFollows hi b ls c → EachFollows hi a (ln :: ls) c

/-- The keyword that is missing at a place where the next line may not come. -/
def Place.expected : Place → Str
  | .field _ .id _ => c!"msgstr"
  | .field _ .pluralId _ => c!"msgstr[0]"
  | _ => c!"msgid"

/-- The line is the translation of an empty id. -/
def EmptySource (a : Place) (ln : PoLine) : Prop := ∃ p n q s, a = .field p .id [] ∧ ln = .message n q (c!"msgstr") s ∧ (Tilde p ↔ Tilde q)

/-- `x` is the first line after the comments of the entry to which the last of the lines `b` belongs: an entry may begin there, and it has no translation yet. -/
def BeginsLast (hi : Nat) (b : List PoLine) (x : PoLine) : Prop :=
  ∃ b0 a ks more, b = b0 ++ (ks ++ x :: more) ∧ EachFollows hi .fresh b0 a ∧ AtBorder a ∧ (∀ c ∈ ks, IsComment c) ∧ (∃ n p k s, x = .message n p k s) ∧
    ∀ n p k s, .message n p k s ∈ x :: more → k ≠ c!"msgstr" ∧ ∀ i, k ≠ valueKeyword i

/-- The lines `rs` after the header, from line `n` on, with the plural forms of the header; or all lines if there is no header. -/
inductive BodyAt (env : Env) (stream : List Event) (hdr : Header env.Lang) : List (Except IoErr Str) → Nat → Option PluralForms → Prop
  | headed {hd rs forms} : rawLines (flatten stream) = hd ++ rs → HeaderLines hd → NoContinuation rs →
      FormsRule env (hdr.properties.lookup (c!"Plural-Forms")) (.ok forms) → BodyAt env stream hdr rs (1 + hd.length) forms
  | plain : (∀ ns cs t rest, ¬ First (streamItems stream) (.header ns cs t rest)) → BodyAt env stream hdr (rawLines (flatten stream)) 1 none

end Verif.Spec
