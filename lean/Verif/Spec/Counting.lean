import Verif.Spec.Merge
import Verif.Spec.Catalogue

/-! Counting lines and data. -/

namespace Verif.Spec

/-- The number of elements with a property. -/
inductive Count {α : Type} (P : α → Prop) : List α → Nat → Prop
  | nil : Count P [] 0
  | no {a l n} : ¬ P a → Count P l n → Count P (a :: l) n
  | yes {a l n} : P a → Count P l n → Count P (a :: l) (n + 1)

/-- A line with a keyword (with a bar in front for previous texts) that satisfies `K`. -/
def KeywordLine (K : Str → Prop) (r : Except IoErr Str) : Prop :=
  ∃ s m k raw, r = .ok s ∧ QuotedLine s m (some k) raw ∧ K (taggedKeyword m k)

/-- A unit with a plural message. -/
def IsPlural (u : PoUnit) : Prop := ∃ p, u.message = .plural p

/-- Number of plural texts of a unit. -/
def pluralTexts (u : PoUnit) : Nat :=
  match u.message with
  | .simple .. => 0
  | .plural p => p.values.length

/-- The lines after the header, or all lines if there is no header. -/
def Body (stream : List Event) (rs : List (Except IoErr Str)) : Prop :=
  (∃ hd, rawLines (flatten stream) = hd ++ rs ∧ HeaderLines hd ∧ NoContinuation rs) ∨
  (rawLines (flatten stream) = rs ∧ ∀ ns cs t rest, ¬ First (streamItems stream) (.header ns cs t rest))

end Verif.Spec
