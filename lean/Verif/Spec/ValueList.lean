import Verif.Spec.Text

/-!
Value lists `key = value; ...` (the form of the `Plural-Forms` property), stated without regular expressions.
-/

namespace Verif.Spec

/-- Characters that are not white space. -/
def Solid (k : Str) : Prop := ∀ c ∈ k, isWhite c = false

/-- The value at the beginning of `y`: the text before the first `;`, trimmed; it has no line feed. -/
def ValueAt (y v rest : Str) : Prop :=
  ∃ a b, White a ∧ White b ∧ y = a ++ (v ++ (b ++ ';' :: rest)) ∧ ';' ∉ v ∧ Trimmed v ∧ '\n' ∉ v

/-- A pair at the beginning of `s`: a key without white space, `=`, a value, `;`. -/
def PairAt (s k v rest : Str) : Prop :=
  k ≠ [] ∧ Solid k ∧ ∃ w y, White w ∧ s = k ++ (w ++ '=' :: y) ∧ ValueAt y v rest

/-- The pair at the beginning of `s` with the shortest key. -/
def FirstPair (s k v rest : Str) : Prop := PairAt s k v rest ∧ ∀ k' v' rest', PairAt s k' v' rest' → k.length ≤ k'.length

/-- The pairs of a text from left to right: what comes before a pair is skipped, up to the first place where there is one. -/
inductive PairsOf : Str → List (Str × Str) → Prop
  | nil {s} : (∀ s' k v r, s' <:+ s → ¬ PairAt s' k v r) → PairsOf s []
  | cons {skip s k v rest ps} : FirstPair s k v rest →
      (∀ a b, skip = a ++ b → b ≠ [] → ∀ k' v' r', ¬ PairAt (b ++ s) k' v' r') → PairsOf rest ps →
      PairsOf (skip ++ s) ((k, v) :: ps)

/-- An item of a list: key, `=`, any text that after trimming has no line feed, `;`, white space. -/
def ListItem (e : Str) : Prop :=
  ∃ k w a v b w', k ≠ [] ∧ Solid k ∧ White w ∧ White a ∧ White b ∧ '\n' ∉ v ∧ White w' ∧
    e = k ++ (w ++ '=' :: (a ++ (v ++ (b ++ ';' :: w'))))

/-- The texts accepted as value lists. -/
def IsList (s : Str) : Prop := ∃ w es, White w ∧ (∀ e ∈ es, ListItem e) ∧ s = w ++ List.flatten es

/-- The value of a key: that of its last pair. -/
def lastValue (k : Str) (ps : List (Str × Str)) : Option Str := ps.reverse.lookup k

end Verif.Spec
