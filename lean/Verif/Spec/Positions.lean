import Verif.Spec.Line
import Verif.Spec.Run

/-! Line items and errors, located in the lines of the input. -/

namespace Verif.Spec

/-- The line items of lines that start with number `n`, by the line grammar: blank lines are skipped; a line that cannot be read or
is not recognised is the last item. -/
inductive LineItems : Nat → List (Except IoErr Str) → List Item → Prop
  | nil {n} : LineItems n [] []
  | failed {n e rs} : LineItems n (.error e :: rs) [.error (.io n e)]
  | unrecognised {n s rs} : Classified s n none → LineItems n (.ok s :: rs) [.error (.parse (n + 1) s [])]
  | blank {n s rs l} : Classified s n (some .blank) → LineItems (n + 1) rs l → LineItems n (.ok s :: rs) l
  | line {n s rs ln l} : Classified s n (some ln) → ln ≠ .blank → LineItems (n + 1) rs l → LineItems n (.ok s :: rs) (.ok ln :: l)

/-- Line `k` (from 1) of the lines `rs` is `s`, and is read as `ln`; all lines before can be read and are recognised. -/
structure LineAt (rs : List (Except IoErr Str)) (k : Nat) (s : Str) (ln : PoLine) : Prop where
  pos : 1 ≤ k
  text : rs[k - 1]? = some (.ok s)
  read : Classified s k (some ln)
  before : ∀ j, j < k - 1 → ∃ t ln', rs[j]? = some (.ok t) ∧ Classified t (j + 1) (some ln')

/-- An error that reading the lines `rs` can give, with its position. -/
inductive ErrorAt (rs : List (Except IoErr Str)) : Err → Prop
  /-- line `k` cannot be read; the error has number `k` -/
  | io {k x} : 1 ≤ k → rs[k - 1]? = some (.error x) → (∀ j, j < k - 1 → ∃ t ln', rs[j]? = some (.ok t) ∧ Classified t (j + 1) (some ln')) →
      ErrorAt rs (.io k x)
  /-- line `k` is not recognised; the error has number `k + 1` -/
  | unrecognised {k s} : 1 ≤ k → rs[k - 1]? = some (.ok s) → Classified s k none →
      (∀ j, j < k - 1 → ∃ t ln', rs[j]? = some (.ok t) ∧ Classified t (j + 1) (some ln')) → ErrorAt rs (.parse (k + 1) s [])
  /-- line `k` comes where a line with keyword `exp` is needed; the error has number `k` -/
  | missing {k s ln exp} : LineAt rs k s ln → ln ≠ .blank → exp = c!"msgid" ∨ exp = c!"msgstr" ∨ exp = c!"msgstr[0]" → ErrorAt rs (.parse k (shown ln) exp)
  /-- line `k` is the first line after the comments of an entry with empty id -/
  | noSource {k s p kw t} : LineAt rs k s (.message k p kw t) → ErrorAt rs (.unexpected k (c!"Source should not be empty"))

end Verif.Spec
