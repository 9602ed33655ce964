import Verif.Spec.Layout
import Verif.Spec.Cause

/-! The same error at another place. -/

namespace Verif.Spec

/-- The same error apart from the number, at lines that correspond by `P`. -/
def Moved (P : Nat → Nat → Prop) (e e' : Err) : Prop := SameErr e e' ∧ ∃ k k', AtLine e k ∧ AtLine e' k' ∧ P k k'

/-- Both no error, or the same error at corresponding places. -/
inductive MovedEnd (P : Nat → Nat → Prop) : Option Err → Option Err → Prop
  | none : MovedEnd P none none
  | some {e e'} : Moved P e e' → MovedEnd P (some e) (some e')

/-- The user sees the same: both calls of `parse()` fail with the same error, or both give the same header data, the same units, and then the same error or
none.  The errors are at places that correspond by `P`, except those of `parse()` that belong to no line. -/
def SameResultsAt {σ L : Type} [Src σ] (P : Nat → Nat → Prop) (r r' : Out (Reader σ L)) : Prop :=
  (∃ e e', Fails r e ∧ Fails r' e' ∧ (Moved P e e' ∨ e' = e ∧ ∀ k, ¬ AtLine e k)) ∨
  ∃ hdr us e e', Yields r hdr (results us e) ∧ Yields r' hdr (results us e') ∧ MovedEnd P e e'

/-- The same error `d` lines later. -/
def later (d : Nat) : Err → Err
  | .io n e => .io (n + d) e
  | .parse n got exp => .parse (n + d) got exp
  | .unexpected n msg => .unexpected (n + d) msg
  | .pluralForms msg => .pluralForms msg

/-- The same error or none; counted from the `n`-th line of one input and the `m`-th line of another, the numbers are the same. -/
def SameEndAfter (n m : Nat) (e e' : Option Err) : Prop := ∃ e0 : Option Err, e = e0.map (later n) ∧ e' = e0.map (later m)

/-- Line `k` of the first input is line `k'` of the second: it is the same, not blank, and the lines before it are the same apart from blank ones. -/
def SamePlace (rs rs' : List (Except IoErr Str)) (k k' : Nat) : Prop :=
  1 ≤ k ∧ 1 ≤ k' ∧ (rs.take (k - 1)).filter notBlank = (rs'.take (k' - 1)).filter notBlank ∧
    ∃ r, notBlank r = true ∧ rs[k - 1]? = some r ∧ rs'[k' - 1]? = some r

end Verif.Spec
