import Verif.Spec.Formula
import Verif.Spec.CGrammar
import Verif.Spec.ValueList
import Verif.Model.Data

/-!
The `Plural-Forms` property, stated without the code that reads it.
-/

namespace Verif.Spec

/-- An ASCII digit. -/
def Digit (c : Char) : Prop := '0' ≤ c ∧ c ≤ '9'

/-- The digits of a numeral: what comes after an optional `+`. -/
def Unsigned (x ds : Str) : Prop := x = '+' :: ds ∨ (x = ds ∧ ds.head? ≠ some '+')

/-- The numerals of 64-bit unsigned numbers. -/
def Numeral (x : Str) (n : Nat) : Prop := ∃ ds, Unsigned x ds ∧ ds ≠ [] ∧ (∀ c ∈ ds, Digit c) ∧ numeralValue ds = n ∧ n < 2 ^ 64

/-- The standard library's message for a text that is not a numeral: it tells the first problem from the left. -/
inductive NumeralError : Str → Str → Prop
  | empty : NumeralError [] (c!"cannot parse integer from empty string")
  | sign {x} : x = c!"+" ∨ x = c!"-" → NumeralError x (c!"invalid digit found in string")
  | digit {x ds c rest} : Unsigned x (ds ++ c :: rest) → (∀ d ∈ ds, Digit d) → numeralValue ds < 2 ^ 64 → ¬ Digit c →
      NumeralError x (c!"invalid digit found in string")
  | large {x ds c rest} : Unsigned x (ds ++ c :: rest) → (∀ d ∈ ds, Digit d) → numeralValue ds < 2 ^ 64 → Digit c → 2 ^ 64 ≤ numeralValue (ds ++ [c]) →
      NumeralError x (c!"number too large to fit in target type")

/-- A formula text and its tree: a blank text means `n`. -/
def FormulaText (s : Str) (t : Node) : Prop := (White s ∧ t = .var) ∨ ∃ toks, Tokens s toks ∧ Derives .expr toks t

/-- The number of plural texts from the value of `nplurals`. -/
inductive CountRule : Option Str → Nat → Prop
  | default : CountRule none 2
  | given {x n} : Numeral x n → CountRule (some x) n

/-- The plural forms of a `Plural-Forms` property: a value list, whose `plural` is the formula (default `n`) and whose `nplurals` is the
number of texts (default 2). -/
def FormsOf (s : Str) (f : PluralForms) : Prop :=
  IsList s ∧ f.definition = s ∧ ∃ ps, PairsOf s ps ∧ f.formulaSource = (lastValue (c!"plural") ps).getD [] ∧ FormulaText f.formulaSource f.formula ∧
    CountRule (lastValue (c!"nplurals") ps) f.count

/-- Why a `Plural-Forms` property is rejected. -/
inductive FormsError (env : Env) : Str → Err → Prop
  | notList {s} : ¬ IsList s → FormsError env s (.unexpected 0 (c!"Bad value list definition: `" ++ s ++ c!"`"))
  | formula {s ps} : IsList s → PairsOf s ps → (∀ t, ¬ FormulaText ((lastValue (c!"plural") ps).getD []) t) →
      FormsError env s (.pluralForms (env.formulaMsg ((lastValue (c!"plural") ps).getD [])))
  | count {s ps t x msg} : IsList s → PairsOf s ps → FormulaText ((lastValue (c!"plural") ps).getD []) t →
      lastValue (c!"nplurals") ps = some x → NumeralError x msg → FormsError env s (.pluralForms msg)

end Verif.Spec
