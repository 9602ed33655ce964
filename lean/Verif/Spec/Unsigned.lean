import Verif.Spec.Formula

/-!
Formulas as expressions of C with unsigned operands of 64 bits, which is how GNU gettext evaluates them (`unsigned long int`).
-/

namespace Verif.Spec

/-- The representative of `v` modulo 2^64 among the numbers below 2^64. -/
def unsigned (v : Int) : Nat := (v % 2 ^ 64).toNat

/-- Truth value of C. -/
def cTruth (p : Prop) [Decidable p] : Nat := if p then 1 else 0

/-- The operators of C on unsigned operands, where they evaluate both operands; division by zero is undefined. -/
def cArith : BinOp → Nat → Nat → Option Nat
  | .add, a, b => some ((a + b) % 2 ^ 64)
  | .sub, a, b => some ((a + 2 ^ 64 - b) % 2 ^ 64)
  | .mul, a, b => some (a * b % 2 ^ 64)
  | .div, a, b => if b = 0 then none else some (a / b)
  | .mod, a, b => if b = 0 then none else some (a % b)
  | .eq, a, b => some (cTruth (a = b))
  | .ne, a, b => some (cTruth (a ≠ b))
  | .lt, a, b => some (cTruth (a < b))
  | .lte, a, b => some (cTruth (a ≤ b))
  | .gt, a, b => some (cTruth (b < a))
  | .gte, a, b => some (cTruth (b ≤ a))
  | .and, a, b => some (cTruth (a ≠ 0 ∧ b ≠ 0))
  | .or, a, b => some (cTruth (a ≠ 0 ∨ b ≠ 0))

/-- The value in C of a formula at `n`; `none` if the evaluation divides by zero.  `&&`, `||` and `?:` evaluate only the operands they need. -/
def cValue (n : Nat) : Node → Option Nat
  | .var => some n
  | .num v => some (unsigned v.toInt)
  | .unop .neg a => (cValue n a).map fun v => (2 ^ 64 - v) % 2 ^ 64
  | .unop .not a => (cValue n a).map fun v => cTruth (v = 0)
  | .binop .and a b => (cValue n a).bind fun v => if v = 0 then some 0 else (cValue n b).map fun w => cTruth (w ≠ 0)
  | .binop .or a b => (cValue n a).bind fun v => if v = 0 then (cValue n b).map fun w => cTruth (w ≠ 0) else some 1
  | .binop o a b => (cValue n a).bind fun v => (cValue n b).bind fun w => cArith o v w
  | .cond a b c => (cValue n a).bind fun v => if v = 0 then cValue n c else cValue n b

/-- Operators for which signed and unsigned numbers differ. -/
def SignMatters : BinOp → Prop
  | .lt | .lte | .gt | .gte | .div | .mod => True
  | .add | .sub | .mul | .eq | .ne | .and | .or => False

/-- Where the sign matters, no operand that is evaluated is negative, and no divisor is zero. -/
def SignFree (n : Int) : Node → Prop
  | .var | .num _ => True
  | .unop _ a => SignFree n a
  | .binop .and a b => SignFree n a ∧ (meaning n a ≠ 0 → SignFree n b)
  | .binop .or a b => SignFree n a ∧ (meaning n a = 0 → SignFree n b)
  | .binop o a b => SignFree n a ∧ SignFree n b ∧ (SignMatters o → 0 ≤ meaning n a ∧ 0 ≤ meaning n b) ∧ (o = .div ∨ o = .mod → meaning n b ≠ 0)
  | .cond a b c => SignFree n a ∧ (meaning n a ≠ 0 → SignFree n b) ∧ (meaning n a = 0 → SignFree n c)

/-- Formulas without `+`, `-` and `*` whose divisors are positive constants and whose other constants are not negative. -/
def Plain : Node → Prop
  | .var => True
  | .num v => 0 ≤ v.toInt
  | .unop .neg _ => False
  | .unop .not a => Plain a
  | .binop .add _ _ | .binop .sub _ _ | .binop .mul _ _ => False
  | .binop .div a b | .binop .mod a b => Plain a ∧ ∃ k : Int64, b = .num k ∧ 0 < k.toInt
  | .binop _ a b => Plain a ∧ Plain b
  | .cond a b c => Plain a ∧ Plain b ∧ Plain c

/-- Formulas without order comparisons, division and remainder. -/
def Unordered : Node → Prop
  | .var | .num _ => True
  | .unop _ a => Unordered a
  | .binop o a b => ¬ SignMatters o ∧ Unordered a ∧ Unordered b
  | .cond a b c => Unordered a ∧ Unordered b ∧ Unordered c

end Verif.Spec
