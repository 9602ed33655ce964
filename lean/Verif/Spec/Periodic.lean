import Verif.Spec.Formula

/-! Formulas that repeat. -/

namespace Verif.Spec

/-- Comparisons of numbers. -/
def IsComparison : BinOp → Prop
  | .eq | .ne | .lt | .lte | .gt | .gte => True
  | .add | .sub | .mul | .div | .mod | .and | .or => False

/-- Formulas in which `n` occurs only in remainders `n % k` or `n / d % k`, where `L` is a multiple of `k` or `d * k`, in comparisons with numbers
below `B`, and as a truth value.  In `Repeats B L true t` only the truth value of `t` is used. -/
inductive Repeats (B L : Nat) : Bool → Node → Prop
  | num {v} : Repeats B L false (.num v)
  | mod {k : Int64} : 0 < k.toInt → k.toInt ∣ L → Repeats B L false (.binop .mod .var (.num k))
  | divMod {d k : Int64} : 0 < d.toInt → 0 < k.toInt → d.toInt * k.toInt ∣ L → Repeats B L false (.binop .mod (.binop .div .var (.num d)) (.num k))
  | left {o} {k : Int64} : IsComparison o → k.toInt < B → Repeats B L false (.binop o .var (.num k))
  | right {o} {k : Int64} : IsComparison o → k.toInt < B → Repeats B L false (.binop o (.num k) .var)
  | isZero : 0 < B → Repeats B L true .var
  | used {t} : Repeats B L false t → Repeats B L true t
  | neg {a} : Repeats B L false a → Repeats B L false (.unop .neg a)
  | not {a} : Repeats B L true a → Repeats B L false (.unop .not a)
  | and {a b} : Repeats B L true a → Repeats B L true b → Repeats B L false (.binop .and a b)
  | or {a b} : Repeats B L true a → Repeats B L true b → Repeats B L false (.binop .or a b)
  | binop {o a b} : Repeats B L false a → Repeats B L false b → Repeats B L false (.binop o a b)
  | cond {x a b c} : Repeats B L true a → Repeats B L x b → Repeats B L x c → Repeats B L x (.cond a b c)

end Verif.Spec
