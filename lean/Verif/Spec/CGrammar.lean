import Verif.Model.Formula

/-!
The expression grammar of the C language (which the gettext manual prescribes for plural formulas), over the tokens of formulas, and the
formulas that C and the crate read in the same way.
-/

namespace Verif.Spec

/-- The value of a digit string. -/
def numeralValue (ds : Str) : Nat := ds.foldl (fun n c => 10 * n + (c.toNat - '0'.toNat)) 0

/-- Levels of the C grammar: conditional, logical or, logical and, equality, relational, additive, multiplicative, unary, primary. -/
inductive CNT where
  | expr | or | and | eq | rel | add | mul | unary | prim
  deriving DecidableEq

/-- C expressions (C11 6.5.1 - 6.5.15, restricted to the operators of plural formulas). -/
inductive CDerives : CNT → List Tok → Node → Prop
  | exprCond {w₁ w₂ w₃ a b c} : CDerives .or w₁ a → CDerives .expr w₂ b → CDerives .expr w₃ c →
      CDerives .expr (w₁ ++ .quest :: (w₂ ++ .colon :: w₃)) (.cond a b c)
  | exprOr {w a} : CDerives .or w a → CDerives .expr w a
  | orOr {w₁ w₂ a b} : CDerives .or w₁ a → CDerives .and w₂ b → CDerives .or (w₁ ++ .oror :: w₂) (.binop .or a b)
  | orAnd {w a} : CDerives .and w a → CDerives .or w a
  | andAnd {w₁ w₂ a b} : CDerives .and w₁ a → CDerives .eq w₂ b → CDerives .and (w₁ ++ .andand :: w₂) (.binop .and a b)
  | andEq {w a} : CDerives .eq w a → CDerives .and w a
  | eqEq {w₁ w₂ a b} : CDerives .eq w₁ a → CDerives .rel w₂ b → CDerives .eq (w₁ ++ .eqeq :: w₂) (.binop .eq a b)
  | eqNe {w₁ w₂ a b} : CDerives .eq w₁ a → CDerives .rel w₂ b → CDerives .eq (w₁ ++ .ne :: w₂) (.binop .ne a b)
  | eqRel {w a} : CDerives .rel w a → CDerives .eq w a
  | relLt {w₁ w₂ a b} : CDerives .rel w₁ a → CDerives .add w₂ b → CDerives .rel (w₁ ++ .lt :: w₂) (.binop .lt a b)
  | relLte {w₁ w₂ a b} : CDerives .rel w₁ a → CDerives .add w₂ b → CDerives .rel (w₁ ++ .le :: w₂) (.binop .lte a b)
  | relGt {w₁ w₂ a b} : CDerives .rel w₁ a → CDerives .add w₂ b → CDerives .rel (w₁ ++ .gt :: w₂) (.binop .gt a b)
  | relGte {w₁ w₂ a b} : CDerives .rel w₁ a → CDerives .add w₂ b → CDerives .rel (w₁ ++ .ge :: w₂) (.binop .gte a b)
  | relAdd {w a} : CDerives .add w a → CDerives .rel w a
  | addAdd {w₁ w₂ a b} : CDerives .add w₁ a → CDerives .mul w₂ b → CDerives .add (w₁ ++ .plus :: w₂) (.binop .add a b)
  | addSub {w₁ w₂ a b} : CDerives .add w₁ a → CDerives .mul w₂ b → CDerives .add (w₁ ++ .minus :: w₂) (.binop .sub a b)
  | addMul {w a} : CDerives .mul w a → CDerives .add w a
  | mulMul {w₁ w₂ a b} : CDerives .mul w₁ a → CDerives .unary w₂ b → CDerives .mul (w₁ ++ .star :: w₂) (.binop .mul a b)
  | mulDiv {w₁ w₂ a b} : CDerives .mul w₁ a → CDerives .unary w₂ b → CDerives .mul (w₁ ++ .slash :: w₂) (.binop .div a b)
  | mulMod {w₁ w₂ a b} : CDerives .mul w₁ a → CDerives .unary w₂ b → CDerives .mul (w₁ ++ .percent :: w₂) (.binop .mod a b)
  | mulUnary {w a} : CDerives .unary w a → CDerives .mul w a
  | unaryNot {w a} : CDerives .unary w a → CDerives .unary (.bang :: w) (.unop .not a)
  | unaryNeg {w a} : CDerives .unary w a → CDerives .unary (.minus :: w) (.unop .neg a)
  | unaryPrim {w a} : CDerives .prim w a → CDerives .unary w a
  | primNum {ds v} : v.toInt = (numeralValue ds : Int) → CDerives .prim [.num ds] (.num v)
  | primVar : CDerives .prim [.n] .var
  | primParen {w a} : CDerives .expr w a → CDerives .prim (.lpar :: (w ++ [.rpar])) a

/-- Levels of the common formulas. -/
inductive XNT where
  | expr | or | and | eq | rel | not | add | mul | factor | term
  deriving DecidableEq

/-- Formulas that C and the crate read in the same way: `!` is applied to a literal, `n`, a parenthesis or the negative of one, and only as a whole
operand of a comparison or logical operator; no `<`, `<=`, `>`, `>=` comes after `==` or `!=` in a chain of comparisons; the operators
are signs, not words. -/
inductive Common : XNT → List Tok → Node → Prop
  | exprCond {w₁ w₂ w₃ a b c} : Common .or w₁ a → Common .expr w₂ b → Common .expr w₃ c →
      Common .expr (w₁ ++ .quest :: (w₂ ++ .colon :: w₃)) (.cond a b c)
  | exprOr {w a} : Common .or w a → Common .expr w a
  | orOr {w₁ w₂ a b} : Common .or w₁ a → Common .and w₂ b → Common .or (w₁ ++ .oror :: w₂) (.binop .or a b)
  | orAnd {w a} : Common .and w a → Common .or w a
  | andAnd {w₁ w₂ a b} : Common .and w₁ a → Common .eq w₂ b → Common .and (w₁ ++ .andand :: w₂) (.binop .and a b)
  | andEq {w a} : Common .eq w a → Common .and w a
  | eqEq {w₁ w₂ a b} : Common .eq w₁ a → Common .not w₂ b → Common .eq (w₁ ++ .eqeq :: w₂) (.binop .eq a b)
  | eqNe {w₁ w₂ a b} : Common .eq w₁ a → Common .not w₂ b → Common .eq (w₁ ++ .ne :: w₂) (.binop .ne a b)
  | eqRel {w a} : Common .rel w a → Common .eq w a
  | relLt {w₁ w₂ a b} : Common .rel w₁ a → Common .not w₂ b → Common .rel (w₁ ++ .lt :: w₂) (.binop .lt a b)
  | relLte {w₁ w₂ a b} : Common .rel w₁ a → Common .not w₂ b → Common .rel (w₁ ++ .le :: w₂) (.binop .lte a b)
  | relGt {w₁ w₂ a b} : Common .rel w₁ a → Common .not w₂ b → Common .rel (w₁ ++ .gt :: w₂) (.binop .gt a b)
  | relGte {w₁ w₂ a b} : Common .rel w₁ a → Common .not w₂ b → Common .rel (w₁ ++ .ge :: w₂) (.binop .gte a b)
  | relNot {w a} : Common .not w a → Common .rel w a
  | notNot {w a} : Common .factor w a → Common .not (.bang :: w) (.unop .not a)
  | notAdd {w a} : Common .add w a → Common .not w a
  | addAdd {w₁ w₂ a b} : Common .add w₁ a → Common .mul w₂ b → Common .add (w₁ ++ .plus :: w₂) (.binop .add a b)
  | addSub {w₁ w₂ a b} : Common .add w₁ a → Common .mul w₂ b → Common .add (w₁ ++ .minus :: w₂) (.binop .sub a b)
  | addMul {w a} : Common .mul w a → Common .add w a
  | mulMul {w₁ w₂ a b} : Common .mul w₁ a → Common .factor w₂ b → Common .mul (w₁ ++ .star :: w₂) (.binop .mul a b)
  | mulDiv {w₁ w₂ a b} : Common .mul w₁ a → Common .factor w₂ b → Common .mul (w₁ ++ .slash :: w₂) (.binop .div a b)
  | mulMod {w₁ w₂ a b} : Common .mul w₁ a → Common .factor w₂ b → Common .mul (w₁ ++ .percent :: w₂) (.binop .mod a b)
  | mulFactor {w a} : Common .factor w a → Common .mul w a
  | factorNeg {w a} : Common .term w a → Common .factor (.minus :: w) (.unop .neg a)
  | factorTerm {w a} : Common .term w a → Common .factor w a
  | termNum {ds v} : v.toInt = (numeralValue ds : Int) → Common .term [.num ds] (.num v)
  | termVar : Common .term [.n] .var
  | termParen {w a} : Common .expr w a → Common .term (.lpar :: (w ++ [.rpar])) a

end Verif.Spec
