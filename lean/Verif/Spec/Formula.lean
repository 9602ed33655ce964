import Verif.Model.Formula
import Verif.Spec.Line

/-!
Plural formulas, stated without the lexer, the parser and the evaluator: spelling of tokens, division of a text into tokens,
layout of a formula, its value as a mathematical integer.
-/

namespace Verif.Spec

/-! ### Tokens -/

/-- The texts of the tokens. -/
inductive Lexeme : Str → Tok → Prop
  | quest : Lexeme (c!"?") .quest
  | colon : Lexeme (c!":") .colon
  | oror : Lexeme (c!"||") .oror
  | kwOr : Lexeme (c!"or") .kwOr
  | andand : Lexeme (c!"&&") .andand
  | kwAnd : Lexeme (c!"and") .kwAnd
  | eqeq : Lexeme (c!"==") .eqeq
  | ne : Lexeme (c!"!=") .ne
  | lt : Lexeme (c!"<") .lt
  | le : Lexeme (c!"<=") .le
  | gt : Lexeme (c!">") .gt
  | ge : Lexeme (c!">=") .ge
  | bang : Lexeme (c!"!") .bang
  | kwNot : Lexeme (c!"not") .kwNot
  | plus : Lexeme (c!"+") .plus
  | minus : Lexeme (c!"-") .minus
  | star : Lexeme (c!"*") .star
  | slash : Lexeme (c!"/") .slash
  | percent : Lexeme (c!"%") .percent
  | n : Lexeme (c!"n") .n
  | lpar : Lexeme (c!"(") .lpar
  | rpar : Lexeme (c!")") .rpar
  | num {ds : Str} : ds ≠ [] → (∀ c ∈ ds, '0' ≤ c ∧ c ≤ '9') → Lexeme ds (.num ds)

/-- The tokens of a text: white space is skipped, then the longest token is taken. -/
inductive Tokens : Str → List Tok → Prop
  | nil {ws} : White ws → Tokens ws []
  | cons {ws lx rest tok toks} : White ws → Lexeme lx tok →
      (∀ lx' tok', Lexeme lx' tok' → lx' <+: lx ++ rest → lx'.length ≤ lx.length) → Tokens rest toks →
      Tokens (ws ++ (lx ++ rest)) (tok :: toks)

/-- Tokens that would be read differently when written without white space between them. -/
def Clash : Tok → Tok → Prop
  | .num _, .num _ => True
  | .lt, .eqeq => True
  | .gt, .eqeq => True
  | .bang, .eqeq => True
  | _, _ => False

/-- The texts of a token sequence, with any white space around the tokens; between clashing tokens there is some. -/
inductive Writes : List Tok → Str → Prop
  | nil {ws} : White ws → Writes [] ws
  | cons {ws lx tok toks s} : White ws → Lexeme lx tok → Writes toks s →
      (∀ t ts, toks = t :: ts → Clash tok t → ∃ c cs, s = c :: cs ∧ isWhite c = true) → Writes (tok :: toks) (ws ++ (lx ++ s))

/-- The same token with word operators replaced by signs. -/
def sign : Tok → Tok
  | .kwOr => .oror
  | .kwAnd => .andand
  | .kwNot => .bang
  | t => t

/-! ### Printing -/

/-- Decimal digits of a literal. -/
def literal (v : Int64) : Str := Nat.toDigits 10 v.toInt.toNat

/-- The token of a binary operator. -/
def opTok : BinOp → Tok
  | .add => .plus | .sub => .minus | .mul => .star | .div => .slash | .mod => .percent | .and => .andand | .or => .oror
  | .eq => .eqeq | .ne => .ne | .lt => .lt | .lte => .le | .gt => .gt | .gte => .ge

/-- The tree in parentheses. -/
def print : Node → List Tok
  | .var => [.n]
  | .num v => [.num (literal v)]
  | .unop .neg a => .lpar :: .minus :: (print a ++ [.rpar])
  | .unop .not a => .lpar :: .bang :: (print a ++ [.rpar])
  | .binop o a b => .lpar :: (print a ++ opTok o :: (print b ++ [.rpar]))
  | .cond a b c => .lpar :: (print a ++ .quest :: (print b ++ .colon :: (print c ++ [.rpar])))

/-- The literals of the tree are not negative (there is no syntax for negative literals). -/
def Printable : Node → Prop
  | .var => True
  | .num v => 0 ≤ v.toInt
  | .unop _ a => Printable a
  | .binop _ a b => Printable a ∧ Printable b
  | .cond a b c => Printable a ∧ Printable b ∧ Printable c

/-! ### Values -/

/-- In the range of signed 64-bit integers. -/
def InRange (v : Int) : Prop := -2 ^ 63 ≤ v ∧ v < 2 ^ 63

/-- Truth value as a number. -/
def truth (p : Prop) [Decidable p] : Int := if p then 1 else 0

/-- Strict binary operators on integers; division truncates towards zero. -/
def arith : BinOp → Int → Int → Int
  | .add, a, b => a + b
  | .sub, a, b => a - b
  | .mul, a, b => a * b
  | .div, a, b => a.tdiv b
  | .mod, a, b => a.tmod b
  | .eq, a, b => truth (a = b)
  | .ne, a, b => truth (a ≠ b)
  | .lt, a, b => truth (a < b)
  | .lte, a, b => truth (a ≤ b)
  | .gt, a, b => truth (b < a)
  | .gte, a, b => truth (b ≤ a)
  | .and, a, b => truth (a ≠ 0 ∧ b ≠ 0)
  | .or, a, b => truth (a ≠ 0 ∨ b ≠ 0)

/-- `Value n t v`: over the mathematical integers the formula `t` has value `v` at `n`, no divisor is zero and no intermediate
result leaves the signed 64-bit range.  `&&`, `||` and `?:` evaluate only the operands they need. -/
inductive Value (n : Int) : Node → Int → Prop
  | var : Value n .var n
  | num {v : Int64} : Value n (.num v) v.toInt
  | neg {a v} : Value n a v → InRange (-v) → Value n (.unop .neg a) (-v)
  | not {a v} : Value n a v → Value n (.unop .not a) (truth (v = 0))
  | andFalse {a b} : Value n a 0 → Value n (.binop .and a b) 0
  | andTrue {a b v w} : Value n a v → v ≠ 0 → Value n b w → Value n (.binop .and a b) (truth (w ≠ 0))
  | orTrue {a b v} : Value n a v → v ≠ 0 → Value n (.binop .or a b) 1
  | orFalse {a b w} : Value n a 0 → Value n b w → Value n (.binop .or a b) (truth (w ≠ 0))
  | binop {o a b v w} : o ≠ .and → o ≠ .or → Value n a v → Value n b w → (o = .div ∨ o = .mod → w ≠ 0) → InRange (arith o v w) →
      Value n (.binop o a b) (arith o v w)
  | condTrue {a b c v w} : Value n a v → v ≠ 0 → Value n b w → Value n (.cond a b c) w
  | condFalse {a b c w} : Value n a 0 → Value n c w → Value n (.cond a b c) w

/-- The representative of `v` modulo 2^64 in the signed 64-bit range. -/
def wrap (v : Int) : Int := v.bmod (2 ^ 64)

/-- The value of a formula for all operands: results are reduced to the signed 64-bit range, a quotient by zero is the largest
number of the sign of the dividend, a remainder by zero is the dividend. -/
def meaning (n : Int) : Node → Int
  | .var => n
  | .num v => v.toInt
  | .unop .neg a => wrap (-meaning n a)
  | .unop .not a => truth (meaning n a = 0)
  | .binop .div a b =>
    if meaning n b = 0 then if meaning n a < 0 then -2 ^ 63 else 2 ^ 63 - 1 else wrap ((meaning n a).tdiv (meaning n b))
  | .binop .mod a b => if meaning n b = 0 then meaning n a else (meaning n a).tmod (meaning n b)
  | .binop o a b => wrap (arith o (meaning n a) (meaning n b))
  | .cond a b c => if meaning n a ≠ 0 then meaning n b else meaning n c

/-- Some negation that is evaluated has the operand -2^63. -/
def NegatesMin (n : Int) : Node → Prop
  | .var => False
  | .num _ => False
  | .unop .neg a => NegatesMin n a ∨ meaning n a = -2 ^ 63
  | .unop .not a => NegatesMin n a
  | .binop .and a b => NegatesMin n a ∨ (meaning n a ≠ 0 ∧ NegatesMin n b)
  | .binop .or a b => NegatesMin n a ∨ (meaning n a = 0 ∧ NegatesMin n b)
  | .binop _ a b => NegatesMin n a ∨ NegatesMin n b
  | .cond a b c => NegatesMin n a ∨ (meaning n a ≠ 0 ∧ NegatesMin n b) ∨ (meaning n a = 0 ∧ NegatesMin n c)

/-- The number a count stands for: `count as i64`. -/
def signed (count : UInt64) : Int := if count.toNat < 2 ^ 63 then count.toNat else count.toNat - 2 ^ 64

end Verif.Spec
