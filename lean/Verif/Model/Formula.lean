import Verif.Model.Unicode
import Verif.Model.Error

/-! Model of src/plural/formula: node.rs, formula.lalrpop (lexer and grammar) and mod.rs. -/

namespace Verif

/-- `UnOp`, src/plural/formula/node.rs:1-5. -/
inductive UnOp where
  | neg | not
  deriving DecidableEq

/-- `BinOp`, src/plural/formula/node.rs:7-22. -/
inductive BinOp where
  | add | sub | mul | div | mod | and | or | eq | ne | lt | lte | gt | gte
  deriving DecidableEq

/-- `Node`, src/plural/formula/node.rs:42-60. -/
inductive Node where
  | var
  | num (v : Int64)
  | unop (op : UnOp) (rhs : Node)
  | binop (op : BinOp) (lhs rhs : Node)
  | cond (test ifTrue ifFalse : Node)
  deriving DecidableEq

/-- `bool_to_num`, src/plural/formula/node.rs:24-31. -/
def boolToNum (b : Bool) : Int64 := if b then 1 else 0

/-- `get_infinity`, src/plural/formula/node.rs:33-40. -/
def getInfinity (v : Int64) : Int64 := if v < 0 then Int64.minValue else Int64.maxValue

/-- Unary `-` on `i64`: with overflow checks (`dbg`, the default of debug builds) negating `i64::MIN` panics; without, it wraps. -/
def negI64 (dbg : Bool) (v : Int64) : Out Int64 := if dbg && v == Int64.minValue then .panic else .ok (-v)

/-- Sequencing of Rust calls. -/
def Out.bind {α β : Type} (x : Out α) (f : α → Out β) : Out β :=
  match x with
  | .ok a => f a
  | .err e => .err e
  | .panic => .panic

/-- The strict part of `Node::execute`'s binary operators, src/plural/formula/node.rs:103-123 and 126-131 (all operators except
`And` and `Or`), on evaluated operands.  `overflowing_*(..).0` wraps. -/
def BinOp.apply (op : BinOp) (l r : Int64) : Int64 :=
  match op with
  | .add => l + r
  | .sub => l - r
  | .mul => l * r
  | .div => if r ≠ 0 then l / r else getInfinity l
  | .mod => if r ≠ 0 then l % r else l
  | .and => boolToNum (l != 0 && r != 0)
  | .or => boolToNum (l != 0 || r != 0)
  | .eq => boolToNum (l == r)
  | .ne => boolToNum (l != r)
  | .lt => boolToNum (decide (l < r))
  | .lte => boolToNum (decide (l ≤ r))
  | .gt => boolToNum (decide (l > r))
  | .gte => boolToNum (decide (l ≥ r))

/-- `Node::execute`, src/plural/formula/node.rs:91-146.  `dbg` says whether the build has overflow checks.  `&&` and `||` do not
evaluate the right operand when the left one decides (lines 124-125), and a conditional evaluates one branch (lines 139-143). -/
def Node.execute (dbg : Bool) (n : Int64) : Node → Out Int64
  | .var => .ok n
  | .num v => .ok v
  | .unop .not rhs => (rhs.execute dbg n).bind fun v => .ok (boolToNum (v == 0))
  | .unop .neg rhs => (rhs.execute dbg n).bind fun v => negI64 dbg v
  | .binop op lhs rhs =>
    (lhs.execute dbg n).bind fun l =>
      match op with
      | .and => if l != 0 then (rhs.execute dbg n).bind fun r => .ok (boolToNum (r != 0)) else .ok (boolToNum false)
      | .or => if l != 0 then .ok (boolToNum true) else (rhs.execute dbg n).bind fun r => .ok (boolToNum (r != 0))
      | op => (rhs.execute dbg n).bind fun r => .ok (op.apply l r)
  | .cond test t f =>
    (test.execute dbg n).bind fun v => if v != 0 then t.execute dbg n else f.execute dbg n

/-! ### Lexer -/

/-- Terminals of src/plural/formula/formula.lalrpop. -/
inductive Tok where
  | bang | ne | percent | andand | lpar | rpar | star | plus | minus | slash | colon
  | lt | le | eqeq | gt | ge | quest | kwAnd | n | kwNot | kwOr | oror
  /-- `r"[0-9]+"` -/
  | num (digits : Str)
  deriving DecidableEq

/-- The literal terminals of the grammar file (lines 12-65). -/
def literals : List (Str × Tok) :=
  [(c!"?", .quest), (c!":", .colon), (c!"||", .oror), (c!"or", .kwOr), (c!"&&", .andand), (c!"and", .kwAnd),
   (c!"==", .eqeq), (c!"!=", .ne), (c!"<", .lt), (c!"<=", .le), (c!">", .gt), (c!">=", .ge),
   (c!"!", .bang), (c!"not", .kwNot), (c!"+", .plus), (c!"-", .minus), (c!"*", .star), (c!"/", .slash),
   (c!"%", .percent), (c!"n", .n), (c!"(", .lpar), (c!")", .rpar)]

/-- `[0-9]` -/
def isDigit09 (c : Char) : Bool := '0'.toNat ≤ c.toNat && c.toNat ≤ '9'.toNat

/-- The longest literal that starts the text, if any. -/
def longestLiteral (s : Str) : Option (Str × Tok) :=
  literals.foldl (fun best p =>
    if p.1.isPrefixOf s then
      match best with
      | none => some p
      | some q => if q.1.length < p.1.length then some p else best
    else best) none

/-- One token: lalrpop's generated lexer takes the longest match among the literals and `[0-9]+` (no literal starts with a digit,
so there are no ties). -/
def lexOne (s : Str) : Option (Tok × Str) :=
  match s.takeWhile isDigit09 with
  | [] => (longestLiteral s).map fun p => (p.2, s.drop p.1.length)
  | ds => some (.num ds, s.dropWhile isDigit09)

/-- The generated lexer: white space is skipped between tokens; a text that is no token is an error.  Fuel: every token takes at
least one character, so the length of the text is enough. -/
def lexAux : Nat → Str → Option (List Tok)
  | 0, s => if (trimStart s).isEmpty then some [] else none
  | k + 1, s =>
    match trimStart s with
    | [] => some []
    | c :: cs => (lexOne (c :: cs)).bind fun p => (lexAux k p.2).map (p.1 :: ·)

/-- All tokens of a text. -/
def lex (s : Str) : Option (List Tok) := lexAux s.length s

/-! ### Grammar

`Derives` transcribes formula.lalrpop production by production: `Derives nt w t` says that the token sequence `w` is derivable
from the nonterminal `nt` and that the semantic actions build the tree `t`. -/

/-- The nonterminals of formula.lalrpop. -/
inductive NT where
  | expr | or | and | logical | not | add | mul | factor | term
  deriving DecidableEq

/-- Value of a decimal numeral. -/
def digitsVal (ds : Str) : Nat := ds.foldl (fun v c => 10 * v + (c.toNat - '0'.toNat)) 0

/-- `Num`, formula.lalrpop:68-71: `i64::from_str` on a non-empty digit string; an overflow is a parse error. -/
def numVal (ds : Str) : Option Int64 := if digitsVal ds < 2 ^ 63 then some (Int64.ofNat (digitsVal ds)) else none

/-- The productions of src/plural/formula/formula.lalrpop:11-71. -/
inductive Derives : NT → List Tok → Node → Prop
  -- lines 11-14
  | exprCond {w₁ w₂ w₃ a b c} : Derives .or w₁ a → Derives .expr w₂ b → Derives .expr w₃ c →
      Derives .expr (w₁ ++ .quest :: (w₂ ++ .colon :: w₃)) (.cond a b c)
  | exprOr {w a} : Derives .or w a → Derives .expr w a
  -- lines 16-20
  | or1 {w₁ w₂ a b} : Derives .or w₁ a → Derives .and w₂ b → Derives .or (w₁ ++ .oror :: w₂) (.binop .or a b)
  | or2 {w₁ w₂ a b} : Derives .or w₁ a → Derives .and w₂ b → Derives .or (w₁ ++ .kwOr :: w₂) (.binop .or a b)
  | orAnd {w a} : Derives .and w a → Derives .or w a
  -- lines 22-26
  | and1 {w₁ w₂ a b} : Derives .and w₁ a → Derives .logical w₂ b → Derives .and (w₁ ++ .andand :: w₂) (.binop .and a b)
  | and2 {w₁ w₂ a b} : Derives .and w₁ a → Derives .logical w₂ b → Derives .and (w₁ ++ .kwAnd :: w₂) (.binop .and a b)
  | andLogical {w a} : Derives .logical w a → Derives .and w a
  -- lines 28-36
  | logEq {w₁ w₂ a b} : Derives .logical w₁ a → Derives .not w₂ b → Derives .logical (w₁ ++ .eqeq :: w₂) (.binop .eq a b)
  | logNe {w₁ w₂ a b} : Derives .logical w₁ a → Derives .not w₂ b → Derives .logical (w₁ ++ .ne :: w₂) (.binop .ne a b)
  | logLt {w₁ w₂ a b} : Derives .logical w₁ a → Derives .not w₂ b → Derives .logical (w₁ ++ .lt :: w₂) (.binop .lt a b)
  | logLte {w₁ w₂ a b} : Derives .logical w₁ a → Derives .not w₂ b → Derives .logical (w₁ ++ .le :: w₂) (.binop .lte a b)
  | logGt {w₁ w₂ a b} : Derives .logical w₁ a → Derives .not w₂ b → Derives .logical (w₁ ++ .gt :: w₂) (.binop .gt a b)
  | logGte {w₁ w₂ a b} : Derives .logical w₁ a → Derives .not w₂ b → Derives .logical (w₁ ++ .ge :: w₂) (.binop .gte a b)
  | logNot {w a} : Derives .not w a → Derives .logical w a
  -- lines 38-42
  | not1 {w a} : Derives .add w a → Derives .not (.bang :: w) (.unop .not a)
  | not2 {w a} : Derives .add w a → Derives .not (.kwNot :: w) (.unop .not a)
  | notAdd {w a} : Derives .add w a → Derives .not w a
  -- lines 44-48
  | addAdd {w₁ w₂ a b} : Derives .add w₁ a → Derives .mul w₂ b → Derives .add (w₁ ++ .plus :: w₂) (.binop .add a b)
  | addSub {w₁ w₂ a b} : Derives .add w₁ a → Derives .mul w₂ b → Derives .add (w₁ ++ .minus :: w₂) (.binop .sub a b)
  | addMul {w a} : Derives .mul w a → Derives .add w a
  -- lines 50-55
  | mulMul {w₁ w₂ a b} : Derives .mul w₁ a → Derives .factor w₂ b → Derives .mul (w₁ ++ .star :: w₂) (.binop .mul a b)
  | mulDiv {w₁ w₂ a b} : Derives .mul w₁ a → Derives .factor w₂ b → Derives .mul (w₁ ++ .slash :: w₂) (.binop .div a b)
  | mulMod {w₁ w₂ a b} : Derives .mul w₁ a → Derives .factor w₂ b → Derives .mul (w₁ ++ .percent :: w₂) (.binop .mod a b)
  | mulFactor {w a} : Derives .factor w a → Derives .mul w a
  -- lines 57-60
  | factorNeg {w a} : Derives .term w a → Derives .factor (.minus :: w) (.unop .neg a)
  | factorTerm {w a} : Derives .term w a → Derives .factor w a
  -- lines 62-66, 68-71
  | termNum {ds v} : numVal ds = some v → Derives .term [.num ds] (.num v)
  | termVar : Derives .term [.n] .var
  | termParen {w a} : Derives .expr w a → Derives .term (.lpar :: (w ++ [.rpar])) a

/-! ### Executable parser

lalrpop generates a table-driven parser for the grammar; the model is a recursive-descent parser for the same grammar, proved
equivalent to `Derives` (property C27). -/

/-- A parser of a prefix of the tokens. -/
abbrev P := List Tok → Option (Node × List Tok)

/-- The rest of a left-recursive level: `(op operand)*`, building to the left.  Fuel: number of tokens. -/
def loopL (op : Tok → Option BinOp) (sub : P) : Nat → Node → P
  | 0, _, _ => none
  | _ + 1, l, [] => some (l, [])
  | k + 1, l, t :: ts =>
    match op t with
    | none => some (l, t :: ts)
    | some o => (sub ts).bind fun p => loopL op sub k (.binop o l p.1) p.2

/-- A left-recursive level of the grammar. -/
def levelL (op : Tok → Option BinOp) (sub : P) : P := fun ts =>
  (sub ts).bind fun p => loopL op sub (p.2.length + 1) p.1 p.2

/-- Operators of `Or`, formula.lalrpop:16-20. -/
def orOp : Tok → Option BinOp
  | .oror => some .or | .kwOr => some .or | _ => none
/-- Operators of `And`, formula.lalrpop:22-26. -/
def andOp : Tok → Option BinOp
  | .andand => some .and | .kwAnd => some .and | _ => none
/-- Operators of `Logical`, formula.lalrpop:28-36. -/
def logicalOp : Tok → Option BinOp
  | .eqeq => some .eq | .ne => some .ne | .lt => some .lt | .le => some .lte | .gt => some .gt | .ge => some .gte | _ => none
/-- Operators of `Add`, formula.lalrpop:44-48. -/
def addOp : Tok → Option BinOp
  | .plus => some .add | .minus => some .sub | _ => none
/-- Operators of `Mul`, formula.lalrpop:50-55. -/
def mulOp : Tok → Option BinOp
  | .star => some .mul | .slash => some .div | .percent => some .mod | _ => none

/-- `Term`, formula.lalrpop:62-71; `e` parses a nested `Expr`. -/
def pTerm (e : P) : P
  | .num ds :: ts => (numVal ds).map fun v => (.num v, ts)
  | .n :: ts => some (.var, ts)
  | .lpar :: ts => (e ts).bind fun p => match p.2 with
    | .rpar :: ts' => some (p.1, ts')
    | _ => none
  | _ => none

/-- `Factor`, formula.lalrpop:57-60. -/
def pFactor (e : P) : P
  | .minus :: ts => (pTerm e ts).map fun p => (.unop .neg p.1, p.2)
  | ts => pTerm e ts

/-- `Mul`, formula.lalrpop:50-55. -/
def pMul (e : P) : P := levelL mulOp (pFactor e)
/-- `Add`, formula.lalrpop:44-48. -/
def pAdd (e : P) : P := levelL addOp (pMul e)

/-- `Not`, formula.lalrpop:38-42. -/
def pNot (e : P) : P
  | .bang :: ts => (pAdd e ts).map fun p => (.unop .not p.1, p.2)
  | .kwNot :: ts => (pAdd e ts).map fun p => (.unop .not p.1, p.2)
  | ts => pAdd e ts

/-- `Logical`, formula.lalrpop:28-36. -/
def pLogical (e : P) : P := levelL logicalOp (pNot e)
/-- `And`, formula.lalrpop:22-26. -/
def pAnd (e : P) : P := levelL andOp (pLogical e)
/-- `Or`, formula.lalrpop:16-20. -/
def pOr (e : P) : P := levelL orOp (pAnd e)

/-- `Expr`, formula.lalrpop:11-14; the number bounds the nesting depth. -/
def pExpr : Nat → P
  | 0 => fun _ => none
  | k + 1 => fun ts => (pOr (pExpr k) ts).bind fun p =>
    match p.2 with
    | .quest :: ts₁ => (pExpr k ts₁).bind fun q =>
      match q.2 with
      | .colon :: ts₂ => (pExpr k ts₂).map fun r => (.cond p.1 q.1 r.1, r.2)
      | _ => none
    | _ => some p

/-- `FormulaParser::parse` on tokens: the whole input must be an `Expr`. -/
def parseToks (ts : List Tok) : Option Node :=
  match pExpr (ts.length + 1) ts with
  | some (t, []) => some t
  | _ => none

/-- `Formula::parse`, src/plural/formula/mod.rs:14-28 (`none` is `Err(Error::PluralForms(_))`; the text of the message is made by
lalrpop and is a parameter of the model, see `Env.formulaMsg`). -/
def formulaParse (input : Str) : Option Node :=
  if (trim input).isEmpty then some .var else (lex (trim input)).bind parseToks

/-- `Formula::execute`, src/plural/formula/mod.rs:30-38.  `count as i64` and `res as usize` reinterpret the bits. -/
def formulaExecute (dbg : Bool) (expr : Node) (count : UInt64) : Out (Option Nat) :=
  (expr.execute dbg count.toInt64).bind fun res => .ok (if res < 0 then none else some res.toUInt64.toNat)

end Verif
