import Verif.Model.Table

/-!
The text of src/plural/formula/formula.lalrpop and how it is read: the part of lalrpop's grammar language that the file uses.
-/

namespace Verif

/-- The lines of src/plural/formula/formula.lalrpop, verbatim. -/
def grammarLines : List Str :=
  [c!"grammar;",
   c!"",
   c!"use crate::plural::formula::node::{Node, BinOp, UnOp};",
   c!"",
   c!"extern {",
   c!"    type Error = String;",
   c!"}",
   c!"",
   c!"pub(in crate::plural::formula) Formula = Expr;",
   c!"",
   c!"Expr: Node = {",
   c!"    <test:Or> \"?\" <if_true:Expr> \":\" <if_false:Expr> => Node::new_cond(test, if_true, if_false),",
   c!"    Or,",
   c!"};",
   c!"",
   c!"Or: Node = {",
   c!"    <l:Or> \"||\" <r:And> => Node::new_binop(BinOp::Or, l, r),",
   c!"    <l:Or> \"or\" <r:And> => Node::new_binop(BinOp::Or, l, r),",
   c!"    And,",
   c!"};",
   c!"",
   c!"And: Node = {",
   c!"    <l:And> \"&&\" <r:Logical> => Node::new_binop(BinOp::And, l, r),",
   c!"    <l:And> \"and\" <r:Logical> => Node::new_binop(BinOp::And, l, r),",
   c!"    Logical,",
   c!"};",
   c!"",
   c!"Logical: Node = {",
   c!"    <l:Logical> \"==\" <r:Not> => Node::new_binop(BinOp::Eq, l, r),",
   c!"    <l:Logical> \"!=\" <r:Not> => Node::new_binop(BinOp::Ne, l, r),",
   c!"    <l:Logical> \"<\" <r:Not> => Node::new_binop(BinOp::Lt, l, r),",
   c!"    <l:Logical> \"<=\" <r:Not> => Node::new_binop(BinOp::Lte, l, r),",
   c!"    <l:Logical> \">\" <r:Not> => Node::new_binop(BinOp::Gt, l, r),",
   c!"    <l:Logical> \">=\" <r:Not> => Node::new_binop(BinOp::Gte, l, r),",
   c!"    Not,",
   c!"};",
   c!"",
   c!"Not: Node = {",
   c!"    \"!\" <r:Add> => Node::new_unop(UnOp::Not, r),",
   c!"    \"not\" <r:Add> => Node::new_unop(UnOp::Not, r),",
   c!"    Add,",
   c!"};",
   c!"",
   c!"Add: Node = {",
   c!"    <l:Add> \"+\" <r:Mul> => Node::new_binop(BinOp::Add, l, r),",
   c!"    <l:Add> \"-\" <r:Mul> => Node::new_binop(BinOp::Sub, l, r),",
   c!"    Mul,",
   c!"};",
   c!"",
   c!"Mul: Node = {",
   c!"    <l:Mul> \"*\" <r:Factor> => Node::new_binop(BinOp::Mul, l, r),",
   c!"    <l:Mul> \"/\" <r:Factor> => Node::new_binop(BinOp::Div, l, r),",
   c!"    <l:Mul> \"%\" <r:Factor> => Node::new_binop(BinOp::Mod, l, r),",
   c!"    Factor,",
   c!"}",
   c!"",
   c!"Factor: Node = {",
   c!"    \"-\" <r:Term> => Node::new_unop(UnOp::Neg, r),",
   c!"    Term,",
   c!"};",
   c!"",
   c!"Term: Node = {",
   c!"    <n:Num> => Node::new_num(n),",
   c!"    \"n\" => Node::Var,",
   c!"    \"(\" <Expr> \")\",",
   c!"};",
   c!"",
   c!"Num: i64 = r\"[0-9]+\" =>? match (<>).parse() {",
   c!"    Ok(v) => Ok(v),",
   c!"    Err(err) => Err(err.to_string().into()),",
   c!"};"]

/-- The file. -/
def grammarText : Str := grammarLines.flatMap (· ++ ['\n'])

/-! ### Tokens of the file -/

/-- Signs. -/
inductive GSign where
  | lt | gt | colon | path | comma | semi | eq | lbrace | rbrace | lpar | rpar | arrow | fallible | angle | dot
  deriving DecidableEq

/-- Tokens of a grammar file: names, quoted literals, quoted regular expressions, signs. -/
inductive GTok where
  | id (s : Str)
  | str (s : Str)
  | re (s : Str)
  | sign (s : GSign)
  deriving DecidableEq

/-- The signs, those that begin with others first. -/
def signs : List (Str × GSign) :=
  [(c!"=>?", .fallible), (c!"=>", .arrow), (c!"::", .path), (c!"<>", .angle), (c!"<", .lt), (c!">", .gt), (c!":", .colon), (c!",", .comma),
   (c!";", .semi), (c!"=", .eq), (c!"{", .lbrace), (c!"}", .rbrace), (c!"(", .lpar), (c!")", .rpar), (c!".", .dot)]

/-- Characters of names. -/
def isName (c : Char) : Bool :=
  ('a'.toNat ≤ c.toNat && c.toNat ≤ 'z'.toNat) || ('A'.toNat ≤ c.toNat && c.toNat ≤ 'Z'.toNat) || ('0'.toNat ≤ c.toNat && c.toNat ≤ '9'.toNat) || c == '_'

/-- The tokens of a file; the literals of this file have no escapes.  Fuel: the first number. -/
def grammarTokens : Nat → Str → Option (List GTok)
  | 0, _ => none
  | k + 1, s =>
    match s.dropWhile (fun c => c == ' ' || c == '\n') with
    | [] => some []
    | 'r' :: '"' :: s => (grammarTokens k ((s.dropWhile (· != '"')).drop 1)).map (.re (s.takeWhile (· != '"')) :: ·)
    | '"' :: s => (grammarTokens k ((s.dropWhile (· != '"')).drop 1)).map (.str (s.takeWhile (· != '"')) :: ·)
    | c :: s =>
      if isName c then (grammarTokens k ((c :: s).dropWhile isName)).map (.id ((c :: s).takeWhile isName) :: ·)
      else match signs.find? fun p => p.1.isPrefixOf (c :: s) with
        | some p => (grammarTokens k ((c :: s).drop p.1.length)).map (.sign p.2 :: ·)
        | none => none

/-! ### Rules -/

/-- Symbols of right-hand sides. -/
inductive GSym where
  | id (s : Str)
  | str (s : Str)
  | re (s : Str)
  deriving DecidableEq

/-- A symbol, `<name:symbol>` or `<symbol>`. -/
inductive GPart where
  | plain (x : GSym)
  | named (n : Str) (x : GSym)
  | chosen (x : GSym)
  deriving DecidableEq

/-- The symbol. -/
def GPart.sym : GPart → GSym
  | .plain x | .named _ x | .chosen x => x

/-- Action code: none, after `=>`, after `=>?`. -/
inductive GCode where
  | none
  | plain (code : List GTok)
  | fallible (code : List GTok)
  deriving DecidableEq

/-- An alternative of a rule. -/
structure GAlt where
  parts : List GPart
  code : GCode
  deriving DecidableEq

/-- A rule. -/
structure GRule where
  name : Str
  alts : List GAlt
  deriving DecidableEq

/-- A token as a symbol. -/
def GTok.sym : GTok → Option GSym
  | .id s => some (.id s)
  | .str s => some (.str s)
  | .re s => some (.re s)
  | .sign _ => none

/-- The right-hand side, up to the code or the end of the alternative. -/
def parseParts : List GTok → Option (List GPart × List GTok)
  | .sign .lt :: .id n :: .sign .colon :: x :: .sign .gt :: ts => do
    let x ← x.sym
    let (ps, rest) ← parseParts ts
    some (.named n x :: ps, rest)
  | .sign .lt :: x :: .sign .gt :: ts => do
    let x ← x.sym
    let (ps, rest) ← parseParts ts
    some (.chosen x :: ps, rest)
  | .sign s :: ts => some ([], .sign s :: ts)
  | .id s :: ts => do
    let (ps, rest) ← parseParts ts
    some (.plain (.id s) :: ps, rest)
  | .str s :: ts => do
    let (ps, rest) ← parseParts ts
    some (.plain (.str s) :: ps, rest)
  | .re s :: ts => do
    let (ps, rest) ← parseParts ts
    some (.plain (.re s) :: ps, rest)
  | [] => some ([], [])

/-- Code up to `,`, `;` or a closing bracket outside of brackets. -/
def takeCode : Nat → List GTok → List GTok × List GTok
  | _, [] => ([], [])
  | d, t :: ts =>
    if d = 0 ∧ (t = .sign .comma ∨ t = .sign .semi ∨ t = .sign .rbrace) then ([], t :: ts)
    else
      let d' := if t = .sign .lbrace ∨ t = .sign .lpar then d + 1 else if t = .sign .rbrace ∨ t = .sign .rpar then d - 1 else d
      (t :: (takeCode d' ts).1, (takeCode d' ts).2)

/-- An alternative. -/
def parseAlternative (ts : List GTok) : Option (GAlt × List GTok) := do
  let (ps, rest) ← parseParts ts
  match rest with
  | .sign .arrow :: rest => some (⟨ps, .plain (takeCode 0 rest).1⟩, (takeCode 0 rest).2)
  | .sign .fallible :: rest => some (⟨ps, .fallible (takeCode 0 rest).1⟩, (takeCode 0 rest).2)
  | rest => some (⟨ps, .none⟩, rest)

/-- Alternatives in braces, with commas, up to the closing brace.  Fuel: the first number. -/
def parseAlternatives : Nat → List GTok → Option (List GAlt × List GTok)
  | 0, _ => none
  | _ + 1, .sign .rbrace :: rest => some ([], rest)
  | k + 1, ts => do
    let (a, rest) ← parseAlternative ts
    match rest with
    | .sign .comma :: rest => do
      let (as, rest) ← parseAlternatives k rest
      some (a :: as, rest)
    | .sign .rbrace :: rest => some ([a], rest)
    | _ => none

/-- `{ ... }` or one alternative. -/
def parseBody : List GTok → Option (List GAlt × List GTok)
  | .sign .lbrace :: ts => parseAlternatives ts.length ts
  | ts => do
    let (a, rest) ← parseAlternative ts
    some ([a], rest)

/-- The tokens after the first such sign. -/
def skipTo (s : GSign) (ts : List GTok) : List GTok := (ts.dropWhile (· != .sign s)).drop 1

/-- The items of the file.  Fuel: the first number. -/
def parseItems : Nat → List GTok → Option (List GRule)
  | 0, _ => none
  | _ + 1, [] => some []
  | k + 1, .sign .semi :: ts => parseItems k ts
  | k + 1, .id name :: ts =>
    if name = c!"grammar" ∨ name = c!"use" then parseItems k (skipTo .semi ts)
    else if name = c!"extern" then parseItems k (skipTo .rbrace ts)
    else if name = c!"pub" then
      match ts with
      | .sign .lpar :: ts => parseItems k (skipTo .rpar ts)
      | ts => parseItems k ts
    else do
      let (as, rest) ← parseBody (skipTo .eq ts)
      let rs ← parseItems k rest
      some (⟨name, as⟩ :: rs)
  | _ + 1, _ => none

/-- The rules of a grammar file. -/
def readGrammar (text : Str) : Option (List GRule) := (grammarTokens (text.length + 1) text).bind fun ts => parseItems (ts.length + 1) ts

end Verif
