import Verif.Model.Formula

/-!
The parser that lalrpop makes from src/plural/formula/formula.lalrpop: a shift-reduce parser driven by the LR(0) automaton of the grammar.  A state with one
completed production and nothing to shift reduces whatever comes next; in the other states a production is reduced when the next terminal is in its
lookahead set (for this grammar the LALR(1) sets are the sets of terminals that can follow the nonterminal).  The states are sets of items, computed from the
productions when they are needed; the generated code numbers them.
-/

namespace Verif

/-- Terminals of formula.lalrpop without the digits of numerals, and the end of the input. -/
inductive Terminal where
  | bang | ne | percent | andand | lpar | rpar | star | plus | minus | slash | colon
  | lt | le | eqeq | gt | ge | quest | kwAnd | n | kwNot | kwOr | oror | digits | eof
  deriving DecidableEq

/-- The terminal of a token. -/
def Tok.terminal : Tok → Terminal
  | .bang => .bang | .ne => .ne | .percent => .percent | .andand => .andand | .lpar => .lpar | .rpar => .rpar | .star => .star | .plus => .plus
  | .minus => .minus | .slash => .slash | .colon => .colon | .lt => .lt | .le => .le | .eqeq => .eqeq | .gt => .gt | .ge => .ge | .quest => .quest
  | .kwAnd => .kwAnd | .n => .n | .kwNot => .kwNot | .kwOr => .kwOr | .oror => .oror | .num _ => .digits

/-- Nonterminals: those of formula.lalrpop and the start symbol lalrpop adds. -/
inductive Nonterminal where
  | start | formula | expr | or | and | logical | not | add | mul | factor | term | num
  deriving DecidableEq

/-- Symbols of the grammar. -/
inductive Symbol where
  | t (a : Terminal)
  | a (a : Nonterminal)
  deriving DecidableEq

/-- Values on the stack of the parser. -/
inductive LrValue where
  | tok (t : Tok)
  | num (v : Int64)
  | node (t : Node)

/-- Result of a semantic action: a value, the error of a fallible action (`=>?`), or values of the wrong types (a panic). -/
inductive Action where
  | value (v : LrValue)
  | refused
  | mismatch

/-- A production with its semantic action on the values of the right-hand side. -/
structure Production where
  lhs : Nonterminal
  rhs : List Symbol
  act : List LrValue → Action

/-- A production with one symbol and no action. -/
def actSame : List LrValue → Action
  | [v] => .value v
  | _ => .mismatch

/-- `Node::new_cond(test, if_true, if_false)` -/
def actCond : List LrValue → Action
  | [.node a, .tok _, .node b, .tok _, .node c] => .value (.node (.cond a b c))
  | _ => .mismatch

/-- `Node::new_binop(op, l, r)` -/
def actBin (op : BinOp) : List LrValue → Action
  | [.node l, .tok _, .node r] => .value (.node (.binop op l r))
  | _ => .mismatch

/-- `Node::new_unop(op, r)` -/
def actUn (op : UnOp) : List LrValue → Action
  | [.tok _, .node r] => .value (.node (.unop op r))
  | _ => .mismatch

/-- `Node::new_num(n)` -/
def actNum : List LrValue → Action
  | [.num v] => .value (.node (.num v))
  | _ => .mismatch

/-- `Node::Var` -/
def actVar : List LrValue → Action
  | [.tok _] => .value (.node .var)
  | _ => .mismatch

/-- `"(" <Expr> ")"` -/
def actParen : List LrValue → Action
  | [.tok _, .node t, .tok _] => .value (.node t)
  | _ => .mismatch

/-- `Num`, formula.lalrpop:68-71. -/
def actDigits : List LrValue → Action
  | [.tok (.num ds)] =>
    match numVal ds with
    | some v => .value (.num v)
    | none => .refused
  | _ => .mismatch

/-- A production `A = A op B`. -/
def binary (a : Nonterminal) (op : Terminal) (b : Nonterminal) (o : BinOp) : Production := ⟨a, [.a a, .t op, .a b], actBin o⟩

/-- A production `A = B`. -/
def single (a b : Nonterminal) : Production := ⟨a, [.a b], actSame⟩

/-- The productions of formula.lalrpop:9-71, after the one for the start symbol. -/
def productions : List Production :=
  [single .start .formula,
   -- line 9
   single .formula .expr,
   -- lines 11-14
   ⟨.expr, [.a .or, .t .quest, .a .expr, .t .colon, .a .expr], actCond⟩, single .expr .or,
   -- lines 16-20
   binary .or .oror .and .or, binary .or .kwOr .and .or, single .or .and,
   -- lines 22-26
   binary .and .andand .logical .and, binary .and .kwAnd .logical .and, single .and .logical,
   -- lines 28-36
   binary .logical .eqeq .not .eq, binary .logical .ne .not .ne, binary .logical .lt .not .lt, binary .logical .le .not .lte,
   binary .logical .gt .not .gt, binary .logical .ge .not .gte, single .logical .not,
   -- lines 38-42
   ⟨.not, [.t .bang, .a .add], actUn .not⟩, ⟨.not, [.t .kwNot, .a .add], actUn .not⟩, single .not .add,
   -- lines 44-48
   binary .add .plus .mul .add, binary .add .minus .mul .sub, single .add .mul,
   -- lines 50-55
   binary .mul .star .factor .mul, binary .mul .slash .factor .div, binary .mul .percent .factor .mod, single .mul .factor,
   -- lines 57-60
   ⟨.factor, [.t .minus, .a .term], actUn .neg⟩, single .factor .term,
   -- lines 62-66
   ⟨.term, [.a .num], actNum⟩, ⟨.term, [.t .n], actVar⟩, ⟨.term, [.t .lpar, .a .expr, .t .rpar], actParen⟩,
   -- lines 68-71
   ⟨.num, [.t .digits], actDigits⟩]

/-! ### The automaton -/

/-- An item: a production (its place in `productions`) and how many symbols of its right-hand side have been read. -/
structure LrItem where
  prod : Nat
  dot : Nat
  deriving DecidableEq

/-- A state: its kernel items. -/
abbrev LrState := List LrItem

/-- The symbol after the dot. -/
def LrItem.next (i : LrItem) : Option Symbol := (productions[i.prod]?).bind fun p => p.rhs[i.dot]?

/-- The items that begin a production of `A`. -/
def beginnings (a : Nonterminal) : List LrItem :=
  (List.range productions.length).filterMap fun j => if (productions[j]?).map (·.lhs) = some a then some ⟨j, 0⟩ else none

/-- The nonterminals a production of `A` can begin with, with `A` and those not in `seen`; `k` bounds the depth. -/
def heads : Nat → List Nonterminal → List Nonterminal → List Nonterminal
  | 0, seen, _ => seen
  | _ + 1, seen, [] => seen
  | k + 1, seen, todo =>
    let seen := seen ++ todo
    let new := todo.flatMap fun a => (beginnings a).filterMap fun i =>
      match i.next with
      | some (.a b) => if b ∈ seen then none else some b
      | _ => none
    heads k seen new.eraseDups

/-- The nonterminals after a dot. -/
def afterDots (s : LrState) : List Nonterminal :=
  s.filterMap fun i => match i.next with
    | some (.a b) => some b
    | _ => none

/-- All items of a state: the kernel, and the beginnings of the productions of the nonterminals that can come next. -/
def closure (s : LrState) : List LrItem := s ++ (heads 12 [] (afterDots s).eraseDups).flatMap beginnings

/-- The state after reading `x`; no items mean that `x` cannot come next. -/
def goto (s : LrState) (x : Symbol) : LrState := (closure s).filterMap fun i => if i.next = some x then some ⟨i.prod, i.dot + 1⟩ else none

/-- The first state. -/
def startState : LrState := [⟨0, 0⟩]

/-- The terminals that can follow a nonterminal: the lookahead sets of its completed productions. -/
def lookahead : Nonterminal → List Terminal
  | .start => [.eof]
  | .formula => [.eof]
  | .expr => [.eof, .rpar, .colon]
  | .or => [.eof, .rpar, .colon, .quest, .oror, .kwOr]
  | .and => [.eof, .rpar, .colon, .quest, .oror, .kwOr, .andand, .kwAnd]
  | .logical => [.eof, .rpar, .colon, .quest, .oror, .kwOr, .andand, .kwAnd, .eqeq, .ne, .lt, .le, .gt, .ge]
  | .not => [.eof, .rpar, .colon, .quest, .oror, .kwOr, .andand, .kwAnd, .eqeq, .ne, .lt, .le, .gt, .ge]
  | .add => [.eof, .rpar, .colon, .quest, .oror, .kwOr, .andand, .kwAnd, .eqeq, .ne, .lt, .le, .gt, .ge, .plus, .minus]
  | .mul | .factor | .term | .num =>
    [.eof, .rpar, .colon, .quest, .oror, .kwOr, .andand, .kwAnd, .eqeq, .ne, .lt, .le, .gt, .ge, .plus, .minus, .star, .slash, .percent]

/-- What to do. -/
inductive Move where
  | shift
  | reduce (j : Nat)
  | error
  deriving DecidableEq

/-- The productions that have been read completely. -/
def completed (s : LrState) : List Nat :=
  s.filterMap fun i => if (productions[i.prod]?).map (·.rhs.length) = some i.dot then some i.prod else none

/-- The entry of the action table. -/
def move (s : LrState) (a : Terminal) : Move :=
  match s, completed s with
  | [_], [j] => .reduce j
  | _, js =>
    if goto s (.t a) ≠ [] then .shift
    else match js.find? fun j => (productions[j]?).any fun p => a ∈ lookahead p.lhs with
      | some j => .reduce j
      | none => .error

/-! ### The parser -/

/-- Results of the generated parser: `lalrpop_util::ParseError` with the tokens that have not been shifted, without positions and sets of expected tokens. -/
inductive LrResult where
  | accept (t : Node)
  /-- `InvalidToken`: a text that is no token. -/
  | invalidToken
  /-- `UnrecognizedToken`, and `UnrecognizedEof` if nothing is left. -/
  | unrecognized (rest : List Tok)
  /-- `ExtraToken` -/
  | extra (rest : List Tok)
  /-- `User`: the error of `Num`. -/
  | user (rest : List Tok)
  /-- A panic in the generated code, or a run longer than the bound. -/
  | stuck

/-- The top of the stack of states; the stack holds the values with the states after them. -/
def topState : List (LrValue × LrState) → LrState
  | [] => startState
  | (_, s) :: _ => s

/-- The next terminal. -/
def nextTerminal : List Tok → Terminal
  | [] => .eof
  | t :: _ => t.terminal

/-- One step of lalrpop's generated parsers: a result, or another stack and the tokens that are left.  The next token is asked for before anything else, so a
text that is no token (`eof = false` at the end of the tokens) is reported first.  Completing the start production is success at the end of the tokens,
`ExtraToken` otherwise. -/
def lrStep (eof : Bool) (st : List (LrValue × LrState)) (ts : List Tok) : LrResult ⊕ List (LrValue × LrState) × List Tok :=
  if ts.isEmpty && !eof then .inl .invalidToken
  else match move (topState st) (nextTerminal ts) with
    | .error => .inl (.unrecognized ts)
    | .shift =>
      match ts with
      | [] => .inl .stuck
      | t :: ts' => .inr ((.tok t, goto (topState st) (.t t.terminal)) :: st, ts')
    | .reduce j =>
      match productions[j]? with
      | none => .inl .stuck
      | some p =>
        if st.length < p.rhs.length then .inl .stuck
        else match p.act ((st.take p.rhs.length).map (·.1)).reverse with
          | .mismatch => .inl .stuck
          | .refused => .inl (.user ts)
          | .value v =>
            if p.lhs = .start then
              match ts, v with
              | [], .node t => .inl (.accept t)
              | [], _ => .inl .stuck
              | _ :: _, _ => .inl (.extra ts)
            else .inr ((v, goto (topState (st.drop p.rhs.length)) (.a p.lhs)) :: st.drop p.rhs.length, ts)

/-- The loop.  Fuel: the first number. -/
def lrLoop (eof : Bool) : Nat → List (LrValue × LrState) → List Tok → LrResult
  | 0, _, _ => .stuck
  | k + 1, st, ts =>
    match lrStep eof st ts with
    | .inl r => r
    | .inr (st', ts') => lrLoop eof k st' ts'

/-- The tokens of a text up to the first place that is no token, and whether there is none. -/
def lexUntilAux : Nat → Str → List Tok × Bool
  | 0, s => ([], (trimStart s).isEmpty)
  | k + 1, s =>
    match trimStart s with
    | [] => ([], true)
    | c :: cs =>
      match lexOne (c :: cs) with
      | none => ([], false)
      | some p => (p.1 :: (lexUntilAux k p.2).1, (lexUntilAux k p.2).2)

/-- `lexUntilAux` with enough fuel. -/
def lexUntil (s : Str) : List Tok × Bool := lexUntilAux s.length s

/-- `FormulaParser::parse`. -/
def lrParse (s : Str) : LrResult := lrLoop (lexUntil s).2 (14 * (lexUntil s).1.length + 14) [] (lexUntil s).1

end Verif
