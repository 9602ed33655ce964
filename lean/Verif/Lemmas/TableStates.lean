import Verif.Model.Table

/-! The states of the automaton for formulas, and what holds in all of them. -/

namespace Verif

/-- All terminals. -/
def terminals : List Terminal :=
  [.bang, .ne, .percent, .andand, .lpar, .rpar, .star, .plus, .minus, .slash, .colon, .lt, .le, .eqeq, .gt, .ge, .quest, .kwAnd, .n, .kwNot, .kwOr, .oror,
   .digits, .eof]

/-- All symbols. -/
def symbols : List Symbol :=
  terminals.map .t ++ [Nonterminal.start, .formula, .expr, .or, .and, .logical, .not, .add, .mul, .factor, .term, .num].map .a

theorem mem_terminals (a : Terminal) : a ∈ terminals := by cases a <;> decide
theorem mem_symbols (x : Symbol) : x ∈ symbols := by
  rcases x with a | a <;> cases a <;> decide

/-- The states that can be reached from `todo`. -/
def explore : Nat → List LrState → List LrState → List LrState
  | 0, seen, _ => seen
  | _ + 1, seen, [] => seen
  | k + 1, seen, s :: todo =>
    let new := (symbols.map (goto s)).eraseDups.filter fun g => g ≠ [] && !(g ∈ seen) && !(g ∈ todo) && !(g = s)
    explore k (seen ++ [s]) (todo ++ new)

/-- All states. -/
def states : List LrState := explore 60 [] [startState]

/-- The left-hand side of a production. -/
def lhsOf (j : Nat) : Option Nonterminal := (productions[j]?).map (·.lhs)
/-- The right-hand side of a production. -/
def rhsOf (j : Nat) : List Symbol := ((productions[j]?).map (·.rhs)).getD []

/-- The state after several symbols. -/
def walk : LrState → List Symbol → Option LrState
  | s, [] => some s
  | s, x :: xs => if goto s x = [] then none else walk (goto s x) xs

/-- The terminal in front of which the last symbol before `xs` is complete. -/
def follower : List Symbol → Terminal → Option Terminal
  | [], a => some a
  | .t b :: _, _ => some b
  | .a _ :: _, _ => none

/-- Every nonterminal among the symbols is followed by a terminal of its lookahead set, the last one by `a`. -/
def good : List Symbol → Terminal → Bool
  | [], _ => true
  | .t _ :: xs, a => good xs a
  | .a b :: xs, a => (match follower xs a with
      | some c => decide (c ∈ lookahead b)
      | none => false) && good xs a

/-- Reading a production of a nonterminal that can come next ends in a state that reduces it. -/
def checkReduce (s : LrState) : Bool :=
  (List.range 33).all fun j =>
    match lhsOf j with
    | none => false
    | some b => decide (goto s (.a b) = []) || match walk s (rhsOf j) with
      | none => false
      | some s' => (lookahead b).all fun a => decide (move s' a = .reduce j)

/-- What is checked for every state. -/
def checkState (s : LrState) : Bool :=
  (symbols.all fun x => decide (goto s x = []) || decide (goto s x ∈ states)) &&
  (terminals.all fun a => decide (goto s (.t a) = []) || decide (move s a = .shift)) &&
  decide (goto s (.t .eof) = []) && decide (goto s (.a .start) = []) &&
  checkReduce s &&
  ((closure s).all fun i => decide (i = ⟨0, 0⟩ ∧ s = startState) || (decide (i ≠ ⟨0, 0⟩) && match lhsOf i.prod with
    | none => false
    | some b => (decide (i.dot ≠ 0) || decide (goto s (.a b) ≠ [])) && decide (i.dot ≤ (rhsOf i.prod).length))) &&
  (decide (⟨32, 1⟩ ∉ s) || decide (s = [⟨32, 1⟩])) &&
  decide (s ≠ [])

set_option maxRecDepth 100000 in
theorem states_check : states.all checkState = true := by decide +kernel

set_option maxRecDepth 100000 in
/-- An `Or` is made an `Expr` only if the next terminal can follow an `Expr`. -/
theorem expr_check : (states.all fun s => terminals.all fun a => decide (move s a = .reduce 3 → a ∈ lookahead .expr)) = true := by decide +kernel

theorem start_mem : startState ∈ states := by decide +kernel

/-- What is checked for the productions. -/
theorem productions_check : ((List.range 33).all fun j => match lhsOf j with
    | none => false
    | some b => (lookahead b).all fun a => good (rhsOf j) a) = true := by decide +kernel

end Verif
