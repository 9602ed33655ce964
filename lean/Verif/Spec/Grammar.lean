import Verif.Model.Grammar
import Verif.Spec.Formula

/-! What a grammar file means: derivations with values, as lalrpop documents them. -/

namespace Verif.Spec

/-- `n` is the name of a part with this value. -/
def Named (a : GAlt) (vs : List LrValue) (n : Str) (v : LrValue) : Prop := ∃ (i : Nat) (x : GSym), a.parts[i]? = some (.named n x) ∧ vs[i]? = some v

/-- `BinOp`, src/plural/formula/node.rs:8-22. -/
def binNames : List (Str × BinOp) :=
  [(c!"Add", .add), (c!"Sub", .sub), (c!"Mul", .mul), (c!"Div", .div), (c!"Mod", .mod), (c!"And", .and), (c!"Or", .or), (c!"Eq", .eq), (c!"Ne", .ne),
   (c!"Lt", .lt), (c!"Lte", .lte), (c!"Gt", .gt), (c!"Gte", .gte)]

/-- `UnOp`, src/plural/formula/node.rs:1-5. -/
def unNames : List (Str × UnOp) := [(c!"Neg", .neg), (c!"Not", .not)]

/-- `Node::f(...)` -/
def nodeCall (f : Str) (args : List GTok) : List GTok :=
  [.id (c!"Node"), .sign .path, .id f, .sign .lpar] ++ args ++ [.sign .rpar]

/-- `match (<>).parse() { Ok(v) => Ok(v), Err(err) => Err(err.to_string().into()), }` -/
def parseCode : List GTok :=
  [.id (c!"match"), .sign .lpar, .sign .angle, .sign .rpar, .sign .dot, .id (c!"parse"), .sign .lpar, .sign .rpar, .sign .lbrace,
   .id (c!"Ok"), .sign .lpar, .id (c!"v"), .sign .rpar, .sign .arrow, .id (c!"Ok"), .sign .lpar, .id (c!"v"), .sign .rpar, .sign .comma,
   .id (c!"Err"), .sign .lpar, .id (c!"err"), .sign .rpar, .sign .arrow, .id (c!"Err"), .sign .lpar, .id (c!"err"), .sign .dot,
   .id (c!"to_string"), .sign .lpar, .sign .rpar, .sign .dot, .id (c!"into"), .sign .lpar, .sign .rpar, .sign .rpar, .sign .comma, .sign .rbrace]

/-- The value of an alternative whose parts have the values `vs`.  Without code it is the value of the only part, or of the part in angle brackets. -/
inductive Gives (a : GAlt) (vs : List LrValue) : LrValue → Prop
  | only {x v} : a.code = .none → a.parts = [.plain x] → vs = [v] → Gives a vs v
  | chosen {i : Nat} {x v} : a.code = .none → a.parts[i]? = some (.chosen x) → vs[i]? = some v → Gives a vs v
  | var : a.code = .plain [.id (c!"Node"), .sign .path, .id (c!"Var")] → Gives a vs (.node .var)
  | num {n v} : a.code = .plain (nodeCall (c!"new_num") [.id n]) → Named a vs n (.num v) → Gives a vs (.node (.num v))
  | unop {n t name op} : a.code = .plain (nodeCall (c!"new_unop") [.id (c!"UnOp"), .sign .path, .id name, .sign .comma, .id n]) → (name, op) ∈ unNames →
      Named a vs n (.node t) → Gives a vs (.node (.unop op t))
  | binop {n n' t t' name op} :
      a.code = .plain (nodeCall (c!"new_binop") [.id (c!"BinOp"), .sign .path, .id name, .sign .comma, .id n, .sign .comma, .id n']) → (name, op) ∈ binNames →
      Named a vs n (.node t) → Named a vs n' (.node t') → Gives a vs (.node (.binop op t t'))
  | cond {n n' n'' t t' t''} : a.code = .plain (nodeCall (c!"new_cond") [.id n, .sign .comma, .id n', .sign .comma, .id n'']) →
      Named a vs n (.node t) → Named a vs n' (.node t') → Named a vs n'' (.node t'') → Gives a vs (.node (.cond t t' t''))
  | parse {x ds} : a.code = .fallible parseCode → a.parts = [.plain x] → vs = [.tok (.num ds)] → Nat.ofDigitChars 10 ds 0 < 2 ^ 63 →
      Gives a vs (.num (Int64.ofNat (Nat.ofDigitChars 10 ds 0)))

/-- Symbols derive tokens, with values. -/
inductive Gen (g : List GRule) : List GSym → List Tok → List LrValue → Prop
  | nil : Gen g [] [] []
  | literal {s tok xs w vs} : Lexeme s tok → Gen g xs w vs → Gen g (.str s :: xs) (tok :: w) (.tok tok :: vs)
  | digits {ds xs w vs} : Gen g xs w vs → Gen g (.re (c!"[0-9]+") :: xs) (.num ds :: w) (.tok (.num ds) :: vs)
  | rule {r : GRule} {a : GAlt} {w₁ vs₁ v xs w₂ vs} : r ∈ g → a ∈ r.alts → Gen g (a.parts.map GPart.sym) w₁ vs₁ → Gives a vs₁ v → Gen g xs w₂ vs →
      Gen g (.id r.name :: xs) (w₁ ++ w₂) (v :: vs)

/-- `s` is a quoted literal of the grammar. -/
def HasLiteral (g : List GRule) (s : Str) : Prop := ∃ r ∈ g, ∃ a ∈ r.alts, ∃ p ∈ a.parts, p.sym = .str s

end Verif.Spec
