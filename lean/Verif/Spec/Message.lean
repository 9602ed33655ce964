import Verif.Model.Message
import Verif.Spec.Table

/-! The message for a text that is no formula, stated with the grammar alone. -/

namespace Verif.Spec

/-- The number of bytes of a text in UTF-8. -/
def bytes : Str → Nat
  | [] => 0
  | c :: cs => c.utf8Size + bytes cs

/-- `Spans o s sp bad`: the tokens of the text `s`, which begins at byte `o`, are `sp` with their texts and places; they go to the end (`bad = none`), or to a
place where no token begins. -/
inductive Spans : Nat → Str → List Span → Option Nat → Prop
  | nil {o ws} : White ws → Spans o ws [] none
  | bad {o ws c cs} : White ws → isWhite c = false → (∀ lx tok, Lexeme lx tok → ¬ lx <+: c :: cs) → Spans o (ws ++ c :: cs) [] (some (o + bytes ws))
  | cons {o ws lx rest tok sp bad} : White ws → Lexeme lx tok →
      (∀ lx' tok', Lexeme lx' tok' → lx' <+: lx ++ rest → lx'.length ≤ lx.length) → Spans (o + bytes ws + bytes lx) rest sp bad →
      Spans o (ws ++ (lx ++ rest)) (⟨o + bytes ws, lx, tok, o + bytes ws + bytes lx⟩ :: sp) bad

/-- The tokens. -/
def toks (sp : List Span) : List Tok := sp.map (·.tok)

/-- How the tokens are named in messages, in the order of the messages. -/
def tokenNames : List (Str × Tok) :=
  [(c!"\"!\"", .bang), (c!"\"!=\"", .ne), (c!"\"%\"", .percent), (c!"\"&&\"", .andand), (c!"\"(\"", .lpar), (c!"\")\"", .rpar), (c!"\"*\"", .star),
   (c!"\"+\"", .plus), (c!"\"-\"", .minus), (c!"\"/\"", .slash), (c!"\":\"", .colon), (c!"\"<\"", .lt), (c!"\"<=\"", .le), (c!"\"==\"", .eqeq),
   (c!"\">\"", .gt), (c!"\">=\"", .ge), (c!"\"?\"", .quest), (c!"\"and\"", .kwAnd), (c!"\"n\"", .n), (c!"\"not\"", .kwNot), (c!"\"or\"", .kwOr),
   (c!"\"||\"", .oror), (c!"r#\"[0-9]+\"#", .num ['0'])]

/-- An operand has just ended. -/
def AfterOperand (p : List Tok) : Prop := ∃ q a, p = q ++ [a] ∧ (a = .n ∨ a = .rpar ∨ ∃ ds, a = .num ds)

/-- A closing sign. -/
def Closing (a : Tok) : Prop := a = .rpar ∨ a = .colon

/-- A token with which an operand begins. -/
def Opening : Tok → Prop
  | .n | .num _ | .lpar | .bang | .kwNot => True
  | _ => False

/-- What is named as expected after `p` when the next token is `a` (`none`: the end): if an operand is missing, what a formula can go on with; after an operand,
at a closing sign or the end, the closing signs it can go on with; after an operand, at another token, what it can go on with, and the closing signs also if
`p` is a whole formula (`precise`), or everything that ever follows an operand. -/
inductive Expects (precise : Bool) (p : List Tok) (a : Option Tok) (b : Tok) : Prop
  | operand : ¬ AfterOperand p → Begins (p ++ [b]) → Expects precise p a b
  | close : AfterOperand p → (∀ x, a = some x → Closing x) → Closing b → Begins (p ++ [b]) → Expects precise p a b
  | more : precise = true → AfterOperand p → (∃ x, a = some x ∧ ¬ Closing x) → Begins (p ++ [b]) → Expects precise p a b
  | whole {t} : precise = true → AfterOperand p → (∃ x, a = some x ∧ ¬ Closing x) → Derives .expr p t → Closing b → Expects precise p a b
  | row : precise = false → AfterOperand p → (∃ x, a = some x ∧ ¬ Closing x) → ¬ Opening b → Expects precise p a b

/-- The names of what is expected. -/
def Names (precise : Bool) (p : List Tok) (a : Option Tok) (es : List Str) : Prop :=
  ∃ ps, List.Sublist ps tokenNames ∧ (∀ q ∈ tokenNames, q ∈ ps ↔ Expects precise p a q.2) ∧ es = ps.map (·.1)

/-- `a`, `a or b`, `a, b or c`, … -/
def enumeration : List Str → Str
  | [] => []
  | [a] => a
  | [a, b] => a ++ c!" or " ++ b
  | a :: b :: es => a ++ c!", " ++ enumeration (b :: es)

/-- The second line of a message. -/
def ExpectLine (precise : Bool) (p : List Tok) (a : Option Tok) (m : Str) : Prop :=
  ∃ es, Names precise p a es ∧ es ≠ [] ∧ m = c!"\nExpected one of " ++ enumeration es

/-- `Says precise sp bad m`: the message for the tokens `sp`, which end at the end of the text or where no token begins. -/
inductive Says (precise : Bool) : List Span → Option Nat → Str → Prop
  | noToken {sp o} : Begins (toks sp) → Says precise sp (some o) (c!"Invalid token at " ++ Nat.toDigits 10 o)
  | noTokenAfter {sp x ds o} : x.tok = .num ds → Begins (toks sp ++ [.num ['0']]) → Says precise (sp ++ [x]) (some o) (c!"Invalid token at " ++ Nat.toDigits 10 o)
  | early {sp x line} : Begins (toks (sp ++ [x])) → (¬ ∃ t, Derives .expr (toks (sp ++ [x])) t) → ExpectLine precise (toks (sp ++ [x])) none line →
      Says precise (sp ++ [x]) none (c!"Unrecognized EOF found at " ++ Nat.toDigits 10 x.stop ++ line)
  | large {sp x ds rest bad} : x.tok = .num ds → Begins (toks sp ++ [.num ['0']]) → 2 ^ 63 ≤ Nat.ofDigitChars 10 ds 0 → (rest = [] → bad = none) →
      Says precise (sp ++ x :: rest) bad (c!"number too large to fit in target type")
  | extra {sp t x rest bad} : Derives .expr (toks sp) t → Closing x.tok →
      Says precise (sp ++ x :: rest) bad (c!"Extra token " ++ x.text ++ c!" found at " ++ Nat.toDigits 10 x.start ++ c!":" ++ Nat.toDigits 10 x.stop)
  | unexpected {sp x rest bad line} : Begins (toks sp) → ¬ Begins (toks sp ++ [plain x.tok]) → ¬ ((∃ t, Derives .expr (toks sp) t) ∧ Closing x.tok) →
      ExpectLine precise (toks sp) (some x.tok) line →
      Says precise (sp ++ x :: rest) bad
        (c!"Unrecognized token `" ++ x.text ++ c!"` found at " ++ Nat.toDigits 10 x.start ++ c!":" ++ Nat.toDigits 10 x.stop ++ line)

end Verif.Spec
