import Verif.Model.Table
import Verif.Model.Text

/-!
The message of `Error::PluralForms` for a text that is no formula (src/plural/formula/mod.rs:24): the `Display` text of `lalrpop_util::ParseError` for what
the generated parser reports, with byte positions in the text without the white space around it, and with the tokens the parser says it expected.

The wording and the way the expected tokens are found are lalrpop's (version 0.20 of lalrpop-util; no source in /repo except the text of one message in
src/po/reader.rs:341-342).  The generated code asks for the tokens that have an entry in the row of the action table on top of the stack, or (newer
versions of the generator) for those that can be shifted after the reductions they cause: the parameter `precise`.
-/

namespace Verif

/-- A token with its text and its byte positions, as the generated lexer gives it. -/
structure Span where
  start : Nat
  text : Str
  tok : Tok
  stop : Nat

/-- `str::len` -/
def utf8Len (s : Str) : Nat := (s.map Char.utf8Size).sum

/-- The generated lexer on the text from byte `o`: the tokens up to the first place that is none, and this place. -/
def spansAux : Nat → Nat → Str → List Span × Option Nat
  | 0, o, s => ([], if (trimStart s).isEmpty then none else some (o + utf8Len (s.takeWhile isWhite)))
  | k + 1, o, s =>
    match trimStart s with
    | [] => ([], none)
    | c :: cs =>
      let o' := o + utf8Len (s.takeWhile isWhite)
      match lexOne (c :: cs) with
      | none => ([], some o')
      | some p =>
        let text := (c :: cs).take ((c :: cs).length - p.2.length)
        let stop := o' + utf8Len text
        (⟨o', text, p.1, stop⟩ :: (spansAux k stop p.2).1, (spansAux k stop p.2).2)

/-- `spansAux` with enough fuel. -/
def spans (s : Str) : List Span × Option Nat := spansAux s.length 0 s

/-- The stack of the parser when it stops. -/
def lrEnd (eof : Bool) : Nat → List (LrValue × LrState) → List Tok → List (LrValue × LrState)
  | 0, st, _ => st
  | k + 1, st, ts =>
    match lrStep eof st ts with
    | .inl _ => st
    | .inr (st', ts') => lrEnd eof k st' ts'

/-- The top of a stack of states. -/
def topOf : List LrState → LrState
  | [] => startState
  | s :: _ => s

/-- `__accepts`: the terminal can be shifted after some reductions, or completes the start production.  Fuel: the first number. -/
def acceptsAux : Nat → List LrState → Terminal → Bool
  | 0, _, _ => false
  | k + 1, ss, a =>
    match move (topOf ss) a with
    | .error => false
    | .shift => true
    | .reduce j =>
      match productions[j]? with
      | none => false
      | some p => if p.lhs = .start then true else acceptsAux k (goto (topOf (ss.drop p.rhs.length)) (.a p.lhs) :: ss.drop p.rhs.length) a

/-- `__TERMINAL`: the names of the terminals, in this order. -/
def terminalNames : List (Str × Terminal) :=
  [(c!"\"!\"", .bang), (c!"\"!=\"", .ne), (c!"\"%\"", .percent), (c!"\"&&\"", .andand), (c!"\"(\"", .lpar), (c!"\")\"", .rpar), (c!"\"*\"", .star),
   (c!"\"+\"", .plus), (c!"\"-\"", .minus), (c!"\"/\"", .slash), (c!"\":\"", .colon), (c!"\"<\"", .lt), (c!"\"<=\"", .le), (c!"\"==\"", .eqeq),
   (c!"\">\"", .gt), (c!"\">=\"", .ge), (c!"\"?\"", .quest), (c!"\"and\"", .kwAnd), (c!"\"n\"", .n), (c!"\"not\"", .kwNot), (c!"\"or\"", .kwOr),
   (c!"\"||\"", .oror), (c!"r#\"[0-9]+\"#", .digits)]

/-- `__expected_tokens_from_states`, or `__expected_tokens` of the state on top. -/
def expectedNames (precise : Bool) (ss : List LrState) : List Str :=
  (terminalNames.filter fun p => if precise then acceptsAux (14 * ss.length + 14) ss p.2 else decide (move (topOf ss) p.2 ≠ .error)).map (·.1)

/-- The loop of `fmt_expected` of lalrpop-util: the separator before the name number `i` of `n`. -/
def fmtNames (n : Nat) : Nat → List Str → Str
  | _, [] => []
  | i, e :: es => (if i = 0 then c!"Expected one of" else if i < n - 1 then c!"," else c!" or") ++ c!" " ++ e ++ fmtNames n (i + 1) es

/-- `fmt_expected` of lalrpop-util. -/
def fmtExpected (es : List Str) : Str := if es.isEmpty then [] else '\n' :: fmtNames es.length 0 es

/-- The message of the error of `Formula::parse`, src/plural/formula/mod.rs:14-26; `none` if there is no error.  The token at which the parser stops is
found by the number of tokens that are left. -/
def formulaError (precise : Bool) (s : Str) : Option Str :=
  let input := trim s
  if input.isEmpty then none
  else
    let sp := (spans input).1
    let toks := sp.map (·.tok)
    let eof := (spans input).2.isNone
    let fuel := 14 * toks.length + 14
    let expected := fmtExpected (expectedNames precise ((lrEnd eof fuel [] toks).map (·.2)))
    match lrLoop eof fuel [] toks with
    | .accept _ => none
    | .invalidToken => some (c!"Invalid token at " ++ dec ((spans input).2.getD 0))
    | .unrecognized rest =>
      match sp.drop (sp.length - rest.length) with
      | [] => some (c!"Unrecognized EOF found at " ++ dec (((sp.getLast?).map (·.stop)).getD 0) ++ expected)
      | x :: _ => some (c!"Unrecognized token `" ++ x.text ++ c!"` found at " ++ dec x.start ++ c!":" ++ dec x.stop ++ expected)
    | .extra rest =>
      match sp.drop (sp.length - rest.length) with
      | [] => some []
      | x :: _ => some (c!"Extra token " ++ x.text ++ c!" found at " ++ dec x.start ++ c!":" ++ dec x.stop)
    | .user _ => some (c!"number too large to fit in target type")
    | .stuck => some []

end Verif
