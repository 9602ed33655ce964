import Verif.Model.Unicode

/-!
A model of the part of the `regex` crate that poreader uses.

The crate documents *leftmost-first* semantics: at the leftmost position where the pattern matches, the match is the one a
backtracking (Perl-like) matcher finds first.  `Re.run` returns all ways of matching at a position, in backtracking priority
order; the match is the first one.  Captures are the text of the group in that match.
-/

namespace Verif

/-- A one-character pattern. -/
inductive Cls where
  /-- a literal character -/
  | lit (c : Char)
  /-- `.`: any character except `\n` -/
  | any
  /-- `\s` -/
  | space
  /-- `\S` -/
  | nonSpace
  /-- `\d` -/
  | digit
  /-- a bracketed set of ranges `[...]` -/
  | set (rs : List (Char × Char))
  deriving DecidableEq

/-- Does the character belong to the class?  (`regex` crate, Unicode mode.) -/
def Cls.test : Cls → Char → Bool
  | .lit d, c => c == d
  | .any, c => c != '\n'
  | .space, c => isWhite c
  | .nonSpace, c => !isWhite c
  | .digit, c => isNd c
  | .set rs, c => rs.any fun r => r.1.toNat ≤ c.toNat && c.toNat ≤ r.2.toNat

/-- Regular expressions (the constructs that occur in poreader's patterns). -/
inductive Re where
  | cls (p : Cls)
  | eps
  | seq (a b : Re)
  /-- `a|b`, preferring `a` -/
  | alt (a b : Re)
  /-- `r*` (greedy) or `r*?` (lazy) -/
  | star (greedy : Bool) (r : Re)
  /-- capturing group number `i` -/
  | cap (i : Nat) (r : Re)
  /-- `^` (not multi-line): start of the text -/
  | bol
  /-- `$` (not multi-line): end of the text -/
  | eol
  deriving DecidableEq

/-- `r+` / `r+?` -/
def Re.plus (greedy : Bool) (r : Re) : Re := .seq r (.star greedy r)

/-- `r?` / `r??` -/
def Re.opt (greedy : Bool) (r : Re) : Re := if greedy then .alt r .eps else .alt .eps r

/-- A matcher position: is it the start of the text, the text still to be read, and the groups captured so far, latest first. -/
structure St where
  atStart : Bool
  rest : Str
  caps : List (Nat × Str)
  deriving DecidableEq

/-- The text of group `i` (`Captures::get`). -/
def St.get (s : St) (i : Nat) : Option Str := s.caps.lookup i

/-- Iterations of a star: `f` runs the body.  An iteration must consume something (none of the patterns of the crate has a
starred body that can match the empty text, `patterns_proper` in `Verif.Lemmas.RegexMeaning`), which bounds the number of iterations by
the length of the text. -/
def starRun (greedy : Bool) (f : St → List St) : Nat → St → List St
  | 0, s => [s]
  | n + 1, s =>
    let more := ((f s).filter fun t => t.rest.length < s.rest.length).flatMap (starRun greedy f n)
    if greedy then more ++ [s] else s :: more

/-- All ways of matching the pattern at a position, in backtracking order. -/
def Re.run : Re → St → List St
  | .cls p, s =>
    match s.rest with
    | [] => []
    | c :: cs => if p.test c then [{ s with atStart := false, rest := cs }] else []
  | .eps, s => [s]
  | .seq a b, s => (a.run s).flatMap b.run
  | .alt a b, s => a.run s ++ b.run s
  | .star g r, s => starRun g r.run s.rest.length s
  | .cap i r, s =>
    (r.run s).map fun t => { t with caps := (i, s.rest.take (s.rest.length - t.rest.length)) :: t.caps }
  | .bol, s => if s.atStart then [s] else []
  | .eol, s => if s.rest.isEmpty then [s] else []

/-- Leftmost-first search from a position on: the text skipped before the match and the state after the match. -/
def Re.find (r : Re) : Bool → Str → Option (Str × St)
  | start, s =>
    match r.run ⟨start, s, []⟩ with
    | t :: _ => some ([], t)
    | [] =>
      match s with
      | [] => none
      | c :: cs => (r.find false cs).map fun (p, t) => (c :: p, t)

/-- `Regex::is_match`. -/
def Re.isMatch (r : Re) (s : Str) : Bool := (r.find true s).isSome

/-- `Regex::captures`. -/
def Re.captures (r : Re) (s : Str) : Option St := (r.find true s).map Prod.snd

/-- `Regex::captures_iter`: successive non-overlapping matches, each with the text skipped before it; the last component is the
text after the last match.  Fuelled by the length of the text (each match of the patterns it is used with is non-empty, so that all
matches are found: `iter_all` in `Verif.Lemmas.RegexMeaning`). -/
def Re.iterAux (r : Re) : Nat → Bool → Str → List (Str × St) × Str
  | 0, _, s => ([], s)
  | n + 1, start, s =>
    match r.find start s with
    | none => ([], s)
    | some (p, t) =>
      let (ms, tail) := r.iterAux n false t.rest
      ((p, t) :: ms, tail)

/-- `Regex::captures_iter` on a text. -/
def Re.capturesIter (r : Re) (s : Str) : List St := ((r.iterAux (s.length + 1) true s).1).map Prod.snd

/-- `Regex::replace_all` with a closure. -/
def Re.replaceAll (r : Re) (s : Str) (f : St → Str) : Str :=
  let (ms, tail) := r.iterAux (s.length + 1) true s
  (ms.flatMap fun (p, t) => p ++ f t) ++ tail

/-! ### Pattern syntax

A parser for the pattern syntax used by the crate, so that the patterns in the model can be compared with the pattern strings of
the source. -/

/-- Escaped character of a pattern: `\s`, `\S`, `\d`, or a punctuation character standing for itself. -/
def Cls.ofEscape (c : Char) : Cls :=
  if c = 's' then .space else if c = 'S' then .nonSpace else if c = 'd' then .digit else .lit c

/-- Contents of a bracketed class up to `]`. -/
def parseSet : Str → List (Char × Char) → Option (List (Char × Char) × Str)
  | ']' :: s, acc => some (acc.reverse, s)
  | '\\' :: c :: s, acc => parseSet s ((c, c) :: acc)
  | a :: '-' :: b :: s, acc => parseSet s ((a, b) :: acc)
  | a :: s, acc => parseSet s ((a, a) :: acc)
  | [], _ => none

/-- Quantifier after an atom. -/
def parseQuant (r : Re) : Str → Re × Str
  | '*' :: '?' :: s => (.star false r, s)
  | '*' :: s => (.star true r, s)
  | '+' :: '?' :: s => (.plus false r, s)
  | '+' :: s => (.plus true r, s)
  | '?' :: '?' :: s => (.opt false r, s)
  | '?' :: s => (.opt true r, s)
  | s => (r, s)

/-- Sequencing that drops the neutral element. -/
def Re.seq' : Re → Re → Re
  | .eps, b => b
  | a, .eps => a
  | a, b => .seq a b

mutual
/-- Alternation; `n` is the number of the next capturing group. -/
def parseAlt : Nat → Nat → Str → Option (Re × Nat × Str)
  | 0, _, _ => none
  | k + 1, n, s => do
    let (a, n, s) ← parseCat k n s
    match s with
    | '|' :: s => do
      let (b, n, s) ← parseAlt k n s
      some (.alt a b, n, s)
    | s => some (a, n, s)
/-- Concatenation. -/
def parseCat : Nat → Nat → Str → Option (Re × Nat × Str)
  | 0, _, _ => none
  | k + 1, n, s => do
    match s with
    | [] => some (.eps, n, [])
    | ')' :: _ => some (.eps, n, s)
    | '|' :: _ => some (.eps, n, s)
    | _ => do
      let (a, n, s) ← parseAtom k n s
      let (a, s) := parseQuant a s
      let (b, n, s) ← parseCat k n s
      some (.seq' a b, n, s)
/-- Atoms. -/
def parseAtom : Nat → Nat → Str → Option (Re × Nat × Str)
  | 0, _, _ => none
  | k + 1, n, s =>
    match s with
    | '^' :: s => some (.bol, n, s)
    | '$' :: s => some (.eol, n, s)
    | '.' :: s => some (.cls .any, n, s)
    | '\\' :: c :: s => some (.cls (.ofEscape c), n, s)
    | '[' :: s => do
      let (rs, s) ← parseSet s []
      some (.cls (.set rs), n, s)
    | '(' :: '?' :: ':' :: s => do
      let (r, n, s) ← parseAlt k n s
      match s with
      | ')' :: s => some (r, n, s)
      | _ => none
    | '(' :: s => do
      let (r, n', s) ← parseAlt k (n + 1) s
      match s with
      | ')' :: s => some (.cap n r, n', s)
      | _ => none
    | c :: s => some (.cls (.lit c), n, s)
    | [] => none
end

/-- `Regex::new` on the pattern syntax used by the crate. -/
def Re.ofPattern (pat : Str) : Option Re :=
  match parseAlt (3 * pat.length + 3) 1 pat with
  | some (r, _, []) => some r
  | _ => none

end Verif
