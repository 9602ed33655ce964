import Verif.Spec.Text

/-! String literals of C (which those of PO files are meant to be). -/

namespace Verif.Spec

/-- The simple escapes of C: the character after the backslash, and the byte. -/
def simpleEscapes : List (Char × UInt8) :=
  [('a', 7), ('b', 8), ('t', 9), ('n', 10), ('v', 11), ('f', 12), ('r', 13), ('"', 34), ('\'', 39), ('?', 63), ('\\', 92)]

/-- An octal digit. -/
def IsOctal (c : Char) : Prop := '0'.toNat ≤ c.toNat ∧ c.toNat ≤ '7'.toNat

/-- A hexadecimal digit. -/
def IsHex (c : Char) : Prop :=
  ('0'.toNat ≤ c.toNat ∧ c.toNat ≤ '9'.toNat) ∨ ('a'.toNat ≤ c.toNat ∧ c.toNat ≤ 'f'.toNat) ∨ ('A'.toNat ≤ c.toNat ∧ c.toNat ≤ 'F'.toNat)

/-- The value of a digit. -/
def cDigit (c : Char) : Nat :=
  if c.toNat ≤ '9'.toNat then c.toNat - '0'.toNat else if c.toNat ≤ 'F'.toNat then c.toNat - 'A'.toNat + 10 else c.toNat - 'a'.toNat + 10

/-- The value of the digits `ds` in the given base. -/
def digitsValue (base : Nat) (ds : Str) : Nat := ds.foldl (fun a d => base * a + cDigit d) 0

/-- `"s"` is a string literal of C (in UTF-8) with the bytes `bs`. -/
inductive CLiteral : Str → List UInt8 → Prop
  | nil : CLiteral [] []
  | char {c s bs} : c ≠ '\\' → c ≠ '"' → c ≠ '\n' → CLiteral s bs → CLiteral (c :: s) (utf8 [c] ++ bs)
  | simple {c b s bs} : (c, b) ∈ simpleEscapes → CLiteral s bs → CLiteral ('\\' :: c :: s) (b :: bs)
  /-- one to three octal digits, as many as there are -/
  | octal {ds b s bs} : ds ≠ [] → ds.length ≤ 3 → (∀ d ∈ ds, IsOctal d) → (ds.length < 3 → ∀ c, s.head? = some c → ¬ IsOctal c) →
      digitsValue 8 ds = b.toNat → CLiteral s bs → CLiteral ('\\' :: (ds ++ s)) (b :: bs)
  /-- `x` and hexadecimal digits, as many as there are -/
  | hex {ds b s bs} : ds ≠ [] → (∀ d ∈ ds, IsHex d) → (∀ c, s.head? = some c → ¬ IsHex c) →
      digitsValue 16 ds = b.toNat → CLiteral s bs → CLiteral ('\\' :: 'x' :: (ds ++ s)) (b :: bs)

/-- Every backslash belongs to one of the escapes `\n`, `\r`, `\t`, `\"`, `\\`. -/
inductive FiveEscapes : Str → Prop
  | nil : FiveEscapes []
  | char {c s} : c ≠ '\\' → FiveEscapes s → FiveEscapes (c :: s)
  | escape {c s} : c ∈ ['n', 'r', 't', '"', '\\'] → FiveEscapes s → FiveEscapes ('\\' :: c :: s)

/-- The line `k "s"`, with `s` as it is. -/
def literalLine (k s : Str) : Str := k ++ (' ' :: '"' :: (s ++ ['"']))

end Verif.Spec
