import Verif.Model.Unicode

/-! Text functions of std used by the reader. -/

namespace Verif

/-- `str::split` with a character predicate: the pieces between the separators (always at least one piece). -/
def splitP (p : Char → Bool) : Str → List Str
  | [] => [[]]
  | c :: cs =>
    if p c then [] :: splitP p cs
    else
      match splitP p cs with
      | [] => [[c]]
      | w :: ws => (c :: w) :: ws

/-- Decimal `Display` of an unsigned integer. -/
def dec (n : Nat) : Str := Nat.toDigits 10 n

/-- `[String]::join(" ")`. -/
def joinSp : List Str → Str
  | [] => []
  | [s] => s
  | s :: ss => s ++ ' ' :: joinSp ss

/-- `line.find(':')` with the two slices `line[..n]` and `line[(n + 1)..]` (src/po/reader.rs:182-184); `:` is one byte, so both
slices are on character boundaries. -/
def splitColon : Str → Option (Str × Str)
  | [] => none
  | c :: cs => if c = ':' then some ([], cs) else (splitColon cs).map fun p => (c :: p.1, p.2)

end Verif
