import Verif.Spec.Catalogue

/-! Inputs of a single line. -/

namespace Verif.Spec

/-- The keywords with which an entry can begin (the last one only at the beginning of the input). -/
def BeginsEntry (k : Str) : Prop := k = c!"|msgctxt" ∨ k = c!"|msgid" ∨ k = c!"msgctxt" ∨ k = c!"msgid" ∨ k = c!"msgid_plural"

/-- What an input that consists of the line `s` gives: an error of `parse()`, or no unit, and then an error or none. -/
inductive OneLine (s : Str) : Except Err (Option Err) → Prop
  | unrecognised : Classified s 1 none → OneLine s (.error (.parse 2 s []))
  | blank : White s → OneLine s (.ok none)
  | comment {c t} : Classified s 1 (some (.comment 1 c t)) → OneLine s (.ok none)
  /-- the beginning of an entry, which is dropped -/
  | begins {m k raw} : QuotedLine s m (some k) raw → BeginsEntry (taggedKeyword m k) → OneLine s (.ok none)
  | stray {m k raw} : QuotedLine s m (some k) raw → ¬ BeginsEntry (taggedKeyword m k) → OneLine s (.ok (some (.parse 1 (m.getD []) (c!"msgid"))))
  | continuation {m raw} : QuotedLine s m none raw → OneLine s (.ok (some (.parse 1 (c!"\"") (c!"msgid"))))

/-- Lines with a carriage return (and nothing else) between them. -/
def crJoin (ls : List Str) : Str := List.intercalate ['\r'] ls

end Verif.Spec
