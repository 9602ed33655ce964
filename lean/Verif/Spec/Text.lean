import Verif.Spec.Line

/-! Trimming, splitting and joining of texts; UTF-8; line terminators. -/

namespace Verif.Spec

/-- No white space at the ends. -/
def Trimmed (v : Str) : Prop := (∀ c, v.head? = some c → isWhite c = false) ∧ ∀ c, v.getLast? = some c → isWhite c = false

/-- `t` is `s` without the white space at its ends. -/
def Stripped (s t : Str) : Prop := Trimmed t ∧ ∃ a b, White a ∧ White b ∧ s = a ++ (t ++ b)

/-- `ps` are the pieces of `s` between the characters that satisfy `sep`. -/
inductive Cut (sep : Char → Prop) : Str → List Str → Prop
  | last {p} : (∀ c ∈ p, ¬ sep c) → Cut sep p [p]
  | cons {p c s ps} : (∀ c ∈ p, ¬ sep c) → sep c → Cut sep s ps → Cut sep (p ++ c :: s) (p :: ps)

open Classical in
/-- `Stripped` as a function (`strip_eq` in `Verif.Lemmas.Text`). -/
noncomputable def strip (s : Str) : Str := if h : ∃ t, Stripped s t then h.choose else []

open Classical in
/-- `Cut` as a function (`cut_eq` in `Verif.Lemmas.Text`). -/
noncomputable def cut (sep : Char → Prop) (s : Str) : List Str := if h : ∃ ps, Cut sep s ps then h.choose else []

/-- UTF-8 encoding. -/
def utf8 (s : Str) : List UInt8 := s.flatMap String.utf8EncodeChar

/-- The text of a line given by its bytes: decoded, and without the line terminator (LF or CRLF). -/
inductive LineText : List UInt8 → Except IoErr Str → Prop
  | lf {s} : s.getLast? ≠ some '\r' → LineText (utf8 (s ++ ['\n'])) (.ok s)
  | crlf {s} : LineText (utf8 (s ++ ['\r', '\n'])) (.ok s)
  /-- the last line of an input need not be terminated -/
  | open {s} : s.getLast? ≠ some '\n' → LineText (utf8 s) (.ok s)
  | bad {l} : (∀ s, l ≠ utf8 s) → LineText l (.error .invalidUtf8)

end Verif.Spec
