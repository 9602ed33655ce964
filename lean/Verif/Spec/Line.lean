import Verif.Model.Error
import Verif.Model.Unicode

/-!
The line grammar, stated without regular expressions.  Only `isWhite` (Unicode `White_Space`) and `isNd` (Unicode decimal
digits) come from the model.
-/

namespace Verif.Spec

/-- A (possibly empty) run of white space. -/
def White (w : Str) : Prop := ∀ c ∈ w, isWhite c = true

instance (w : Str) : Decidable (White w) := inferInstanceAs (Decidable (∀ c ∈ w, isWhite c = true))

/-- The index of a `msgstr[..]` keyword: `0`, or a decimal numeral without leading zero (digits after the first may be any Unicode
decimal digit). -/
def IsIndex (ds : Str) : Prop :=
  ds = ['0'] ∨ ∃ d ds', ds = d :: ds' ∧ ('1'.toNat ≤ d.toNat ∧ d.toNat ≤ '9'.toNat) ∧ ∀ c ∈ ds', isNd c = true

/-- The keywords of PO files. -/
def IsKeyword (k : Str) : Prop :=
  k = c!"msgctxt" ∨ k = c!"msgid" ∨ k = c!"msgid_plural" ∨ k = c!"msgstr" ∨
    ∃ ds, IsIndex ds ∧ k = c!"msgstr[" ++ (ds ++ [']'])

/-- What may follow `#` on a quoted line: nothing, `~` (obsolete), `|` (previous) or both. -/
def IsMarker (m : Str) : Prop := m = [] ∨ m = ['~'] ∨ m = ['|'] ∨ m = ['~', '|']

/-- The text of an optional `#` marker. -/
def markerText : Option Str → Str
  | none => []
  | some m => '#' :: m

/-- `line` is: optional marker, optional keyword, a quoted text `raw`, with white space anywhere between and around. -/
def QuotedLine (line : Str) (marker kw : Option Str) (raw : Str) : Prop :=
  (∀ m, marker = some m → IsMarker m) ∧ (∀ k, kw = some k → IsKeyword k) ∧
  ∃ w₁ w₂ w₃ w₄, White w₁ ∧ White w₂ ∧ White w₃ ∧ White w₄ ∧
    line = w₁ ++ (markerText marker ++ (w₂ ++ (kw.getD [] ++ (w₃ ++ '"' :: (raw ++ '"' :: w₄)))))

/-- Decoding of the five escapes, once each, from left to right; everything else is copied. -/
def unesc : Str → Str
  | '\\' :: 'r' :: s => '\r' :: unesc s
  | '\\' :: 't' :: s => '\t' :: unesc s
  | '\\' :: 'n' :: s => '\n' :: unesc s
  | '\\' :: '"' :: s => '"' :: unesc s
  | '\\' :: '\\' :: s => '\\' :: unesc s
  | c :: s => c :: unesc s
  | [] => []

/-- Escaping: the inverse of `unesc`. -/
def esc : Str → Str
  | [] => []
  | c :: s =>
    (if c = '\\' then c!"\\\\" else if c = '"' then c!"\\\"" else if c = '\n' then c!"\\n"
     else if c = '\r' then c!"\\r" else if c = '\t' then c!"\\t" else [c]) ++ esc s

/-- The keyword of a line as the reader sees it: keywords of lines with a `|` marker (previous fields) are distinguished by a
leading `|`. -/
def taggedKeyword (marker : Option Str) (k : Str) : Str := if '|' ∈ marker.getD [] then '|' :: k else k

/-- What line number `n` with text `line` is read as: the line grammar as a relation.  `none` means: not recognised. -/
inductive Classified (line : Str) (n : Nat) : Option PoLine → Prop
  | blank : White line → Classified line n (some .blank)
  | keyword {m k raw} : QuotedLine line m (some k) raw →
      Classified line n (some (.message n (m.getD []) (taggedKeyword m k) (unesc raw)))
  | continuation {m raw} : QuotedLine line m none raw → Classified line n (some (.continuation n (m.getD []) (unesc raw)))
  /-- `#`, an optional kind character (a space if there is none), white space, and the content up to the end of the line -/
  | comment {w r} : White w → line = w ++ '#' :: r → (∀ m k raw, ¬ QuotedLine line m k raw) →
      Classified line n (some (.comment n (r.head?.getD ' ') ((r.drop 1).dropWhile isWhite)))
  | unrecognised : ¬ White line → (∀ m k raw, ¬ QuotedLine line m k raw) → (∀ w r, White w → line ≠ w ++ '#' :: r) →
      Classified line n none

open Classical in
/-- `Classified` as a function: what the line is read as (`classify_iff` in `Verif.Lemmas.Items`). -/
noncomputable def classify (line : Str) (n : Nat) : Option PoLine := if h : ∃ x, Classified line n x then h.choose else none

end Verif.Spec
