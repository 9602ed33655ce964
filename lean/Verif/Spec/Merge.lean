import Verif.Spec.Change

/-! Parts of catalogues that can be put together. -/

namespace Verif.Spec

/-- The lines end with a translation: the last keyword line is `msgstr` or `msgstr[..]`, and after it there are only continuation lines and blank lines. -/
def EndsWithText (rs : List (Except IoErr Str)) : Prop :=
  ∃ a s m k raw b, rs = a ++ .ok s :: b ∧ QuotedLine s m (some k) raw ∧ (k = c!"msgstr" ∨ ∃ ds, k = c!"msgstr[" ++ ds) ∧
    ∀ r ∈ b, ∃ t, r = .ok t ∧ (White t ∨ ∃ m raw, QuotedLine t m none raw)

/-- The lines `b` are a complete part of a catalogue: in some input with a header with the `Plural-Forms` property `p` they follow the header, they give the units
`us` without error, and they end with a translation (or there are only blank lines). -/
def Part (env : Env) (p : Option Str) (b : List (Except IoErr Str)) (us : List PoUnit) : Prop :=
  ∃ (stream : List Event) (hd : List (Except IoErr Str)) (hdr : Header env.Lang), rawLines (flatten stream) = hd ++ b ∧ HeaderLines hd ∧ NoContinuation b ∧
    Yields (parse env stream) hdr (results us none) ∧ hdr.properties.lookup (c!"Plural-Forms") = p ∧
    (EndsWithText b ∨ ∀ r ∈ b, ∃ t, r = .ok t ∧ White t)

end Verif.Spec
