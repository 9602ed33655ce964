import Verif.Spec.Positions

/-! Different layouts of the same catalogue, and results that are the same except for line numbers in errors. -/

namespace Verif.Spec

/-- An error without its line number. -/
def unnumbered : Err → Err
  | .io _ e => .io 0 e
  | .parse _ got exp => .parse 0 got exp
  | .unexpected _ msg => .unexpected 0 msg
  | .pluralForms msg => .pluralForms msg

/-- The same error, up to the line number. -/
def SameErr (e e' : Err) : Prop := unnumbered e = unnumbered e'

/-- The same error or none, up to the line number. -/
def SameEnd (e e' : Option Err) : Prop := e.map unnumbered = e'.map unnumbered

/-- The user sees the same: both calls of `parse()` fail with the same error, or both give the same header data, the same units, and
then the same error or none; except for line numbers in errors. -/
def SameResults {σ L : Type} [Src σ] (r r' : Out (Reader σ L)) : Prop :=
  (∃ e e', Fails r e ∧ Fails r' e' ∧ SameErr e e') ∨
  ∃ hdr us e e', Yields r hdr (results us e) ∧ Yields r' hdr (results us e') ∧ SameEnd e e'

/-- Two lines that are read the same whatever their numbers. -/
def SameLine (s s' : Str) : Prop := ∀ n x, Classified s n x ↔ Classified s' n x

/-- Two inputs, given by their lines, that differ only in layout: blank lines, spacing inside lines, and how the texts of fields are cut into
continuation lines. -/
inductive Layout : List (Except IoErr Str) → List (Except IoErr Str) → Prop
  | nil : Layout [] []
  | failed {e rs rs'} : Layout rs rs' → Layout (.error e :: rs) (.error e :: rs')
  | line {s s' rs rs'} : SameLine s s' → (Classified s 0 none → s = s') → Layout rs rs' → Layout (.ok s :: rs) (.ok s' :: rs')
  | blankLeft {s rs rs'} : White s → Layout rs rs' → Layout (.ok s :: rs) rs'
  | blankRight {s rs rs'} : White s → Layout rs rs' → Layout rs (.ok s :: rs')
  /-- A keyword line with text `raw` and continuation lines `cs` (each a line and its text), against the same keyword line with text `raw'` and continuation
  lines `cs'`; all with the same marker, and with the same text in total. -/
  | field {s s' m k raw raw' rs rs'} {cs cs' : List (Str × Str)} : QuotedLine s m (some k) raw → QuotedLine s' m (some k) raw' →
      (∀ c ∈ cs, QuotedLine c.1 m none c.2) → (∀ c ∈ cs', QuotedLine c.1 m none c.2) →
      unesc raw ++ cs.flatMap (fun c => unesc c.2) = unesc raw' ++ cs'.flatMap (fun c => unesc c.2) → Layout rs rs' →
      Layout (.ok s :: (cs.map (fun c => .ok c.1) ++ rs)) (.ok s' :: (cs'.map (fun c => .ok c.1) ++ rs'))

end Verif.Spec

namespace Verif.Spec

/-- The line is not blank. -/
def notBlank : Except IoErr Str → Bool
  | .ok s => !decide (White s)
  | .error _ => true

/-- The keyword line `k "…"` for the text `s`. -/
def kwLine (k s : Str) : Str := k ++ (' ' :: '"' :: (esc s ++ ['"']))

/-- The continuation line `"…"` for the text `s`. -/
def contLine (s : Str) : Str := '"' :: (esc s ++ ['"'])

/-- A unit without plural messages. -/
def NoPlural (u : PoUnit) : Prop := (∀ p, u.message ≠ .plural p) ∧ ∀ p, u.prevMessage ≠ .plural p

/-- Two lines, the same except for the white space in front, at the end, around the marker and the keyword; or two white lines. -/
inductive Respaced : Str → Str → Prop
  | same {s} : Respaced s s
  | blank {s s'} : White s → White s' → Respaced s s'
  | quoted {s s' m k raw} : QuotedLine s m k raw → QuotedLine s' m k raw → Respaced s s'
  | comment {w w' r} : White w → White w' → Respaced (w ++ '#' :: r) (w' ++ '#' :: r)

/-- Two inputs, given by their lines, that differ only in the white space of their lines; each line stays where it is. -/
inductive RespacedLines : List (Except IoErr Str) → List (Except IoErr Str) → Prop
  | nil : RespacedLines [] []
  | failed {e rs rs'} : RespacedLines rs rs' → RespacedLines (.error e :: rs) (.error e :: rs')
  | line {s s' rs rs'} : Respaced s s' → RespacedLines rs rs' → RespacedLines (.ok s :: rs) (.ok s' :: rs')

end Verif.Spec
