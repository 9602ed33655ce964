import Verif.Model.Extractor

/-! What the message extractor asks a decoder, and what it makes of the answers, for any decoder. -/

namespace Verif.Spec

/-- Questions and answers, in the order of the questions. -/
abbrev Dialog := List (Str × Option Str)

/-- `Talk D u s d s'`: asked the questions of `d` one after the other about the unit `u`, the decoder gives the answers of `d` and goes from `s` to `s'`. -/
inductive Talk {δ : Type} (D : Decoder δ) (u : PoUnit) : δ → Dialog → δ → Prop
  | nil {s} : Talk D u s [] s
  | cons {s tag a s' d s''} : D.parseMsg tag u s = (.ok a, s') → Talk D u s' d s'' → Talk D u s ((tag, a) :: d) s''

/-- The questions about the previous fields and what is made of the answers. -/
inductive PreviousPart (forms : Option PluralForms) : Option Str → Message → Dialog → Prop
  | none {c} : PreviousPart forms c (.simple [] none) [(c!"|msgctxt", c), (c!"|msgid", none)]
  | simple {c i} : PreviousPart forms c (.simple i none) [(c!"|msgctxt", c), (c!"|msgid", some i), (c!"|msgid_plural", none)]
  | plural {c i p} : PreviousPart forms c (.plural ⟨i, p, [], forms⟩) [(c!"|msgctxt", c), (c!"|msgid", some i), (c!"|msgid_plural", some p)]

/-- The questions about the plural texts: one for each form, 2 if the number of forms is not known. -/
def TextPart (forms : Option PluralForms) (values : List Str) (d : Dialog) : Prop :=
  ∃ as : List (Option Str), as.length = (forms.elim 2 (·.count)) ∧ values = as.filterMap id ∧
    d = as.zipIdx.map fun p => (c!"msgstr[" ++ Nat.toDigits 10 p.2 ++ c!"]", p.1)

/-- A dialog that gives a unit. -/
inductive Makes (forms : Option PluralForms) (u : PoUnit) (first : Bool) : Dialog → PoUnit → Prop
  | noId {pc pm d c a} : first = true → PreviousPart forms pc pm d →
      Makes forms u first (d ++ [(c!"msgctxt", c), (c!"msgid", none), (c!"msgid_plural", a)])
        { u with prevContext := pc, prevMessage := pm, context := c, message := .simple [] none }
  | simple {pc pm d c i t} : PreviousPart forms pc pm d →
      Makes forms u first (d ++ [(c!"msgctxt", c), (c!"msgid", some i), (c!"msgid_plural", none), (c!"msgstr", some t)])
        { u with prevContext := pc, prevMessage := pm, context := c, message := .simple i (if t = [] then none else some t) }
  | plural {pc pm d c i p vs d'} : PreviousPart forms pc pm d → TextPart forms vs d' → vs ≠ [] →
      Makes forms u first (d ++ [(c!"msgctxt", c), (c!"msgid", some i), (c!"msgid_plural", some p)] ++ d')
        { u with prevContext := pc, prevMessage := pm, context := c, message := .plural ⟨i, p, vs, forms⟩ }

/-- A dialog after which something is missing. -/
inductive Lacks (forms : Option PluralForms) (first : Bool) : Dialog → Str → Prop
  | noId {pc pm d c} : first = false → PreviousPart forms pc pm d → Lacks forms first (d ++ [(c!"msgctxt", c), (c!"msgid", none)]) (c!"msgid")
  | noText {pc pm d c i} : PreviousPart forms pc pm d →
      Lacks forms first (d ++ [(c!"msgctxt", c), (c!"msgid", some i), (c!"msgid_plural", none), (c!"msgstr", none)]) (c!"msgstr")
  | noTexts {pc pm d c i p d'} : PreviousPart forms pc pm d → TextPart forms [] d' →
      Lacks forms first (d ++ [(c!"msgctxt", c), (c!"msgid", some i), (c!"msgid_plural", some p)] ++ d') (c!"msgstr[0]")

/-- `tag` is asked after `d`. -/
def Asks (forms : Option PluralForms) (u : PoUnit) (first : Bool) (d : Dialog) (tag : Str) : Prop :=
  ∃ a rest, (∃ u', Makes forms u first (d ++ (tag, a) :: rest) u') ∨ ∃ tag', Lacks forms first (d ++ (tag, a) :: rest) tag'

/-- What the extractor returns: a unit; nothing, if what is missing may be missing; or the failure of the decoder at a question or when it is told what is
missing. -/
inductive Extracts {δ : Type} (D : Decoder δ) (forms : Option PluralForms) (u : PoUnit) (first : Bool) (s : δ) : Out (Option PoUnit) → δ → Prop
  | unit {d u' s'} : Makes forms u first d u' → Talk D u s d s' → Extracts D forms u first s (.ok (some u')) s'
  | nothing {d tag s' s''} : Lacks forms first d tag → Talk D u s d s' → D.expected tag s' = (.ok (), s'') → Extracts D forms u first s (.ok none) s''
  | refusal {d tag s' e s''} : Lacks forms first d tag → Talk D u s d s' → D.expected tag s' = (.err e, s'') → Extracts D forms u first s (.err e) s''
  | failure {d tag s' e s''} : Asks forms u first d tag → Talk D u s d s' → D.parseMsg tag u s' = (.err e, s'') → Extracts D forms u first s (.err e) s''
  | crash {d tag s' s''} : Lacks forms first d tag → Talk D u s d s' → D.expected tag s' = (.panic, s'') → Extracts D forms u first s .panic s''
  | crashAsked {d tag s' s''} : Asks forms u first d tag → Talk D u s d s' → D.parseMsg tag u s' = (.panic, s'') → Extracts D forms u first s .panic s''

end Verif.Spec
