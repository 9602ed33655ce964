import Verif.Lemmas.Message
import Verif.Lemmas.Text
import Verif.Props.Table
import Verif.Props.Plural

/-! The message for a plural formula that is refused: C78. -/

namespace Verif
open Spec

/-- **C78** There is a message exactly for the texts that are no formula. -/
theorem C78_refused (precise : Bool) (s : Str) : formulaError precise s = none ↔ ∃ t, formulaParse s = some t := by
  simp only [C76_formula]
  rw [formulaError_eq]
  by_cases hw : trim s = []
  · simp only [hw, List.isEmpty_nil, if_true, true_iff]
    exact ⟨.var, .inl ⟨trim_white.mp hw, rfl⟩⟩
  · rw [if_neg (by simpa using hw)]
    have hsp := spans_spans (trim s)
    have hsc := spans_scans hsp
    have hnw : ¬ White s := fun h => hw (trim_white.mpr h)
    constructor
    · intro h
      rcases message_says precise (sp := (spans (trim s)).1) (bad := (spans (trim s)).2) (spans_ne hw hsp (trim_trimmed s)) with ⟨_, t, ht⟩ | ⟨m, hm, _⟩
      · exact ⟨t, .inr ((lrParse_iff hsc).mpr ht)⟩
      · rw [hm] at h; cases h
    · rintro ⟨t, ⟨h, _⟩ | h⟩
      · exact absurd h hnw
      · have hv := (lrParse_iff hsc).mp h
        rcases message_says precise (sp := (spans (trim s)).1) (bad := (spans (trim s)).2) (spans_ne hw hsp (trim_trimmed s)) with ⟨h, _⟩ | ⟨m, _, hm⟩
        · exact h
        · obtain ⟨r, hr, ht⟩ := says_text hm
          cases verdict_unique hr hv
          exact absurd ht text_accept

/-- **C78** The message of `Error::PluralForms` for a text that is no formula: without the white space at its ends it is divided into tokens in one way, and the
message is the one the grammar gives for these tokens, with their places in bytes. -/
theorem C78_message (precise : Bool) (s m : Str) : formulaError precise s = some m ↔
    ∃ text sp bad, Stripped s text ∧ text ≠ [] ∧ Spans 0 text sp bad ∧ Says precise sp bad m := by
  rw [formulaError_eq]
  constructor
  · intro h
    split at h
    · cases h
    · rename_i hw
      have hw : trim s ≠ [] := by simpa using hw
      have hsp := spans_spans (trim s)
      rcases message_says precise (sp := (spans (trim s)).1) (bad := (spans (trim s)).2) (spans_ne hw hsp (trim_trimmed s)) with ⟨h', _⟩ | ⟨m', h', hm⟩
      · rw [h'] at h; cases h
      · rw [h'] at h; cases h
        exact ⟨_, _, _, stripped_iff.mpr rfl, hw, hsp, hm⟩
  · rintro ⟨text, sp, bad, h1, h2, h3, h4⟩
    obtain rfl := stripped_iff.mp h1
    rw [if_neg (by simpa using h2)]
    have e := spans_eq h3 _ (Nat.le_refl _)
    rw [show spans (trim s) = (sp, bad) from e]
    rcases message_says precise (spans_ne h2 h3 (trim_trimmed s)) with ⟨_, t, ht⟩ | ⟨m', h', hm⟩
    · obtain ⟨r, hr, ht'⟩ := says_text h4
      cases verdict_unique hr ht
      exact absurd ht' text_accept
    · rw [h', says_unique hm h4]

/-- **C78** Through `PluralForms::parse`: a value list whose formula is refused gives `Error::PluralForms` with this message. -/
theorem C78_forms (env : Env) (precise : Bool) (hmsg : ∀ s m, formulaError precise s = some m → env.formulaMsg s = m) (s : Str) {ps : List (Str × Str)} (hl : IsList s)
    (hp : PairsOf s ps) {text : Str} {sp : List Span} {bad : Option Nat} {m : Str} (h1 : Stripped ((lastValue (c!"plural") ps).getD []) text) (h2 : text ≠ [])
    (h3 : Spans 0 text sp bad) (h4 : Says precise sp bad m) : PluralForms.parse env s = .error (.pluralForms m) := by
  have hm := (C78_message precise _ m).mpr ⟨text, sp, bad, h1, h2, h3, h4⟩
  have hn : ∀ t, ¬ FormulaText ((lastValue (c!"plural") ps).getD []) t := by
    intro t ht
    have := (C78_refused precise _).mpr ⟨t, formulaParse_iff.mpr ht⟩
    rw [hm] at this; cases this
  rw [← hmsg _ _ hm]
  exact formsError_iff.mpr (.formula hl hp hn)

/-- **C78** What is named after `p`, with either version of lalrpop: if an operand is missing, exactly what a formula can go on with; at the end of the text or at a
closing sign after an operand, exactly the closing signs it can go on with. -/
theorem C78_expected (precise : Bool) (p : List Tok) (a : Option Tok) (b : Tok) :
    (¬ AfterOperand p → (Expects precise p a b ↔ Begins (p ++ [b]))) ∧
    (AfterOperand p → (∀ x, a = some x → Closing x) → (Expects precise p a b ↔ Closing b ∧ Begins (p ++ [b]))) := by
  constructor
  · intro hp
    refine ⟨fun h => ?_, fun h => .operand hp h⟩
    cases h with
    | operand _ h => exact h
    | close h => exact absurd h hp
    | more _ h => exact absurd h hp
    | whole _ h => exact absurd h hp
    | row _ h => exact absurd h hp
  · intro hp ha
    refine ⟨fun h => ?_, fun h => .close hp ha h.1 h.2⟩
    cases h with
    | operand h => exact absurd hp h
    | close _ _ h h' => exact ⟨h, h'⟩
    | more _ _ h => obtain ⟨x, h1, h2⟩ := h; exact absurd (ha x h1) h2
    | whole _ _ h => obtain ⟨x, h1, h2⟩ := h; exact absurd (ha x h1) h2
    | row _ _ h => obtain ⟨x, h1, h2⟩ := h; exact absurd (ha x h1) h2

-- the message of the crate's test `test_func_parse_po_header_with_error` (src/po/reader.rs:324-349), with either version of lalrpop
example (precise : Bool) : formulaError precise (c!"1+") = some (c!"Unrecognized EOF found at 2\nExpected one of \"(\", \"-\", \"n\" or r#\"[0-9]+\"#") := by
  cases precise <;> decide +kernel

-- the other kinds
example : formulaError true (c!" n ? (n $") = some (c!"Invalid token at 9") := by decide +kernel
example : formulaError true (c!" n ) ") = some (c!"Extra token ) found at 2:3") := by decide +kernel
example : formulaError true (c!"n + 9223372036854775808") = some (c!"number too large to fit in target type") := by decide +kernel
example : formulaError true (c!"n ? not (n :") = some (c!"Unrecognized token `:` found at 11:12\nExpected one of \")\"") := by decide +kernel
example : formulaError true (c!"- -n") = some (c!"Unrecognized token `-` found at 2:3\nExpected one of \"(\", \"n\" or r#\"[0-9]+\"#") := by decide +kernel
example : formulaError true (c!"(n n") = some (c!"Unrecognized token `n` found at 3:4\nExpected one of \"!=\", \"%\", \"&&\", \")\", \"*\", \"+\", \"-\", \"/\", \"<\", \"<=\", \"==\", \">\", \">=\", \"?\", \"and\", \"or\" or \"||\"") := by
  decide +kernel
example : formulaError false (c!"(n n") = some (c!"Unrecognized token `n` found at 3:4\nExpected one of \"!=\", \"%\", \"&&\", \")\", \"*\", \"+\", \"-\", \"/\", \":\", \"<\", \"<=\", \"==\", \">\", \">=\", \"?\", \"and\", \"or\" or \"||\"") := by
  decide +kernel

/-- The demo environment with lalrpop's messages. -/
def messageEnv : Env := { demoEnv with formulaMsg := fun s => (formulaError true s).getD [] }

-- the same through `PoParser::parse`
set_option maxRecDepth 100000 in
example : Fails (parse messageEnv (textStream (formsLines (c!"plural=1+;"))))
    (.pluralForms (c!"Unrecognized EOF found at 2\nExpected one of \"(\", \"-\", \"n\" or r#\"[0-9]+\"#")) := by
  have h : formulaError true (c!"1+") = some (c!"Unrecognized EOF found at 2\nExpected one of \"(\", \"-\", \"n\" or r#\"[0-9]+\"#") := by decide +kernel
  have h' : messageEnv.formulaMsg (c!"1+") = c!"Unrecognized EOF found at 2\nExpected one of \"(\", \"-\", \"n\" or r#\"[0-9]+\"#" := by
    show (formulaError true (c!"1+")).getD [] = _
    rw [h]; rfl
  rw [← h']
  exact fails_text (by decide) (by rfl)

/-- `1+` as pieces of text. -/
theorem onePlus_says : ∃ text sp bad, Stripped (c!"1+") text ∧ text ≠ [] ∧ Spans 0 text sp bad ∧
    Says true sp bad (c!"Unrecognized EOF found at 2\nExpected one of \"(\", \"-\", \"n\" or r#\"[0-9]+\"#") :=
  (C78_message true _ _).mp (by decide +kernel)

example : PluralForms.parse messageEnv (c!"plural=1+;") = .error (.pluralForms (c!"Unrecognized EOF found at 2\nExpected one of \"(\", \"-\", \"n\" or r#\"[0-9]+\"#")) := by
  obtain ⟨text, sp, bad, h1, h2, h3, h4⟩ := onePlus_says
  have this : parseMap (c!"plural=1+;") = .ok [(c!"plural", c!"1+")] := by rfl
  rcases C25_exact (c!"plural=1+;") with ⟨hl, m, ps, hm, _, hp, hk⟩ | ⟨_, he⟩
  · refine C78_forms messageEnv true (fun s m h => ?_) (c!"plural=1+;") hl hp ?_ h2 h3 h4
    · show (formulaError true s).getD [] = m
      rw [h]; rfl
    · rw [← hk]
      rw [this] at hm
      cases hm
      exact h1
  · rw [this] at he; cases he

end Verif
