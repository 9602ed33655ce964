import Verif.Props.Plural
import Verif.Props.Previous

/-! C48: what the accessors of messages, plural sets and plural forms return. -/

namespace Verif
open Spec

/-- **C48** Every message is exactly one of: empty, simple, plural; only a plural message has a plural id and a plural set. -/
theorem C48_kind (m : Message) :
    (m.isEmpty = true ∧ m.isSimple = false ∧ m.isPlural = false ∧ m.getId = [] ∨
     m.isEmpty = false ∧ m.isSimple = true ∧ m.isPlural = false ∧ m.getId ≠ [] ∨
     m.isEmpty = false ∧ m.isSimple = false ∧ m.isPlural = true) ∧
    (m.isPlural = true ↔ m.getPluralId ≠ none) ∧ (m.isPlural = true ↔ m.getPlural ≠ none) := by
  cases m with
  | simple id t => cases id <;> simp [Message.isEmpty, Message.isSimple, Message.isPlural, Message.getId, Message.getPluralId, Message.getPlural]
  | plural p => simp [Message.isEmpty, Message.isSimple, Message.isPlural, Message.getPluralId, Message.getPlural]

/-- **C48** The ids and the text of a plural message are those of its plural set. -/
theorem C48_plural {m : Message} {p : Plural} (h : m.getPlural = some p) :
    m.getId = p.getSingular ∧ m.getPluralId = some p.getPlural ∧ m.isBlank = p.isBlank ∧
    (∀ v vs, p.getValues = v :: vs → m.getText = v ∧ p.first = v) ∧ (p.getValues = [] → m.getText = [] ∧ p.first = []) ∧
    (p.isBlank = true ↔ ∀ v ∈ p.getValues, v = []) ∧ ∀ dbg n, m.getPluralText dbg n = p.get dbg n := by
  cases m with
  | simple id t => cases h
  | plural q =>
    cases h
    refine ⟨rfl, rfl, rfl, ?_, ?_, ?_, fun _ _ => rfl⟩
    · intro v vs hv
      simp only [Plural.getValues] at hv
      simp [Message.getText, Plural.first, hv]
    · intro hv
      simp only [Plural.getValues] at hv
      simp [Message.getText, Plural.first, hv]
    · simp [Plural.isBlank, Plural.getValues]

/-- **C48** A message is blank exactly if it has no non-empty text; then `get_text` is empty. -/
theorem C48_blank (m : Message) : (m.isBlank = true ↔ ¬ HasText m) ∧ (m.isBlank = true → m.getText = []) ∧
    (m.getPlural = none → (m.isBlank = true ↔ m.getText = [])) := by
  cases m with
  | simple id t => cases t <;> simp [Message.isBlank, HasText, Message.getText]
  | plural p =>
    refine ⟨?_, ?_, by simp [Message.getPlural]⟩
    · simp [Message.isBlank, Plural.isBlank, HasText]
    · intro h
      simp only [Message.isBlank, Plural.isBlank, List.all_eq_true, List.isEmpty_iff] at h
      simp only [Message.getText, Plural.first]
      cases hv : p.values with
      | nil => rfl
      | cons v vs => exact h v (by simp [hv])

/-- **C48** A simple message has one text for all counts. -/
theorem C48_simple {m : Message} (h : m.getPlural = none) (dbg : Bool) (n : UInt64) :
    ∃ t, m.getPluralText dbg n = .ok t ∧ m.getText = t.getD [] := by
  cases m with
  | simple id t => exact ⟨t, rfl, rfl⟩
  | plural p => cases h

theorem entry_text {forms : Option PluralForms} {block : List PoLine} {u : PoUnit} (h : Entry forms block u) (hp : u.message.getPlural = none) :
    fieldText (c!"msgstr") block = some u.message.getText := by
  obtain ⟨cs, b1, b2, b3, b4, b5, b6, b7, pid, ppl, id, idPl, rfl, f1, f2, f3, g3, f4, f5, f6, f7, hpm, _⟩ := h
  have n7 := text_noCont f7 []
  rw [List.append_nil] at n7
  have n6 := opt_noCont f6 n7
  have n5 := field_noCont f5 (b6 ++ b7)
  have n4 := opt_noCont f4 n5
  have n3 := opt_noCont f3 n4
  have n2 := opt_noCont f2 n3
  rw [fieldText_comments, fieldText_opt f1 n2, fieldText_opt f2 n3, fieldText_opt f3 n4, fieldText_opt f4 n5, fieldText_field f5 n6, fieldText_opt f6 n7]
  generalize u.message = m at f7 hp
  cases f7 with
  | @simple _ v hf =>
    have := fieldText_field (kw := c!"msgstr") hf (r := []) (by simp [NoCont])
    rw [List.append_nil] at this
    rw [this]
    by_cases hv : v = [] <;> simp [Message.getText, hv]
  | plural => cases hp

theorem range_head {g : Nat → Option Str} {a : Str} {n : Nat} (h : ((List.range n).filterMap g).head? = some a) :
    ∃ i, i < n ∧ g i = some a ∧ ∀ j, j < i → g j = none := by
  induction n with
  | zero => simp at h
  | succ n ih =>
    rw [List.range_succ, List.filterMap_append] at h
    by_cases hn : (List.range n).filterMap g = []
    · rw [hn, List.nil_append] at h
      rw [List.filterMap_eq_nil_iff] at hn
      refine ⟨n, by omega, ?_, fun j hj => hn j (List.mem_range.mpr hj)⟩
      cases hg : g n with
      | none => simp [hg] at h
      | some b => simpa [hg] using h
    · rw [List.head?_append] at h
      have h : ((List.range n).filterMap g).head? = some a := by
        cases hl : (List.range n).filterMap g with
        | nil => exact absurd hl hn
        | cons => rw [hl] at h; exact h
      obtain ⟨i, h1, h2, h3⟩ := ih h
      exact ⟨i, by omega, h2, h3⟩

variable {env : Env} {stream : List Event} {hdr : Header env.Lang} {xs : List (Except Err PoUnit)} {u : PoUnit}

/-- **C48** What the accessors of a yielded unit's message return, read off the unit's block of lines: the message is plural exactly if the block has a
`msgid_plural` line, and simple otherwise; `get_text` is the text of the `msgstr` field, or of the `msgstr[i]` field with the smallest index. -/
theorem C48_unit (h : Yields (parse env stream) hdr xs) (hu : .ok u ∈ xs) :
    ∃ (forms : Option PluralForms) (block : List PoLine), block.map .ok <:+: streamItems stream ∧ Entry forms block u ∧
      u.message.isEmpty = false ∧ (u.message.isSimple = true ↔ fieldText (c!"msgid_plural") block = none) ∧
      (u.message.isPlural = true ↔ ∃ t, fieldText (c!"msgid_plural") block = some t) ∧
      (u.message.isSimple = true → fieldText (c!"msgstr") block = some u.message.getText) ∧
      (u.message.isPlural = true → ∃ i, fieldText (valueKeyword i) block = some u.message.getText ∧ ∀ j, j < i → fieldText (valueKeyword j) block = none) := by
  obtain ⟨forms, block, h1, h2, h3, h4⟩ := unit_entry h hu
  obtain ⟨_, _, _, _, g5⟩ := entry_fieldText h2
  refine ⟨forms, block, h1, h2, ?_, ?_, ?_, ?_, ?_⟩
  · cases hm : u.message with
    | simple id t => rw [hm] at h3; cases id with
      | nil => exact absurd rfl h3
      | cons => rfl
    | plural p => rfl
  · rw [← g5]
    cases hm : u.message with
    | simple id t => rw [hm] at h3; cases id with
      | nil => exact absurd rfl h3
      | cons => simp [Message.isSimple, Message.getPluralId]
    | plural p => simp [Message.isSimple, Message.getPluralId]
  · rw [← g5]
    cases hm : u.message <;> simp [Message.isPlural, Message.getPluralId]
  · intro hs
    refine entry_text h2 ?_
    cases hm : u.message with
    | simple id t => rfl
    | plural p => rw [hm] at hs; cases hs
  · intro hs
    cases hm : u.message with
    | simple id t => rw [hm] at hs; cases hs
    | plural p =>
      obtain ⟨_, g2⟩ := entry_values h2 hm
      have hne : p.values ≠ [] := by
        obtain ⟨cs, b1, b2, b3, b4, b5, b6, b7, pid, ppl, id, idPl, _, _, _, _, _, _, _, _, f7, _⟩ := h2
        rw [hm] at f7
        cases f7
        assumption
      have hh : ((List.range (nplurals forms)).filterMap fun i => fieldText (valueKeyword i) block).head? = some (Message.plural p).getText := by
        rw [← g2]
        cases hv : p.values with
        | nil => exact absurd hv hne
        | cons v vs => simp [Message.getText, Plural.first, hv]
      obtain ⟨i, _, i2, i3⟩ := range_head hh
      exact ⟨i, i2, i3⟩

/-- **C48** The plural forms that a plural message shows are those of the `Plural-Forms` property: its text, its formula as written and its number of
texts.  There are none exactly if the property is absent or empty. -/
theorem C48_forms (h : Yields (parse env stream) hdr xs) (hu : .ok u ∈ xs) {p : Plural} (hp : u.message.getPlural = some p ∨ u.prevMessage.getPlural = some p) :
    (p.getForms = none ↔ hdr.properties.lookup (c!"Plural-Forms") = none ∨ hdr.properties.lookup (c!"Plural-Forms") = some []) ∧
    ∀ f, p.getForms = some f → hdr.properties.lookup (c!"Plural-Forms") = some f.getDefinition ∧ IsList f.getDefinition ∧
      ∃ ps, PairsOf f.getDefinition ps ∧ f.getFormula = (lastValue (c!"plural") ps).getD [] ∧ CountRule (lastValue (c!"nplurals") ps) f.getCount := by
  have hp' : u.message = .plural p ∨ u.prevMessage = .plural p := by
    rcases hp with hp | hp
    · left; cases hm : u.message <;> simp_all [Message.getPlural]
    · right; cases hm : u.prevMessage <;> simp_all [Message.getPlural]
  obtain ⟨forms, h1, h2⟩ := C24_forms h
  have e := h2 u hu p hp'
  rw [show p.getForms = forms from e]
  generalize hdr.properties.lookup (c!"Plural-Forms") = q at h1
  cases h1 with
  | absent => exact ⟨by simp, fun f hf => by cases hf⟩
  | empty => exact ⟨by simp, fun f hf => by cases hf⟩
  | @given s f hne hf =>
    refine ⟨by simp [hne], ?_⟩
    intro f' hf'
    cases hf'
    obtain ⟨g1, rfl, ps, g3, g4, g5, g6⟩ := hf
    exact ⟨rfl, g1, ps, g3, g4, g6⟩

/-! ### Concrete cases -/

example := C48_unit rich_yields rich_mem
example : richUnit.message.isPlural = true ∧ richUnit.message.isSimple = false ∧ richUnit.message.getText = c!"un" := ⟨rfl, rfl, rfl⟩
example := (C48_forms rich_yields rich_mem (.inl rfl)).2 _ rfl
example : goneUnit.message.isSimple = true ∧ goneUnit.message.getPlural = none ∧ goneUnit.message.isBlank = true := ⟨rfl, rfl, rfl⟩
example := C48_unit (u := goneUnit) rich_yields (by simp [results])
-- a plural message whose first text is empty is not blank, although `get_text` is empty
example : Message.isBlank (.plural ⟨c!"a", c!"b", [[], c!"x"], none⟩) = false ∧ Message.getText (.plural ⟨c!"a", c!"b", [[], c!"x"], none⟩) = [] := ⟨rfl, rfl⟩

end Verif
