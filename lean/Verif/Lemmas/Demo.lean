import Verif.Lemmas.Texts
import Verif.Spec.Progress

/-! Concrete catalogues: the hypotheses of the theorems about units and headers are met, and what is seen. -/

namespace Verif
open Spec

/-- A catalogue with a header, an entry with everything, and an obsolete entry. -/
def richLines : List Str := [
  c!"# Header note", c!"#= other",
  c!"msgid \"\"", c!"msgstr \"\"",
  c!"\"Language: fr\\n\"", c!"\"X-A: one\\n\"", c!"\" X-A :two: b \\n\"",
  c!"\"Plural-Forms: nplurals=2; plural=(n > 1);\\n\"",
  c!"",
  c!"# translator", c!"#. developer", c!"#: a.rs:1 b.rs:2", c!"#, fuzzy, c-format", c!"#, c-format", c!"#= odd",
  c!"#| msgctxt \"old\"", c!"#| \" ctx\"", c!"#| msgid \"old id\"", c!"msgctxt \"ctx\"", c!"msgid \"one\"", c!"msgid_plural \"many\"",
  c!"msgstr[0] \"un\"", c!"msgstr[1] \"des\"", c!"\" uns\"",
  c!"#~ msgid \"gone\"", c!"#~ msgstr \"\""]

/-- Its plural forms. -/
def richForms : PluralForms :=
  ⟨.binop .gt .var (.num 1), 2, c!"nplurals=2; plural=(n > 1);", c!"(n > 1)"⟩

/-- Its header data. -/
def richHeader : Header demoEnv.Lang :=
  ⟨[⟨.translator, c!"Header note"⟩], [⟨'=', c!"other"⟩],
    [(c!"Language", c!"fr"), (c!"X-A", c!"one two: b"), (c!"Plural-Forms", c!"nplurals=2; plural=(n > 1);")], c!"fr"⟩

/-- Its first unit. -/
def richUnit : PoUnit where
  context := some (c!"ctx")
  message := .plural ⟨c!"one", c!"many", [c!"un", c!"des uns"], some richForms⟩
  prevContext := some (c!"old ctx")
  prevMessage := .simple (c!"old id") none
  flags := [c!"fuzzy", c!"c-format"]
  notes := [⟨.translator, c!"translator"⟩, ⟨.developer, c!"developer"⟩]
  locations := [c!"a.rs:1", c!"b.rs:2"]
  comments := [⟨'=', c!"odd"⟩]
  state := .needsWork
  obsolete := false

/-- Its second unit. -/
def goneUnit : PoUnit := { PoUnit.default with message := .simple (c!"gone") none, obsolete := true }

set_option maxRecDepth 100000 in
theorem rich_yields : Yields (parse demoEnv (textStream richLines)) richHeader (results [richUnit, goneUnit] none) :=
  yields_text (res := ⟨richHeader, some richForms, [richUnit, goneUnit], none⟩) (by decide) (by rfl)

theorem rich_mem : .ok richUnit ∈ results [richUnit, goneUnit] none := by simp [results]

/-! ### Entries given by their lines -/

/-- An entry with only `msgid` and `msgstr` lines, without continuations. -/
theorem entry_plain (forms : Option PluralForms) (n m : Nat) (id t : Str) :
    Entry forms [.message n [] (c!"msgid") id, .message m [] (c!"msgstr") t]
      { PoUnit.default with message := .simple id (if t = [] then none else some t), state := if t = [] then .empty else .final } := by
  have hf : ∀ (k : Nat) (kw v : Str), Field kw false [.message k [] kw v] v := fun k kw v => ⟨[], ⟨k, v, [], by simp, by simp⟩, by simp [Tilde]⟩
  refine ⟨[], [], [], [], [], [.message n [] (c!"msgid") id], [], [.message m [] (c!"msgstr") t], none, none, id, none, by simp, .none, .none, .none,
    fun _ => rfl, .none, hf _ _ _, .none, .simple (hf _ _ _), rfl, ⟨rfl, rfl, rfl, rfl⟩, ?_, ?_⟩
  · by_cases h : t = [] <;> simp [h, PoUnit.default]
  · by_cases h : t = [] <;> simp [h, PoUnit.default, HasText]

/-- The beginning of a plural entry. -/
theorem ids_plural (n m : Nat) (id pl : Str) :
    EntryIds false (some pl) [.message n [] (c!"msgid") id, .message m [] (c!"msgid_plural") pl] := by
  have hf : ∀ (k : Nat) (kw v : Str), Field kw false [.message k [] kw v] v := fun k kw v => ⟨[], ⟨k, v, [], by simp, by simp⟩, by simp [Tilde]⟩
  exact ⟨[], [.message n [] (c!"msgid") id], [.message m [] (c!"msgid_plural") pl], id, by simp,
    ⟨[], [], [], [], [], none, none, none, none, by simp, .none, .none, .none, fun _ => rfl, .none⟩, hf _ _ _, .some (hf _ _ _)⟩

/-- A plural entry with one text. -/
theorem entry_plural (forms : Option PluralForms) (hn : 0 < nplurals forms) (n m k : Nat) (id pl t : Str) (ht : t ≠ []) :
    Entry forms [.message n [] (c!"msgid") id, .message m [] (c!"msgid_plural") pl, .message k [] (c!"msgstr[0]") t]
      { PoUnit.default with message := .plural ⟨id, pl, [t], forms⟩, state := .final } := by
  have hf : ∀ (k : Nat) (kw v : Str), Field kw false [.message k [] kw v] v := fun k kw v => ⟨[], ⟨k, v, [], by simp, by simp⟩, by simp [Tilde]⟩
  have hv := ValueFields.cons (Nat.le_refl 0) hn (hf k (valueKeyword 0) t) .nil
  refine ⟨[], [], [], [], [], [.message n [] (c!"msgid") id], [.message m [] (c!"msgid_plural") pl], [.message k [] (c!"msgstr[0]") t], none, none, id, some pl, by simp,
    .none, .none, .none, fun _ => rfl, .none, hf _ _ _, .some (hf _ _ _), .plural hv (by simp), rfl, ⟨rfl, rfl, rfl, rfl⟩, ?_, ?_⟩
  · simp [PoUnit.default]
  · simp [PoUnit.default, HasText, ht]

end Verif
