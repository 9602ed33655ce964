import Verif.Lemmas.Extractor

/-! **C80** The message extractor with any decoder. -/

namespace Verif
open Spec

/-- **C80** Whatever the decoder does: the extractor asks it about the fields one after the other, in the order of the specification, makes the unit out of the answers,
tells the decoder what is missing, and passes on the decoder's failures. -/
theorem C80_extract {δ : Type} (D : Decoder δ) (forms : Option PluralForms) (u : PoUnit) (first : Bool) (s : δ) (o : Out (Option PoUnit)) (s' : δ) :
    D.parseMessageFields forms u first s = (o, s') ↔ Extracts D forms u first s o s' := extracts_iff

/-- **C80** The same for the extractor of the reader, which asks the decoder of the lines. -/
theorem C80_lines {σ : Type} [Src σ] (forms : Option PluralForms) (u : PoUnit) (first : Bool) (s : σ) (o : Out (Option PoUnit)) (s' : σ) :
    parseMessageFields forms u first s = (o, s') ↔ Extracts lineDecoder forms u first s o s' := by
  rw [← line_fields, C80_extract]

/-- **C80** No question is asked twice. -/
theorem C80_once (forms : Option PluralForms) (u : PoUnit) (first : Bool) (d : Dialog) (tag : Str) (h : Asks forms u first d tag) : tag ∉ d.map Prod.fst := by
  obtain ⟨a, rest, h⟩ := h
  have h : ((d ++ (tag, a) :: rest).map Prod.fst).Nodup := by
    rcases h with ⟨u', h⟩ | ⟨t, h⟩
    · exact gives_nodup h
    · exact lacks_nodup h
  rw [List.map_append, List.map_cons] at h
  exact fun hm => (List.nodup_append.mp h).2.2 tag hm tag List.mem_cons_self rfl

/-- **C80** Every table of answers leads to exactly one dialog, and a dialog has one outcome. -/
theorem C80_table (forms : Option PluralForms) (u : PoUnit) (first : Bool) :
    (∀ answer : Str → Option Str, ∃ d : Dialog, ((∀ q ∈ d, q.2 = answer q.1) ∧ ((∃ u', Makes forms u first d u') ∨ ∃ t, Lacks forms first d t)) ∧
      ∀ d' : Dialog, (∀ q ∈ d', q.2 = answer q.1) → ((∃ u', Makes forms u first d' u') ∨ ∃ t, Lacks forms first d' t) → d' = d) ∧
    (∀ d u₁ u₂, Makes forms u first d u₁ → Makes forms u first d u₂ → u₁ = u₂) ∧
    (∀ d t₁ t₂, Lacks forms first d t₁ → Lacks forms first d t₂ → t₁ = t₂) ∧
    ∀ d u' t, Makes forms u first d u' → ¬ Lacks forms first d t := by
  have hp : ∀ {d : Dialog}, ((∃ u', Makes forms u first d u') ∨ ∃ t, Lacks forms first d t) → ∃ o t, Plan.Path (extractPlan forms u first) d o t := by
    rintro d (⟨u', h⟩ | ⟨t, h⟩)
    · exact ⟨_, _, gives_path h⟩
    · exact ⟨_, _, lacks_path h⟩
  have hs : ∀ {d : Dialog} {o o' : Option PoUnit} {t t' : Str}, Plan.Path (extractPlan forms u first) d o t → Plan.Path (extractPlan forms u first) d o' t' → o = o' ∧ t = t' := by
    intro d o o' t t' h h'
    have hn : (d.map Prod.fst).Nodup := by
      rcases path_ends h with ⟨u', _, h⟩ | ⟨_, h⟩
      · exact gives_nodup h
      · exact lacks_nodup h
    have ht := table_talk (u := u) (d := d) (answer := fun tag => (d.lookup tag).getD none) (fun q hq => (lookup_nodup hn hq).symm)
    exact ⟨(Plan.path_talk h h' ht ht).2.1, (Plan.path_talk h h' ht ht).2.2.1⟩
  refine ⟨fun answer => ?_, fun d u₁ u₂ h1 h2 => ?_, fun d t₁ t₂ h1 h2 => (hs (lacks_path h1) (lacks_path h2)).2, fun d u' t h1 h2 => ?_⟩
  · obtain ⟨d, o, t, h, ha⟩ := table_path answer (extractPlan forms u first)
    refine ⟨d, ⟨ha, ?_⟩, fun d' ha' h' => ?_⟩
    · rcases path_ends h with ⟨u', _, h⟩ | ⟨_, h⟩
      · exact .inl ⟨u', h⟩
      · exact .inr ⟨t, h⟩
    · obtain ⟨o', t', h'⟩ := hp h'
      exact (Plan.path_talk h' h (table_talk (u := u) ha') (table_talk ha)).1
  · have := (hs (gives_path h1) (gives_path h2)).1
    exact Option.some.inj this
  · have := (hs (gives_path h1) (lacks_path h2)).1
    cases this

/-! A decoder that counts the questions, knows two fields, and refuses the fourth question. -/

private def counting (limit : Nat) : Decoder Nat where
  parseMsg tag _ n :=
    if n = limit then (.err (.unexpected n (c!"enough")), n)
    else (.ok ([(c!"msgid", c!"one"), (c!"msgid_plural", c!"many"), (c!"msgstr[1]", c!"texts")].lookup tag), n + 1)
  expected tag n := (.err (.unexpected n tag), n)

-- the questions |msgctxt, |msgid, msgctxt, msgid, msgid_plural, msgstr[0] and msgstr[1]
example : (counting 100).parseMessageFields none .default false 0 =
    (.ok (some { PoUnit.default with message := .plural ⟨c!"one", c!"many", [c!"texts"], none⟩ }), 7) := by rfl

-- the decoder fails at the question msgid
example : (counting 3).parseMessageFields none .default false 0 = (.err (.unexpected 3 (c!"enough")), 3) := by rfl

-- by the specification
example : Extracts (counting 3) none .default false 0 (.err (.unexpected 3 (c!"enough"))) 3 := (C80_extract ..).mp (by rfl)

-- with five forms, three more questions; with one form, nothing is found
example : ((counting 100).parseMessageFields (some ⟨.num 0, 5, [], []⟩) .default false 0).2 = 10 := by rfl
example : (counting 100).parseMessageFields (some ⟨.num 0, 1, [], []⟩) .default false 0 = (.err (.unexpected 6 (c!"msgstr[0]")), 6) := by rfl

-- the dialog of a table
example : Makes none .default true [(c!"|msgctxt", none), (c!"|msgid", some (c!"old")), (c!"|msgid_plural", none), (c!"msgctxt", some (c!"c")), (c!"msgid", some (c!"new")),
      (c!"msgid_plural", none), (c!"msgstr", some [])]
    { PoUnit.default with prevMessage := .simple (c!"old") none, context := some (c!"c"), message := .simple (c!"new") none } :=
  .simple (d := [_, _, _]) .simple

-- `C80_once`: after the previous id, the previous plural id is asked
example := C80_once none .default true [(c!"|msgctxt", none), (c!"|msgid", some (c!"old"))] (c!"|msgid_plural")
  ⟨none, [(c!"msgctxt", some (c!"c")), (c!"msgid", some (c!"new")), (c!"msgid_plural", none), (c!"msgstr", some [])], .inl ⟨_, .simple (d := [_, _, _]) .simple⟩⟩

end Verif
