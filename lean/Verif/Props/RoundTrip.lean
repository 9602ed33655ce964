import Verif.Lemmas.Normal
import Verif.Lemmas.Demo

/-! C13, C46: catalogues written as text and read back. -/

namespace Verif
open Spec

/-- **C13** A catalogue that can be written (`WritableCat`), written as text (`catLines`) with line feeds or carriage return and line feed at the ends
of the lines and delivered in any portions, is read back: the same header data, the same units, and no error. -/
theorem C13_round_trip {env : Env} {c : Cat env.Lang} {forms : Option PluralForms} {text : Str} {stream : List Event} (w : WritableCat env c forms)
    (hr : Rendering (catLines c) text) (hd : Delivers stream (utf8 text)) :
    ∃ hdr, SameHeader hdr (c.header.getD (plainHeader env)) ∧ Yields (parse env stream) hdr (results c.units none) := by
  apply reads_yields (forms := forms)
  rw [streamItems_code]
  rw [show flatten stream = (utf8 text, none) from hd, rawLines_rendering hr]
  exact cat_reads w

/-- **C13** The same with any layout of the text: strings cut into continuation lines in any way, any spacing and any blank lines. -/
theorem C13_layout {env : Env} {c : Cat env.Lang} {forms : Option PluralForms} {stream : List Event} (w : WritableCat env c forms)
    (hl : Layout (rawLines (flatten stream)) ((catLines c).map .ok)) :
    ∃ hdr, SameHeader hdr (c.header.getD (plainHeader env)) ∧ Yields (parse env stream) hdr (results c.units none) := by
  have hr := rendering_crlf (catLines_clean w)
  obtain ⟨text, hd⟩ := delivers_exists (utf8 ((catLines c).flatMap fun l => l ++ ['\r', '\n']))
  obtain ⟨hdr, h1, h2⟩ := C13_round_trip w hr hd
  have e : (catLines c).map .ok = rawLines (flatten text) := by
    rw [show flatten text = _ from hd, rawLines_rendering hr]
  rw [e] at hl
  rcases C10_layout env hl with ⟨e1, e2, _, hf, _⟩ | ⟨hdr', us, e1, e2, hy, hy', hs⟩
  · have := h2 0
    rw [show parse env text = .err e2 from hf] at this
    simp [observe, Out.bind] at this
  · obtain ⟨rfl, he⟩ := hy'.unique h2
    have he2 : us = c.units ∧ e2 = none := by
      have key : ∀ (us us' : List PoUnit) (e : Option Err), results us e = results us' none → us = us' ∧ e = none := by
        intro us
        induction us with
        | nil =>
          intro us' e h
          cases us' with
          | nil =>
            cases e with
            | none => exact ⟨rfl, rfl⟩
            | some e => simp [results] at h
          | cons u us' => cases e <;> simp [results] at h
        | cons u us ih =>
          intro us' e h
          cases us' with
          | nil => simp [results] at h
          | cons u' us' =>
            simp only [results, List.map_cons, List.cons_append] at h
            injection h with ha hb
            cases ha
            obtain ⟨rfl, rfl⟩ := ih us' e hb
            exact ⟨rfl, rfl⟩
      exact key _ _ _ he
    obtain ⟨rfl, rfl⟩ := he2
    have : e1 = none := by
      cases e1 with
      | none => rfl
      | some e1 => simp [SameEnd] at hs
    subst this
    exact ⟨hdr', h1, hy⟩

/-- **C13** Different catalogues have different texts. -/
theorem C13_injective {env : Env} {c c' : Cat env.Lang} {forms forms' : Option PluralForms} (w : WritableCat env c forms) (w' : WritableCat env c' forms')
    (h : catLines c = catLines c') : SameHeader (c.header.getD (plainHeader env)) (c'.header.getD (plainHeader env)) ∧ forms = forms' ∧ c.units = c'.units := by
  have h1 := cat_reads w
  have h2 := cat_reads w'
  rw [← h] at h2
  obtain ⟨h3, h4, h5, _⟩ := h1.unique h2
  exact ⟨h3, h4, h5⟩

/-- **C46** Whatever is read, even from a text with an error further on, can be written: there is a catalogue with this header data and these units for
which `C13_round_trip` holds. -/
theorem C46_normal {env : Env} {stream : List Event} {hdr : Header env.Lang} {us : List PoUnit} {e : Option Err}
    (h : Yields (parse env stream) hdr (results us e)) :
    ∃ (c : Cat env.Lang) (forms : Option PluralForms), WritableCat env c forms ∧ c.units = us ∧ c.header.getD (plainHeader env) = hdr := by
  obtain ⟨forms, us', e', he, hr⟩ := yields_reads h
  have hu : us = us' := by
    have key : ∀ us e, (results us e).filterMap (fun x => match x with | .ok u => some u | .error _ => none) = us := by
      intro us e
      unfold results
      rw [List.filterMap_append]
      have h1 : (us.map Except.ok).filterMap (fun x : Except Err PoUnit => match x with | .ok u => some u | .error _ => none) = us := by
        induction us with
        | nil => rfl
        | cons u us ih => simp [ih]
      cases e <;> simpa using h1
    rw [← key us e, he, key]
  subst hu
  obtain ⟨c, h1, h2, h3⟩ := reads_writable (lineItems_good (fun s hs => rawLines_no_nl hs) ((stream_items stream _).mpr rfl)) hr
  exact ⟨c, forms, h1, h2, h3⟩

/-- **C46** Reading, writing and reading again gives the same as reading, and the lines can be written. -/
theorem C46_reread {env : Env} {stream : List Event} {hdr : Header env.Lang} {us : List PoUnit} {e : Option Err}
    (h : Yields (parse env stream) hdr (results us e)) :
    ∃ c : Cat env.Lang, c.units = us ∧ c.header.getD (plainHeader env) = hdr ∧ (∃ text, Rendering (catLines c) text) ∧
      ∀ text stream', Rendering (catLines c) text → Delivers stream' (utf8 text) →
        ∃ hdr', SameHeader hdr' hdr ∧ Yields (parse env stream') hdr' (results us none) := by
  obtain ⟨c, forms, w, rfl, rfl⟩ := C46_normal h
  exact ⟨c, rfl, rfl, ⟨_, rendering_crlf (catLines_clean w)⟩, fun text stream' hr hd => C13_round_trip w hr hd⟩

/-- **C46** What can be read without error is exactly what can be written: header data and units are those of some input iff they are those of a
catalogue that meets `WritableCat`. -/
theorem C46_image {env : Env} (hdr : Header env.Lang) (us : List PoUnit) :
    (∃ stream hdr', SameHeader hdr' hdr ∧ Yields (parse env stream) hdr' (results us none)) ↔
      ∃ (c : Cat env.Lang) (forms : Option PluralForms), WritableCat env c forms ∧ c.units = us ∧ SameHeader (c.header.getD (plainHeader env)) hdr := by
  constructor
  · rintro ⟨stream, hdr', h1, h2⟩
    obtain ⟨c, forms, w, h3, rfl⟩ := C46_normal h2
    exact ⟨c, forms, w, h3, h1⟩
  · rintro ⟨c, forms, w, rfl, h⟩
    obtain ⟨stream, hd⟩ := delivers_exists (utf8 ((catLines c).flatMap fun l => l ++ ['\r', '\n']))
    obtain ⟨hdr', h1, h2⟩ := C13_round_trip w (rendering_crlf (catLines_clean w)) hd
    exact ⟨stream, hdr', ⟨h1.1.trans h.1, h1.2.trans h.2, fun k => (h1.3 k).trans (h.3 k), h1.4.trans h.4⟩, h2⟩

/-! ### A catalogue -/

/-- The demo catalogue as data. -/
def richCat : Cat demoEnv.Lang := ⟨some richHeader, [richUnit, goneUnit]⟩

theorem not_quoted_plain {s : Str} (h : '"' ∉ s) (m k : Option Str) (raw : Str) : ¬ QuotedLine s m k raw := fun hq => h (quoted_has_quote hq)

set_option maxRecDepth 100000 in
theorem richCat_writable : WritableCat demoEnv richCat (some richForms) := by
  refine ⟨⟨⟨?_, ?_, ?_, by decide, rfl⟩, .given (by decide) ((formsParse_iff (env := demoEnv)).mp (by rfl))⟩, ?_⟩
  · intro x hx
    simp only [richHeader, List.mem_singleton] at hx
    subst hx
    exact ⟨by simp only [CommentText]; decide, fun _ => not_quoted_plain (by decide)⟩
  · intro x hx
    simp only [richHeader, List.mem_singleton] at hx
    subst hx
    exact ⟨by simp only [CommentText]; decide, by decide, by decide, by decide, by decide, by decide, not_quoted_plain (by decide)⟩
  · intro x hx
    simp only [richHeader, List.mem_cons, List.not_mem_nil, or_false] at hx
    rcases hx with rfl | rfl | rfl <;> simp only [WritableProperty, Trimmed] <;> decide
  · intro u hu
    simp only [richCat, List.mem_cons, List.not_mem_nil, or_false] at hu
    rcases hu with rfl | rfl
    · refine ⟨?_, ?_, ?_, ?_, by decide, ⟨by decide, by decide, rfl⟩, rfl, ⟨by decide, ?_⟩⟩
      · intro x hx
        simp only [richUnit, List.mem_cons, List.not_mem_nil, or_false] at hx
        rcases hx with rfl | rfl <;> exact ⟨by simp only [CommentText]; decide, fun _ => not_quoted_plain (by decide)⟩
      · intro x hx
        simp only [richUnit, List.mem_singleton] at hx
        subst hx
        exact ⟨by simp only [CommentText]; decide, by decide, by decide, by decide, by decide, by decide, not_quoted_plain (by decide)⟩
      · intro x hx
        simp only [richUnit, List.mem_cons, List.not_mem_nil, or_false] at hx
        rcases hx with rfl | rfl <;> simp only [WritableLocation, Solid] <;> decide
      · intro x hx
        simp only [richUnit, List.mem_cons, List.not_mem_nil, or_false] at hx
        rcases hx with rfl | rfl <;> simp only [WritableFlag, Trimmed] <;> decide
      · constructor
        · intro h; exact absurd h (by decide)
        · rintro ⟨h, _⟩; exact absurd (by decide) h
    · refine ⟨?_, ?_, ?_, ?_, by decide, ⟨by decide, by decide⟩, rfl, ⟨by decide, ?_⟩⟩
      · intro x hx; cases hx
      · intro x hx; cases hx
      · intro x hx; cases hx
      · intro x hx; cases hx
      · constructor
        · intro h; exact absurd h (by decide)
        · rintro ⟨_, s, h, _⟩; cases h

/-- Its text. -/
def richText : List Str := [
  c!"# Header note", c!"#= other", c!"msgid \"\"",
  c!"msgstr \"Language: fr\\nX-A: one two: b\\nPlural-Forms: nplurals=2; plural=(n > 1);\\n\"", c!"",
  c!"# translator", c!"#. developer", c!"#= odd", c!"#: a.rs:1 b.rs:2", c!"#, fuzzy, c-format",
  c!"#| msgctxt \"old ctx\"", c!"#| msgid \"old id\"", c!"msgctxt \"ctx\"", c!"msgid \"one\"", c!"msgid_plural \"many\"",
  c!"msgstr[0] \"un\"", c!"msgstr[1] \"des uns\"", c!"",
  c!"#~ msgid \"gone\"", c!"#~ msgstr \"\"", c!""]

set_option maxRecDepth 100000 in
example : catLines richCat = richText := by rfl

-- read back from one piece
example : ∃ hdr, SameHeader hdr richHeader ∧ Yields (parse demoEnv (textStream richText)) hdr (results [richUnit, goneUnit] none) :=
  C13_round_trip richCat_writable (rendering_lf (ls := richText) (by decide)) (textStream_flatten richText)

-- and the catalogue read from the differently laid out `richLines` can be written
example : ∃ c : Cat demoEnv.Lang, c.units = [richUnit, goneUnit] ∧ c.header.getD (plainHeader demoEnv) = richHeader ∧ (∃ text, Rendering (catLines c) text) ∧
    ∀ text stream', Rendering (catLines c) text → Delivers stream' (utf8 text) →
      ∃ hdr', SameHeader hdr' richHeader ∧ Yields (parse demoEnv stream') hdr' (results [richUnit, goneUnit] none) :=
  C46_reread rich_yields

-- a comment that ends in a carriage return (the line has two): read, and written with two again
def crUnit : PoUnit := { PoUnit.default with message := .simple (c!"a") (some (c!"b")), state := .final, notes := [⟨.translator, c!"x\r"⟩] }

theorem cr_yields : ∃ stream, Delivers stream (utf8 (c!"# x\r\r\nmsgid \"a\"\nmsgstr \"b\"\n")) ∧
    Yields (parse demoEnv stream) (noHeader demoEnv) (results [crUnit] none) := by
  obtain ⟨stream, hd⟩ := delivers_exists (utf8 (c!"# x\r\r\nmsgid \"a\"\nmsgstr \"b\"\n"))
  refine ⟨stream, hd, ?_⟩
  have hr : Rendering [c!"# x\r", c!"msgid \"a\"", c!"msgstr \"b\""] (c!"# x\r\r\nmsgid \"a\"\nmsgstr \"b\"\n") :=
    .crlf (l := c!"# x\r") (by decide) (.lf (l := c!"msgid \"a\"") (by decide) (.lf (l := c!"msgstr \"b\"") (by decide) .nil))
  have h := parse_stream demoEnv stream
  rw [streamItems_code, show flatten stream = _ from hd, rawLines_rendering hr] at h
  exact h

example : ∃ (c : Cat demoEnv.Lang) (forms : Option PluralForms), WritableCat demoEnv c forms ∧ c.units = [crUnit] ∧
    SameHeader (c.header.getD (plainHeader demoEnv)) (noHeader demoEnv) := by
  obtain ⟨stream, _, h⟩ := cr_yields
  exact (C46_image _ _).mp ⟨stream, _, ⟨rfl, rfl, fun _ => rfl, rfl⟩, h⟩

-- a note with a line feed cannot come out of any input
example (hdr : Header demoEnv.Lang) (u : PoUnit) (h : ⟨.translator, c!"x\ny"⟩ ∈ u.notes) :
    ¬ ∃ stream hdr', SameHeader hdr' hdr ∧ Yields (parse demoEnv stream) hdr' (results [u] none) := by
  rw [C46_image]
  rintro ⟨c, forms, w, hu, _⟩
  exact (((w.2 u (by simp [hu])).notes _ h).1.1) (by decide)

end Verif
