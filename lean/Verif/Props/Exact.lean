import Verif.Props.Units
import Verif.Lemmas.Positions

/-! C47: reading is exactly what the specification of catalogues says. -/

namespace Verif
open Spec

variable {env : Env} {stream : List Event} {l : List Item}

/-- **C47** Every stream has exactly one list of line items by the line grammar. -/
theorem C47_items (stream : List Event) : ∃ l, LineItems 1 (rawLines (flatten stream)) l ∧ ∀ l', LineItems 1 (rawLines (flatten stream)) l' → l' = l :=
  ⟨streamItems stream, (stream_items _ _).mpr rfl, fun _ h => (stream_items _ _).mp h⟩

/-- **C47** `parse()` fails with `e` exactly if the specification rejects the line items with `e`. -/
theorem C47_fails (hl : LineItems 1 (rawLines (flatten stream)) l) (e : Err) : Fails (parse env stream) e ↔ Rejects env l e := by
  rw [(stream_items _ _).mp hl]
  exact (rejects_iff env stream e).symm

/-- **C47** What a user gets is a reading of the line items by the specification. -/
theorem C47_sound (hl : LineItems 1 (rawLines (flatten stream)) l) {hdr : Header env.Lang} {xs : List (Except Err PoUnit)}
    (h : Yields (parse env stream) hdr xs) : ∃ forms us e, xs = results us e ∧ Reads env l hdr forms us e := by
  rw [(stream_items _ _).mp hl]
  exact yields_reads h

/-- **C47** A reading of the line items by the specification is what a user gets; the header properties are a map, so they are the same key by key. -/
theorem C47_complete (hl : LineItems 1 (rawLines (flatten stream)) l) {hdr : Header env.Lang} {forms : Option PluralForms} {us : List PoUnit} {e : Option Err}
    (h : Reads env l hdr forms us e) : ∃ hdr', SameHeader hdr' hdr ∧ Yields (parse env stream) hdr' (results us e) := by
  rw [(stream_items _ _).mp hl] at h
  exact reads_yields h

/-- **C47** Every stream is either rejected with exactly one error or read with exactly one result, never both. -/
theorem C47_total (env : Env) (hl : LineItems 1 (rawLines (flatten stream)) l) :
    ((∃ e, Rejects env l e ∧ ∀ e', Rejects env l e' → e' = e) ∧ ∀ hdr forms us e, ¬ Reads env l hdr forms us e) ∨
    ((∃ hdr forms us e, Reads env l hdr forms us e ∧
        ∀ hdr' forms' us' e', Reads env l hdr' forms' us' e' → SameHeader hdr' hdr ∧ forms' = forms ∧ us' = us ∧ e' = e) ∧
      ∀ e, ¬ Rejects env l e) := by
  have := (stream_items _ _).mp hl
  subst this
  rcases parse_spec env stream with ⟨e, _, h⟩ | ⟨hdr, forms, us, e, _, h⟩
  · exact .inl ⟨⟨e, h, fun e' h' => h'.unique h⟩, fun _ _ _ _ h' => not_rejects_reads h h'⟩
  · exact .inr ⟨⟨hdr, forms, us, e, h, fun _ _ _ _ h' => h'.unique h⟩, fun _ h' => not_rejects_reads h' h⟩

/-- **C47** Two streams with the same line items give the same results to every user. -/
theorem C47_determined {stream' : List Event} (hl : LineItems 1 (rawLines (flatten stream)) l) (hl' : LineItems 1 (rawLines (flatten stream')) l) :
    (∀ e, Fails (parse env stream) e ↔ Fails (parse env stream') e) ∧
    (∀ hdr xs, Yields (parse env stream) hdr xs → ∃ hdr', SameHeader hdr' hdr ∧ Yields (parse env stream') hdr' xs) := by
  refine ⟨fun e => by rw [C47_fails hl, C47_fails hl'], ?_⟩
  intro hdr xs h
  obtain ⟨forms, us, e, rfl, hr⟩ := C47_sound hl h
  exact C47_complete hl' hr

-- a catalogue with header and two units, and one that is rejected
example := C47_sound (env := demoEnv) ((stream_items _ _).mpr rfl) rich_yields
example := (C47_fails (env := demoEnv) (stream := textStream [c!"msgid \"a\"", c!"msgid \"b\""]) ((stream_items _ _).mpr rfl) _).mp
  (fails_text (e := _) (by decide) (by rfl))

end Verif
