import Verif.Lemmas.Progress
import Verif.Lemmas.Demo

/-! C14-C19, C24, C34, C45: what a yielded unit is. -/

namespace Verif
open Spec

theorem first_unit {l rest : List Item} {u : PoUnit} (h : First l (.unit u rest)) :
    ∃ block, l = block.map .ok ++ rest ∧ Entry none block u ∧ HasSource u.message ∧ EndsHere none block rest := by
  cases h with
  | unit h1 h2 h3 => exact ⟨_, rfl, h1, h2, h3⟩

theorem first_header {l rest : List Item} {ns : List Note} {cs : List Comment} {t : Str} (h : First l (.header ns cs t rest)) :
    ∃ block : List PoLine, l = block.map .ok ++ rest := by
  cases h with
  | header h1 h2 h3 => exact ⟨_, rfl⟩
  | noId h1 h2 h3 => exact ⟨_, rfl⟩

theorem first_nothing {l : List Item} {forms : Option PluralForms} (h : First l .nothing) : Stops forms l none := by
  cases h with
  | comments h =>
    obtain ⟨ds, rfl⟩ := all_comments h
    exact .endsInHead (entryHead_comments false ds)
  | cut h => exact .endsAfterIds h

theorem results_inj {us us' : List PoUnit} {e e' : Option Err} (h : results us e = results us' e') : us = us' ∧ e = e' := by
  unfold results at h
  induction us generalizing us' with
  | nil =>
    cases us' with
    | nil => cases e <;> cases e' <;> simp_all
    | cons u us' => cases e <;> simp at h
  | cons u us ih =>
    cases us' with
    | nil => cases e' <;> simp at h
    | cons u' us' =>
      simp only [List.map_cons, List.cons_append, List.cons.injEq, Except.ok.injEq] at h
      obtain ⟨h1, h2⟩ := ih h.2
      exact ⟨by rw [h.1, h1], h2⟩

/-- **C14** The items of an input are a header block (empty without header), one contiguous block per yielded unit, in order, and a tail
at which reading stops.  Each unit is what the entry grammar says about its own block. -/
theorem C14_blocks {env : Env} {stream : List Event} {hdr : Header env.Lang} {us : List PoUnit} {e : Option Err}
    (h : Yields (parse env stream) hdr (results us e)) :
    ∃ (forms : Option PluralForms) (head : List PoLine) (blocks : List (List PoLine × PoUnit)) (tail : List Item),
      streamItems stream = head.map .ok ++ ((blocks.flatMap Prod.fst).map .ok ++ tail) ∧
      us = blocks.map Prod.snd ∧ (∀ b ∈ blocks, Entry forms b.1 b.2 ∧ HasSource b.2.message) ∧ Stops forms tail e ∧
      FormsRule env (hdr.properties.lookup (c!"Plural-Forms")) (.ok forms) ∧
      (head = [] ∨ ∃ ns cs t, First (streamItems stream) (.header ns cs t ((blocks.flatMap Prod.fst).map .ok ++ tail)) ∧ HeaderRule env ns cs t hdr) := by
  obtain ⟨forms, us', e', hx, hr⟩ := yields_reads h
  have hxx := results_inj hx
  obtain ⟨rfl, rfl⟩ := hxx
  cases hr with
  | nothing f => exact ⟨none, [], [], _, rfl, rfl, by simp, first_nothing f, .absent, .inl rfl⟩
  | @plain u rest us e f r =>
    obtain ⟨block, h1, h2, h3, h4⟩ := first_unit f
    obtain ⟨l', a, s⟩ := r.after
    obtain ⟨bs, b1, b2, b3⟩ := a.blocks
    refine ⟨none, [], (block, u) :: bs, l', ?_, by rw [b2]; rfl, ?_, s, .absent, .inl rfl⟩
    · rw [h1, b1]; simp
    · intro b hb
      rcases List.mem_cons.mp hb with rfl | hb
      · exact ⟨h2, h3⟩
      · exact b3 b hb
  | @headed ns cs t rest hdr forms us e f r1 r2 r =>
    obtain ⟨block, h1⟩ := first_header f
    obtain ⟨l', a, s⟩ := r.after
    obtain ⟨bs, b1, b2, b3⟩ := a.blocks
    exact ⟨forms, block, bs, l', by rw [h1, b1], b2, b3, s, r2, .inr ⟨ns, cs, t, by rw [← b1]; exact f, r1⟩⟩

/-- Every yielded unit is an entry, over a contiguous block of the input, with the plural forms of the header. -/
theorem unit_entry {env : Env} {stream : List Event} {hdr : Header env.Lang} {xs : List (Except Err PoUnit)}
    (h : Yields (parse env stream) hdr xs) {u : PoUnit} (hu : .ok u ∈ xs) :
    ∃ (forms : Option PluralForms) (block : List PoLine), block.map .ok <:+: streamItems stream ∧ Entry forms block u ∧ HasSource u.message ∧
      FormsRule env (hdr.properties.lookup (c!"Plural-Forms")) (.ok forms) := by
  obtain ⟨_, us, e, rfl, _⟩ := yields_reads h
  obtain ⟨forms, head, blocks, tail, h1, h2, h3, _, h5, _⟩ := C14_blocks h
  have := results_mem hu
  rw [h2] at this
  obtain ⟨b, hb, rfl⟩ := List.mem_map.mp this
  refine ⟨forms, b.1, ?_, (h3 b hb).1, (h3 b hb).2, h5⟩
  obtain ⟨s, t, rfl⟩ := List.append_of_mem hb
  rw [h1]
  exact ⟨head.map .ok ++ (s.flatMap Prod.fst).map .ok, (t.flatMap Prod.fst).map .ok ++ tail, by simp⟩

variable {env : Env} {stream : List Event} {hdr : Header env.Lang} {xs : List (Except Err PoUnit)} {u : PoUnit}

/-- **C15** The state of a yielded unit. -/
theorem C15_state (h : Yields (parse env stream) hdr xs) (hu : .ok u ∈ xs) :
    (u.state = .needsWork ↔ c!"fuzzy" ∈ u.flags) ∧
    (u.state = .final ↔ c!"fuzzy" ∉ u.flags ∧ HasText u.message) ∧
    (u.state = .empty ↔ c!"fuzzy" ∉ u.flags ∧ ¬ HasText u.message) ∧
    (u.isTranslated = true ↔ c!"fuzzy" ∉ u.flags ∧ HasText u.message) := by
  obtain ⟨forms, block, _, he, _⟩ := unit_entry h hu
  obtain ⟨_, _, _, _, _, _, _, _, _, _, _, _, _, _, _, _, _, _, _, _, _, _, _, h1, h2⟩ := he
  refine ⟨h1, h2, ?_, ?_⟩
  · cases hs : u.state with
    | empty =>
      simp only [hs, reduceCtorEq, false_iff, not_and, true_iff] at h1 h2 ⊢
      exact ⟨h1, h2 h1⟩
    | needsWork =>
      simp only [hs, reduceCtorEq, true_iff, false_iff] at h1 ⊢
      exact fun h => h.1 h1
    | final =>
      simp only [hs, reduceCtorEq, true_iff, false_iff] at h2 ⊢
      exact fun h => h.2 h2.2
  · unfold PoUnit.isTranslated
    rw [← h2]
    simp

theorem text_commentOf {forms : Option PluralForms} {o : Bool} {id : Str} {idPl : Option Str} {b : List PoLine} {m : Message}
    (h : TextFields forms o id idPl b m) : b.filterMap commentOf = [] := by
  cases h with
  | simple h => exact commentOf_field h
  | plural h _ =>
    have key : ∀ {hi lo b vs}, ValueFields o hi lo b vs → b.filterMap commentOf = [] := by
      intro hi lo b vs h
      induction h with
      | nil => rfl
      | cons _ _ h _ ih => rw [List.filterMap_append, commentOf_field h, ih]; rfl
    exact key h

theorem entry_comments_of {forms : Option PluralForms} {block : List PoLine} {u : PoUnit} (h : Entry forms block u) :
    CommentData (block.filterMap commentOf) u := by
  obtain ⟨cs, b1, b2, b3, b4, b5, b6, b7, pid, ppl, id, idPl, rfl, f1, f2, f3, g3, f4, f5, f6, f7, _, hcd, _⟩ := h
  simp only [List.filterMap_append, commentOf_comments, commentOf_opt f1, commentOf_opt f2, commentOf_opt f3, commentOf_opt f4, commentOf_field f5,
    commentOf_opt f6, text_commentOf f7, List.append_nil]
  exact hcd

/-- **C16** A unit's flags, locations, notes and comments are those of the comment lines of its block, in order; nothing else. -/
theorem C16_comments (h : Yields (parse env stream) hdr xs) (hu : .ok u ∈ xs) :
    ∃ (forms : Option PluralForms) (block : List PoLine), block.map .ok <:+: streamItems stream ∧ Entry forms block u ∧
      CommentData (block.filterMap commentOf) u ∧
      (∀ f, f ∈ u.flags ↔ ∃ c ∈ block.filterMap commentOf, f ∈ flagItems c) ∧ u.flags.Nodup := by
  obtain ⟨forms, block, hi, he, _⟩ := unit_entry h hu
  have hc := entry_comments_of he
  refine ⟨forms, block, hi, he, hc, ?_, ?_⟩
  · intro f
    rw [hc.flags, mem_distinct, List.mem_flatMap]
  · rw [hc.flags]; exact nodup_distinct _

/-- The marker of a line that carries a text. -/
def markerOf : PoLine → Option Str
  | .message _ p _ _ => some p
  | .continuation _ p _ => some p
  | _ => none

theorem field_markers {kw : Str} {o : Bool} {b : List PoLine} {v : Str} (h : Field kw o b v) :
    ∀ ln ∈ b, ∀ p, markerOf ln = some p → (o = true ↔ Tilde p) := by
  obtain ⟨p, ⟨n, s, cs, rfl, _⟩, ho⟩ := h
  intro ln hln q hq
  rcases List.mem_cons.mp hln with rfl | hln
  · cases hq; exact ho
  · obtain ⟨c, _, rfl⟩ := List.mem_map.mp hln
    cases hq; exact ho

theorem opt_markers {kw : Str} {o : Bool} {b : List PoLine} {v : Option Str} (h : OptField kw o b v) :
    ∀ ln ∈ b, ∀ p, markerOf ln = some p → (o = true ↔ Tilde p) := by
  cases h with
  | none => simp
  | some h => exact field_markers h

theorem text_markers {forms : Option PluralForms} {o : Bool} {id : Str} {idPl : Option Str} {b : List PoLine} {m : Message}
    (h : TextFields forms o id idPl b m) : ∀ ln ∈ b, ∀ p, markerOf ln = some p → (o = true ↔ Tilde p) := by
  cases h with
  | simple h => exact field_markers h
  | plural h _ =>
    have key : ∀ {hi lo b vs}, ValueFields o hi lo b vs → ∀ ln ∈ b, ∀ p, markerOf ln = some p → (o = true ↔ Tilde p) := by
      intro hi lo b vs h
      induction h with
      | nil => simp
      | cons _ _ h _ ih =>
        intro ln hln
        rcases List.mem_append.mp hln with hln | hln
        · exact field_markers h ln hln
        · exact ih ln hln
    exact key h

/-- **C17** Every keyword and continuation line of an obsolete unit has the `~` marker, and none of an active unit has it. -/
theorem C17_obsolete (h : Yields (parse env stream) hdr xs) (hu : .ok u ∈ xs) :
    ∃ (forms : Option PluralForms) (block : List PoLine), block.map .ok <:+: streamItems stream ∧ Entry forms block u ∧
      ∀ ln ∈ block, ∀ p, markerOf ln = some p → (u.obsolete = true ↔ Tilde p) := by
  obtain ⟨forms, block, hi, he, _⟩ := unit_entry h hu
  refine ⟨forms, block, hi, he, ?_⟩
  obtain ⟨cs, b1, b2, b3, b4, b5, b6, b7, pid, ppl, id, idPl, rfl, f1, f2, f3, g3, f4, f5, f6, f7, _⟩ := he
  intro ln hln
  simp only [List.mem_append] at hln
  rcases hln with hln | hln | hln | hln | hln | hln | hln | hln
  · obtain ⟨c, _, rfl⟩ := List.mem_map.mp hln
    intro p hp; cases hp
  · exact opt_markers f1 ln hln
  · exact opt_markers f2 ln hln
  · exact opt_markers f3 ln hln
  · exact opt_markers f4 ln hln
  · exact field_markers f5 ln hln
  · exact opt_markers f6 ln hln
  · exact text_markers f7 ln hln

/-- **C18** A yielded unit without plural id has a non-empty message id. -/
theorem C18_source (h : Yields (parse env stream) hdr xs) (hu : .ok u ∈ xs) (hp : u.message.getPluralId = none) : u.message.getId ≠ [] := by
  obtain ⟨forms, block, _, _, hs, _⟩ := unit_entry h hu
  cases hm : u.message with
  | simple id t => rw [hm] at hs; exact hs
  | plural p => rw [hm] at hp; cases hp

/-- **C18** An entry with an empty id and without plural id, anywhere after the header or the first unit, ends reading with an
`Unexpected` error that carries the number of the entry's first line after its comments. -/
theorem C18_empty_source {st : Header env.Lang} {forms : Option PluralForms} {us : List PoUnit} {cs block : List PoLine} {ln : PoLine} {rest : List Item}
    {t : Option Str} (h : Progress env (streamItems stream) false st forms us ((cs ++ ln :: block).map .ok ++ rest))
    (he : Entry forms (cs ++ ln :: block) u) (hc : ∀ c ∈ cs, IsComment c) (hln : ¬ IsComment ln) (hm : u.message = .simple [] t)
    (hend : EndsHere forms (cs ++ ln :: block) rest) :
    ∃ hdr, SameHeader hdr st ∧ Yields (parse env stream) hdr (results us (some (.unexpected (lineNumber ln) (c!"Source should not be empty")))) := by
  have := h.reads (.stop (.noSource he hc hln hm hend))
  rw [List.append_nil] at this
  exact reads_yields this

/-- **C19** A simple message of a yielded unit has no text or a non-empty text, so `get_plural_text(n)` is `None` exactly when the
message is blank; a previous message has no text at all. -/
theorem C19_text (h : Yields (parse env stream) hdr xs) (hu : .ok u ∈ xs) :
    (∀ id t, u.message = .simple id t → t ≠ some [] ∧ ∀ dbg n, u.message.getPluralText dbg n = .ok none ↔ u.message.isBlank = true) ∧
    (∀ id t, u.prevMessage = .simple id t → t = none) ∧ (∀ p, u.prevMessage = .plural p → p.values = []) := by
  obtain ⟨forms, block, _, he, _⟩ := unit_entry h hu
  obtain ⟨cs, b1, b2, b3, b4, b5, b6, b7, pid, ppl, id, idPl, _, _, _, _, _, _, _, _, f7, hpm, _⟩ := he
  refine ⟨?_, ?_, ?_⟩
  · intro i t hm
    rw [hm] at f7 ⊢
    cases f7 with
    | @simple _ v hf =>
      by_cases hv : v = []
      · simp [hv, Message.getPluralText, Message.isBlank]
      · simp [hv, Message.getPluralText, Message.isBlank]
  · intro i t hm
    rw [hpm] at hm
    cases pid <;> cases ppl <;> simp [previousMessage] at hm <;> simp [hm]
  · intro p hm
    rw [hpm] at hm
    cases pid <;> cases ppl <;> simp [previousMessage] at hm
    rw [← hm]

/-- The plural forms of the message of an entry are those of the catalogue. -/
theorem entry_forms {forms : Option PluralForms} {block : List PoLine} (he : Entry forms block u) {p : Plural} (hp : u.message = .plural p ∨ u.prevMessage = .plural p) :
    p.forms = forms := by
  obtain ⟨cs, b1, b2, b3, b4, b5, b6, b7, pid, ppl, id, idPl, _, _, _, _, _, _, _, _, f7, hpm, _⟩ := he
  rcases hp with hp | hp
  · rw [hp] at f7; cases f7; rfl
  · rw [hpm] at hp
    cases pid <;> cases ppl <;> simp [previousMessage] at hp
    rw [← hp]

/-- **C24** Every plural message of every unit carries the plural forms of the header (none if the header has none).  That the header data
do not change while units are read is part of `Yields`. -/
theorem C24_forms (h : Yields (parse env stream) hdr xs) :
    ∃ forms, FormsRule env (hdr.properties.lookup (c!"Plural-Forms")) (.ok forms) ∧
      ∀ u, .ok u ∈ xs → ∀ p, (u.message = .plural p ∨ u.prevMessage = .plural p) → p.forms = forms := by
  obtain ⟨_, us, e, rfl, _⟩ := yields_reads h
  obtain ⟨forms, head, blocks, tail, h1, h2, h3, _, h5, _⟩ := C14_blocks h
  refine ⟨forms, h5, ?_⟩
  intro u hu p hp
  have := results_mem hu
  rw [h2] at this
  obtain ⟨b, hb, rfl⟩ := List.mem_map.mp this
  exact entry_forms (h3 b hb).1 hp

/-- **C24** The header data that a user sees are the same after every call of `next()`. -/
theorem C24_immutable (stream : List Event) {k : Nat} {calls : List (Header env.Lang × Option (Except Err PoUnit))}
    (h : observe k (parse env stream) = .ok (hdr, calls)) : ∀ c ∈ calls, c.1 = hdr := by
  rcases parse_spec env stream with ⟨e', h1, h2⟩ | ⟨hdr', forms', us', e', h1, h2⟩
  · rw [show parse env stream = .err e' from h1] at h
    simp [observe, Out.bind] at h
  · rw [h1 k] at h
    simp only [Out.ok.injEq, Prod.mk.injEq] at h
    obtain ⟨rfl, rfl⟩ := h
    simp

theorem values_length {o : Bool} {hi lo : Nat} {b : List PoLine} {vs : List Str} (h : ValueFields o hi lo b vs) (hlo : lo ≤ hi) : lo + vs.length ≤ hi := by
  induction h with
  | nil => simpa using hlo
  | cons h1 h2 _ _ ih =>
    have := ih (by omega)
    simp only [List.length_cons]; omega

/-- **C44** A plural unit has between 1 and `nplurals` texts (`nplurals` from the header, else 2). -/
theorem C44_count (h : Yields (parse env stream) hdr xs) :
    ∃ forms, FormsRule env (hdr.properties.lookup (c!"Plural-Forms")) (.ok forms) ∧
      ∀ u, .ok u ∈ xs → ∀ p, u.message = .plural p → 1 ≤ p.values.length ∧ p.values.length ≤ nplurals forms := by
  obtain ⟨_, us, e, rfl, _⟩ := yields_reads h
  obtain ⟨forms, head, blocks, tail, h1, h2, h3, _, h5, _⟩ := C14_blocks h
  refine ⟨forms, h5, ?_⟩
  intro u hu p hp
  have := results_mem hu
  rw [h2] at this
  obtain ⟨b, hb, rfl⟩ := List.mem_map.mp this
  obtain ⟨cs, b1, b2, b3, b4, b5, b6, b7, pid, ppl, id, idPl, _, _, _, _, _, _, _, _, f7, _⟩ := (h3 b hb).1
  rw [hp] at f7
  cases f7 with
  | plural hv hne =>
    have := values_length hv (Nat.zero_le _)
    exact ⟨List.length_pos_iff.mpr hne, by simpa using this⟩

/-- **C34** Without a (non-empty) `Plural-Forms` property every plural unit has at most two texts and none of them can be selected. -/
theorem C34_no_forms (h : Yields (parse env stream) hdr xs) (hn : hdr.properties.lookup (c!"Plural-Forms") = none ∨ hdr.properties.lookup (c!"Plural-Forms") = some [])
    (hu : .ok u ∈ xs) {p : Plural} (hp : u.message = .plural p) :
    p.values.length ≤ 2 ∧ ∀ dbg n, u.message.getPluralText dbg n = .ok none := by
  have hnone : ∀ {forms}, FormsRule env (hdr.properties.lookup (c!"Plural-Forms")) (.ok forms) → forms = none := by
    intro forms hf
    rw [formsRule_iff] at hf
    rcases hn with hn | hn <;> rw [hn] at hf <;> cases hf <;> rfl
  obtain ⟨f1, h1, h2⟩ := C44_count h
  obtain ⟨f2, h3, h4⟩ := C24_forms h
  have e1 := hnone h1
  have e2 := hnone h3
  subst e1 e2
  refine ⟨(h2 u hu p hp).2, ?_⟩
  intro dbg n
  rw [hp, Message.getPluralText, Plural.get, h4 u hu p (.inl hp)]

/-! ### Concrete cases -/

-- `C14_blocks`: the hypothesis is met by a catalogue with header and two units
example := C14_blocks rich_yields

-- `C15_state`, `C16_comments`, `C17_obsolete`, `C24_forms`, `C44_count`: what they say about this catalogue
example : richUnit.state = .needsWork ∧ c!"fuzzy" ∈ richUnit.flags ∧ HasText richUnit.message ∧ richUnit.isTranslated = false :=
  ⟨rfl, by decide, ⟨c!"un", by simp, by simp⟩, rfl⟩
example := C15_state rich_yields rich_mem
example := C16_comments rich_yields rich_mem
example : flagItems (',', c!"fuzzy, c-format") = [c!"fuzzy", c!"c-format"] ∧ locationItems (':', c!" a.rs:1  b.rs:2") = [c!"a.rs:1", c!"b.rs:2"] := by
  rw [flagItems_eq, locationItems_eq]
  exact ⟨rfl, rfl⟩
example := C17_obsolete rich_yields rich_mem
example := C24_forms rich_yields
example := C44_count rich_yields
example : goneUnit.message.getPluralText true 7 = .ok none ∧ goneUnit.message.isBlank = true := ⟨rfl, rfl⟩
example := C19_text (u := goneUnit) rich_yields (by simp [results])
example := C18_source (u := goneUnit) rich_yields (by simp [results]) rfl

/-- An entry with an empty id after the first unit. -/
def noSourceLines : List Str := [c!"msgid \"a\"", c!"msgstr \"b\"", c!"# note", c!"msgid \"\"", c!"msgstr \"x\""]

-- `C18_empty_source`: the error has the line of the `msgid`, not that of the comment
example : Yields (parse demoEnv (textStream noSourceLines)) (plainHeader demoEnv)
    (results [{ PoUnit.default with message := .simple (c!"a") (some (c!"b")), state := .final }] (some (.unexpected 4 (c!"Source should not be empty")))) :=
  yields_text (res := ⟨plainHeader demoEnv, none, _, _⟩) (by decide) (by rfl)

-- the hypotheses of `C18_empty_source` are met by this input
example : Progress demoEnv (streamItems (textStream noSourceLines)) false (plainHeader demoEnv) none
    [{ PoUnit.default with message := .simple (c!"a") (some (c!"b")), state := .final }]
    (([] ++ .comment 3 ' ' (c!"note") :: [.message 4 [] (c!"msgid") [], .message 5 [] (c!"msgstr") (c!"x")] : List PoLine).map .ok ++ []) := by
  have hi : items 1 (noSourceLines.map .ok) = [.ok (.message 1 [] (c!"msgid") (c!"a")), .ok (.message 2 [] (c!"msgstr") (c!"b")), .ok (.comment 3 ' ' (c!"note")),
    .ok (.message 4 [] (c!"msgid") []), .ok (.message 5 [] (c!"msgstr") (c!"x"))] := by rfl
  rw [streamItems_text _ (by decide), hi]
  have he := entry_plain none 1 2 (c!"a") (c!"b")
  exact .plain (.unit (block := [.message 1 [] (c!"msgid") (c!"a"), .message 2 [] (c!"msgstr") (c!"b")]) he (by simp [HasSource])
    ((ends_iff he).mpr ⟨by simp [NoErr], trivial⟩)) .refl

-- `C34_no_forms` applies to this unit; a plural entry may have an empty id
example : Yields (parse demoEnv (textStream [c!"msgid \"\"", c!"msgid_plural \"many\"", c!"msgstr[0] \"x\""])) (plainHeader demoEnv)
    (results [{ PoUnit.default with message := .plural ⟨[], c!"many", [c!"x"], none⟩, state := .final }] none) :=
  yields_text (res := ⟨plainHeader demoEnv, none, _, _⟩) (by decide) (by rfl)

end Verif
