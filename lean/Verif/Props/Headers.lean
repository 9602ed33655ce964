import Verif.Props.Units

/-! C20, C21, C22: the header. -/

namespace Verif
open Spec

variable {env : Env} {stream : List Event}

/-- **C20** A first entry with a plural id or a non-empty id is not a header: it is the first unit, and the header data are empty. -/
theorem C20_unit {block : List PoLine} {u : PoUnit} {rest : List Item} (hl : streamItems stream = block.map .ok ++ rest) (he : Entry none block u)
    (hs : u.message.getPluralId ≠ none ∨ u.message.getId ≠ []) (hend : EndsHere none block rest) :
    ∃ us e, Run none rest us e ∧ ∃ hdr, SameHeader hdr (plainHeader env) ∧ Yields (parse env stream) hdr (results (u :: us) e) := by
  have hs' : HasSource u.message := by
    cases hm : u.message with
    | simple id t =>
      rw [hm] at hs
      rcases hs with hs | hs
      · exact absurd rfl hs
      · exact hs
    | plural p => trivial
  have hf : First (streamItems stream) (.unit u rest) := by rw [hl]; exact .unit he hs' hend
  rcases parse_spec env stream with ⟨e, _, h⟩ | ⟨hdr, forms, us, e, _, h⟩
  · cases h with
    | first f => cases hf.unique f
    | badForms f => cases hf.unique f
  · cases h with
    | nothing f => cases hf.unique f
    | plain f r => cases hf.unique f; exact ⟨_, _, r, reads_yields (.plain hf r)⟩
    | headed f => cases hf.unique f

/-- The user gets the header data that `HeaderRule` says, and the units are those of the items `rest` only; or `parse()` fails because of
`Plural-Forms`. -/
def HeaderSeen (env : Env) (stream : List Event) (ns : List Note) (cs : List Comment) (t : Str) (rest : List Item) : Prop :=
  ∃ hdr : Header env.Lang, HeaderRule env ns cs t hdr ∧
    ((∃ e, FormsRule env (hdr.properties.lookup (c!"Plural-Forms")) (.error e) ∧ Fails (parse env stream) e) ∨
     ∃ forms us e, FormsRule env (hdr.properties.lookup (c!"Plural-Forms")) (.ok forms) ∧ Run forms rest us e ∧ Yields (parse env stream) hdr (results us e))

theorem header_seen {ns : List Note} {cs : List Comment} {t : Str} {rest : List Item} (hf : First (streamItems stream) (.header ns cs t rest)) :
    HeaderSeen env stream ns cs t rest := by
  rcases parse_spec env stream with ⟨e, h0, h⟩ | ⟨hdr, forms, us, e, h0, h⟩
  · cases h with
    | first f => cases hf.unique f
    | badForms f r r' => cases hf.unique f; exact ⟨_, r, .inl ⟨e, r', h0⟩⟩
  · cases h with
    | nothing f => cases hf.unique f
    | plain f r => cases hf.unique f
    | headed f r r' ru => cases hf.unique f; exact ⟨_, r, .inr ⟨_, _, _, r', ru, h0⟩⟩

/-- **C20** A first entry with an empty id and without plural id is the header. -/
theorem C20_header {block : List PoLine} {u : PoUnit} {rest : List Item} (hl : streamItems stream = block.map .ok ++ rest) (he : Entry none block u)
    (hs : u.message.getPluralId = none ∧ u.message.getId = []) (hend : EndsHere none block rest) :
    HeaderSeen env stream u.notes u.comments u.message.getText rest := by
  apply header_seen
  rw [hl]
  cases hm : u.message with
  | simple id t =>
    rw [hm] at hs
    have hid : id = [] := hs.2
    subst hid
    exact .header he hm hend
  | plural p => rw [hm] at hs; cases hs.1

/-- **C20** A first entry that ends before its id is an empty header, which carries only notes and comments. -/
theorem C20_missing {block : List PoLine} {rest : List Item} (hl : streamItems stream = block.map .ok ++ rest)
    (he : (∃ o, EntryHead o block) ∨ StrayPlural block) (hn : rest ≠ [] ∨ ∃ ln ∈ block, ¬ IsComment ln) (hend : FirstEnds block rest) :
    HeaderSeen env stream (notesOf block) (commentsOf block) [] rest := by
  apply header_seen
  rw [hl]
  exact .noId he hn hend

/-- **C20** These are all cases: an input that is accepted has no entry at all, or its first entry is a unit and is yielded first, or its first
entry is a header, complete or without id, and is not yielded. -/
theorem C20_cases {hdr : Header env.Lang} {xs : List (Except Err PoUnit)} (h : Yields (parse env stream) hdr xs) :
    (xs = [] ∧ hdr = plainHeader env ∧ First (streamItems stream) .nothing) ∨
    (∃ (block : List PoLine) (u : PoUnit) (rest : List Item) (us : List PoUnit) (e : Option Err), streamItems stream = block.map .ok ++ rest ∧ Entry none block u ∧
      (u.message.getPluralId ≠ none ∨ u.message.getId ≠ []) ∧ Run none rest us e ∧ xs = .ok u :: results us e ∧ hdr = plainHeader env) ∨
    (∃ (block : List PoLine) (rest : List Item) (forms : Option PluralForms) (us : List PoUnit) (e : Option Err), streamItems stream = block.map .ok ++ rest ∧
      ((∃ u, Entry none block u ∧ u.message.getPluralId = none ∧ u.message.getId = [] ∧ HeaderRule env u.notes u.comments u.message.getText hdr) ∨
        (((∃ o, EntryHead o block) ∨ StrayPlural block) ∧ HeaderRule env (notesOf block) (commentsOf block) [] hdr)) ∧
      Run forms rest us e ∧ xs = results us e) := by
  obtain ⟨forms, us, e, rfl, hr⟩ := yields_reads h
  cases hr with
  | nothing f => exact .inl ⟨rfl, rfl, f⟩
  | @plain u rest us e f r =>
    obtain ⟨block, h1, h2, h3, h4⟩ := first_unit f
    refine .inr (.inl ⟨block, u, rest, us, e, h1, h2, ?_, r, rfl, rfl⟩)
    cases hm : u.message with
    | simple id t => rw [hm] at h3; exact .inr h3
    | plural p => exact .inl (by simp [Message.getPluralId])
  | @headed ns cs t rest hdr forms us e f r1 r2 r =>
    generalize hl : streamItems stream = l at f
    generalize ho : FirstOut.header ns cs t rest = out at f
    cases f with
    | @header block u t' rest' e1 e2 e3 =>
      cases ho
      refine .inr (.inr ⟨block, rest, forms, us, e, rfl, .inl ⟨u, e1, ?_, ?_, ?_⟩, r, rfl⟩)
      · rw [e2]; rfl
      · rw [e2]; rfl
      · rw [e2]; exact r1
    | @noId block rest' e1 e2 e3 =>
      cases ho
      exact .inr (.inr ⟨block, rest, forms, us, e, rfl, .inr ⟨e1, r1⟩, r, rfl⟩)
    | _ => cases ho

/-- **C21** The header properties: for every key, the trimmed values of the lines of the header text with this key, in order, joined by one
space; absent if there is no such line.  Without header there are no properties. -/
theorem C21_properties {hdr : Header env.Lang} {xs : List (Except Err PoUnit)} (h : Yields (parse env stream) hdr xs) :
    (hdr.properties = [] ∧ ((∃ u rest, First (streamItems stream) (.unit u rest)) ∨ First (streamItems stream) .nothing)) ∨
    ∃ ns cs text rest ls, First (streamItems stream) (.header ns cs text rest) ∧ IsLines text ls ∧
      ∀ k, ∃ vs, Values k ls vs ∧ hdr.properties.lookup k = if vs = [] then none else some (List.intercalate [' '] vs) := by
  obtain ⟨forms, us, e, rfl, hr⟩ := yields_reads h
  cases hr with
  | nothing f => exact .inl ⟨rfl, .inr f⟩
  | plain f r => exact .inl ⟨rfl, .inl ⟨_, _, f⟩⟩
  | @headed ns cs t rest hdr forms us e f r1 r2 r =>
    refine .inr ⟨ns, cs, t, rest, _, f, isLines_of_split t, ?_⟩
    intro k
    obtain ⟨vs, hv⟩ := values_exists k (splitP (· == '\n') t)
    exact ⟨vs, hv, r1.properties _ (isLines_of_split t) k vs hv⟩

/-- **C22** The target language. -/
theorem C22_language {hdr : Header env.Lang} {xs : List (Except Err PoUnit)} (h : Yields (parse env stream) hdr xs) :
    (hdr.properties.lookup (c!"Language") = none → hdr.language = env.langInvariant) ∧
    ∀ s, hdr.properties.lookup (c!"Language") = some s →
      (∀ l, env.langNew s = some l → hdr.language = l) ∧
      (env.langNew s = none → ∀ l, env.langFromUnix s = some l → hdr.language = l) ∧
      (env.langNew s = none → env.langFromUnix s = none → hdr.language = env.langInvariant) := by
  have key : hdr.language = languageOf env (hdr.properties.lookup (c!"Language")) := by
    obtain ⟨forms, us, e, rfl, hr⟩ := yields_reads h
    cases hr with
    | nothing f => rfl
    | plain f r => rfl
    | headed f r1 r2 r => exact r1.language
  rw [key]
  refine ⟨fun h => by rw [h]; rfl, fun s h => ?_⟩
  rw [h]
  refine ⟨fun l hl => ?_, fun h1 l hl => ?_, fun h1 h2 => ?_⟩
  · simp [languageOf, hl]
  · simp [languageOf, h1, hl]
  · simp [languageOf, h1, h2]

/-! ### Concrete cases -/

-- `C20_cases`, `C21_properties`, `C22_language`: a catalogue with header
example := C20_cases rich_yields
example := C21_properties rich_yields
example : richHeader.properties.lookup (c!"X-A") = some (c!"one two: b") ∧
    Values (c!"X-A") [c!"Language: fr", c!"X-A: one", c!" X-A :two: b ", []] [c!"one", c!"two: b"] := by
  refine ⟨rfl, .miss ?_ (.hit ⟨c!"X-A", c!" one", rfl, by decide, stripped_iff.mpr rfl, stripped_iff.mpr rfl⟩ (.hit ⟨c!" X-A ", c!"two: b ", rfl, by decide, stripped_iff.mpr rfl, stripped_iff.mpr rfl⟩ (.miss ?_ .nil)))⟩
  · rintro v ⟨a, b, h1, h2, h3, _⟩
    have h4 := splitColon_iff.mpr ⟨h1, h2⟩
    cases h4
    exact absurd (stripped_iff.mp h3) (by decide)
  · rintro v ⟨a, b, h1, _⟩
    simp at h1
example := C22_language rich_yields
example : richHeader.language = c!"fr" := rfl

-- `C20_unit`: a catalogue without header
example : ∃ us e, Run none [] us e ∧ ∃ hdr, SameHeader hdr (plainHeader demoEnv) ∧
    Yields (parse demoEnv (textStream [c!"msgid \"a\"", c!"msgstr \"b\""])) hdr (results ({ PoUnit.default with message := .simple (c!"a") (some (c!"b")), state := .final } :: us) e) :=
  C20_unit (by rw [streamItems_text _ (by decide)]; rfl) (entry_plain none 1 2 (c!"a") (c!"b")) (.inr (by decide)) (.inl rfl)

-- `C20_header`: an empty id and text
example : HeaderSeen demoEnv (textStream [c!"msgid \"\"", c!"msgstr \"\""]) [] [] [] [] :=
  C20_header (by rw [streamItems_text _ (by decide)]; rfl) (entry_plain none 1 2 [] []) ⟨rfl, rfl⟩ (.inl rfl)

-- `C20_missing`: a first `msgid_plural` without `msgid` is swallowed as an empty header
example : HeaderSeen demoEnv (textStream [c!"# note", c!"msgid_plural \"x\""]) [⟨.translator, c!"note"⟩] [] [] [] := by
  refine C20_missing (block := [.comment 1 ' ' (c!"note"), .message 2 [] (c!"msgid_plural") (c!"x")]) (by rw [streamItems_text _ (by decide)]; rfl) (.inr ?_) (.inr ⟨_, List.mem_cons_of_mem _ (List.mem_singleton_self _), ?_⟩) (.inl rfl)
  · exact ⟨false, [.comment 1 ' ' (c!"note")], _, c!"x", rfl, entryHead_comments false [(1, ' ', c!"note")], [], ⟨2, _, [], rfl, by simp⟩, by simp [Tilde]⟩
  · rintro ⟨c, h⟩; cases h

-- what is seen then
example : Yields (parse demoEnv (textStream [c!"# note", c!"msgid_plural \"x\"", c!"msgid \"a\"", c!"msgstr \"b\""])) ⟨[⟨.translator, c!"note"⟩], [], [], []⟩
    (results [{ PoUnit.default with message := .simple (c!"a") (some (c!"b")), state := .final }] none) :=
  yields_text (env := demoEnv) (res := ⟨⟨[⟨.translator, c!"note"⟩], [], [], []⟩, none, _, _⟩) (by decide) (by rfl)

end Verif
