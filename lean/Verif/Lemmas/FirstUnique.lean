import Verif.Lemmas.First

/-! The first entry is determined; so its specification is exact. -/

namespace Verif
open Spec

theorem kws_stray {b : List PoLine} (h : StrayPlural b) {k : Str} (hk : k ∈ kws b) :
    k = c!"|msgctxt" ∨ k = c!"|msgid" ∨ k = c!"|msgid_plural" ∨ k = c!"msgctxt" ∨ k = c!"msgid_plural" := by
  obtain ⟨o, a, b6, pl, rfl, h1, f6⟩ := h
  rw [kws_append, kws_field f6, List.mem_append] at hk
  rcases hk with hk | hk
  · rcases kws_head h1 hk with h | h | h | h
    · exact .inl h
    · exact .inr (.inl h)
    · exact .inr (.inr (.inl h))
    · exact .inr (.inr (.inr (.inl h)))
  · exact .inr (.inr (.inr (.inr (by simpa using hk))))

theorem stray_no_id {b : List PoLine} (h : StrayPlural b) : c!"msgid" ∉ kws b := by
  intro hk
  rcases kws_stray h hk with h | h | h | h | h <;> exact absurd h (by decide)

theorem entry_id {forms : Option PluralForms} {b : List PoLine} {u : PoUnit} (h : Entry forms b u) : c!"msgid" ∈ kws b := by
  obtain ⟨o, idPl, id, m, a, b7, bh, b5, b6, rfl, rfl, h2, f5, f6, f7⟩ := entry_split.mp ⟨u, h⟩
  simp [kws_append, kws_field f5]

theorem stray_plural {b : List PoLine} (h : StrayPlural b) : c!"msgid_plural" ∈ kws b := by
  obtain ⟨o, a, b6, pl, rfl, h1, f6⟩ := h
  simp [kws_append, kws_field f6]

theorem firstPrefix_snoc {b : List PoLine} {ln : PoLine} (h : FirstPrefix (b ++ [ln])) : FirstPrefix b := by
  rcases h with h | ⟨o, a, b6, pl, h, h1, f6⟩
  · exact .inl (prefix_snoc h)
  · rcases snoc_append h with ⟨rfl, _⟩ | ⟨c, rfl, rfl⟩
    · obtain ⟨p, f, _⟩ := f6; exact absurd rfl f.ne_nil
    · rcases field_snoc f6 with rfl | ⟨v, f⟩
      · left; left; exact ⟨o, by rwa [List.append_nil]⟩
      · exact .inr ⟨o, a, c, v, rfl, h1, f⟩

theorem firstPrefix_append {b c : List PoLine} (h : FirstPrefix (b ++ c)) : FirstPrefix b := by
  induction c generalizing b with
  | nil => simpa using h
  | cons x c ih => exact firstPrefix_snoc (ih (b := b ++ [x]) (by simpa using h))

/-- The block is a beginning of a first entry that cannot be continued. -/
def FirstLongest (block : List PoLine) (rest : List Item) : Prop :=
  FirstPrefix block ∧ ∀ ln tl, rest = .ok ln :: tl → ¬ FirstPrefix (block ++ [ln])

theorem firstLongest_aux {b c : List PoLine} {r r' : List Item} (h : FirstLongest b r) (h' : FirstLongest c r')
    (he : b.map .ok ++ r = c.map .ok ++ r') : b <+: c → b = c ∧ r = r' := by
  rintro ⟨d, rfl⟩
  rw [List.map_append, List.append_assoc, List.append_cancel_left_eq] at he
  cases d with
  | nil => simpa using he
  | cons x d =>
    refine absurd ?_ (h.2 x (d.map .ok ++ r') (by simpa using he))
    apply firstPrefix_append (c := d)
    have := h'.1
    simpa using this

theorem FirstLongest.unique {b c : List PoLine} {r r' : List Item} (h : FirstLongest b r) (h' : FirstLongest c r')
    (he : b.map .ok ++ r = c.map .ok ++ r') : b = c ∧ r = r' := by
  rcases map_ok_prefix he with hp | hp
  · exact firstLongest_aux h h' he hp
  · obtain ⟨h1, h2⟩ := firstLongest_aux h' h he.symm hp
    exact ⟨h1.symm, h2.symm⟩

/-- What a first entry gives. -/
def unitOut (u : PoUnit) (rest : List Item) : FirstOut :=
  if u.message.isEmpty then .header u.notes u.comments u.message.getText rest else .unit u rest

/-- The outcome after the longest beginning of a first entry. -/
def FirstAt (block : List PoLine) (rest : List Item) (out : FirstOut) : Prop :=
  match rest with
  | .error e :: _ => out = .fail e
  | _ =>
    (∃ u, Entry none block u ∧ out = unitOut u rest) ∨
    (((∃ o, EntryHead o block) ∨ StrayPlural block) ∧ (rest ≠ [] ∨ ∃ ln ∈ block, ¬ IsComment ln) ∧
      out = .header (notesOf block) (commentsOf block) [] rest) ∨
    ((∀ ln ∈ block, IsComment ln) ∧ rest = [] ∧ out = .nothing) ∨
    (∃ o idPl, EntryIds o idPl block ∧ out = match nextLine rest with
      | none => .nothing
      | some ln => .fail (missing (textKeyword idPl) ln))

theorem firstEnds_longest {block : List PoLine} {rest : List Item} (hp : FirstPrefix block) (h : FirstEnds block rest) :
    FirstLongest block rest ∧ NoErr rest := by
  rcases h with rfl | ⟨ln, tl, rfl, h⟩
  · exact ⟨⟨hp, by simp⟩, by simp [NoErr]⟩
  · refine ⟨⟨hp, ?_⟩, by simp [NoErr]⟩
    intro ln' tl' he
    cases he
    exact h

theorem firstEnds_of_id {block : List PoLine} {rest : List Item} (hid : c!"msgid" ∈ kws block) (h : EndsHere none block rest) :
    FirstEnds block rest := by
  rcases h with rfl | ⟨ln, tl, rfl, h⟩
  · exact .inl rfl
  · refine .inr ⟨ln, tl, rfl, ?_⟩
    rintro (h' | h')
    · exact h h'
    · exact stray_no_id h' (by rw [kws_append]; exact List.mem_append_left _ hid)

theorem firstAt_of {block : List PoLine} {rest : List Item} {out : FirstOut} (hn : NoErr rest)
    (h : (∃ u, Entry none block u ∧ out = unitOut u rest) ∨
    (((∃ o, EntryHead o block) ∨ StrayPlural block) ∧ (rest ≠ [] ∨ ∃ ln ∈ block, ¬ IsComment ln) ∧
      out = .header (notesOf block) (commentsOf block) [] rest) ∨
    ((∀ ln ∈ block, IsComment ln) ∧ rest = [] ∧ out = .nothing) ∨
    (∃ o idPl, EntryIds o idPl block ∧ out = match nextLine rest with
      | none => .nothing
      | some ln => .fail (missing (textKeyword idPl) ln))) : FirstAt block rest out := by
  unfold FirstAt
  split
  · exact absurd rfl (hn _)
  · exact h

theorem Spec.First.view {l : List Item} {out : FirstOut} (h : First l out) :
    ∃ block rest, l = block.map .ok ++ rest ∧ FirstLongest block rest ∧ FirstAt block rest out := by
  cases h with
  | @unit block u rest h1 h2 h3 =>
    obtain ⟨h5, h6⟩ := firstEnds_longest (.inl (.inr (.inr ⟨_, h1⟩))) (firstEnds_of_id (entry_id h1) h3)
    refine ⟨block, rest, rfl, h5, firstAt_of h6 (.inl ⟨u, h1, ?_⟩)⟩
    rw [unitOut, (hasSource_iff _).mpr h2]; rfl
  | @header block u t rest h1 h2 h3 =>
    obtain ⟨h5, h6⟩ := firstEnds_longest (.inl (.inr (.inr ⟨_, h1⟩))) (firstEnds_of_id (entry_id h1) h3)
    refine ⟨block, rest, rfl, h5, firstAt_of h6 (.inl ⟨u, h1, ?_⟩)⟩
    rw [unitOut, h2]; rfl
  | @noId block rest h1 h2 h3 =>
    have hp : FirstPrefix block := by
      rcases h1 with h | h
      · exact .inl (.inl h)
      · exact .inr h
    obtain ⟨h5, h6⟩ := firstEnds_longest hp h3
    exact ⟨block, rest, rfl, h5, firstAt_of h6 (.inr (.inl ⟨h1, h2, rfl⟩))⟩
  | @comments block h =>
    obtain ⟨ds, rfl⟩ := all_comments h
    exact ⟨_, [], by simp, ⟨.inl (.inl ⟨false, entryHead_comments false ds⟩), by simp⟩, .inr (.inr (.inl ⟨h, rfl, rfl⟩))⟩
  | @cut o idPl block h => exact ⟨block, [], by simp, ⟨.inl (.inr (.inl ⟨_, _, h⟩)), by simp⟩, .inr (.inr (.inr ⟨o, idPl, h, rfl⟩))⟩
  | @unreadable block e tl h => exact ⟨block, _, rfl, ⟨h, by simp⟩, rfl⟩
  | @noText o idPl block ln tl h1 h2 =>
    obtain ⟨h5, h6⟩ := firstEnds_longest (.inl (.inr (.inl ⟨_, _, h1⟩))) (firstEnds_of_id (kws_ids h1).1 (.inr ⟨ln, tl, rfl, h2⟩))
    exact ⟨block, _, rfl, h5, firstAt_of h6 (.inr (.inr (.inr ⟨o, idPl, h1, rfl⟩)))⟩

theorem no_id_block {block : List PoLine} (h : (∃ o, EntryHead o block) ∨ StrayPlural block) : c!"msgid" ∉ kws block := by
  rcases h with ⟨o, h⟩ | h
  · intro hk
    rcases kws_head h hk with h | h | h | h <;> exact absurd h (by decide)
  · exact stray_no_id h

/-- **The first entry is determined.** -/
theorem Spec.First.unique {l : List Item} {o o' : FirstOut} (h : First l o) (h' : First l o') : o = o' := by
  obtain ⟨b, r, rfl, hl, hs⟩ := h.view
  obtain ⟨b', r', he, hl', hs'⟩ := h'.view
  obtain ⟨rfl, rfl⟩ := hl.unique hl' he
  unfold FirstAt at hs hs'
  split at hs
  · exact hs.trans hs'.symm
  · rename_i hne
    split at hs'
    · exact absurd rfl (hne _ _)
    have hcom : (∀ ln ∈ b, IsComment ln) → c!"msgid" ∉ kws b := by
      intro h hk
      obtain ⟨ds, rfl⟩ := all_comments h
      rw [kws_comments] at hk
      simp at hk
    rcases hs with ⟨u, h1, rfl⟩ | ⟨h1, h2, rfl⟩ | ⟨h1, rfl, rfl⟩ | ⟨o, idPl, h1, rfl⟩ <;>
    rcases hs' with ⟨u', h1', rfl⟩ | ⟨h1', h2', rfl⟩ | ⟨h1', hr, rfl⟩ | ⟨o', idPl', h1', rfl⟩
    · rw [h1.unique h1']
    · exact absurd (entry_id h1) (no_id_block h1')
    · exact absurd (entry_id h1) (hcom h1')
    · exact (not_ids_entry h1' h1).elim
    · exact absurd (entry_id h1') (no_id_block h1)
    · rfl
    · rcases h2 with h2 | ⟨ln, h2, h3⟩
      · exact absurd hr h2
      · exact absurd (h1' ln h2) h3
    · exact absurd (kws_ids h1').1 (no_id_block h1)
    · exact absurd (entry_id h1') (hcom h1)
    · rcases h2' with h2 | ⟨ln, h2, h3⟩
      · exact absurd rfl h2
      · exact absurd (h1 ln h2) h3
    · rfl
    · exact absurd (kws_ids h1').1 (hcom h1)
    · exact (not_ids_entry h1 h1').elim
    · exact absurd (kws_ids h1).1 (no_id_block h1')
    · exact absurd (kws_ids h1).1 (hcom h1')
    · rw [ids_keyword h1 h1']

/-- **The specification of the first entry is exact.** -/
theorem first_iff {l : List Item} (hb : NoBlank l) {out : FirstOut} : First l out ↔ firstOut (entry none true l) = out := by
  constructor
  · intro h; exact (first_sound hb).unique h
  · rintro rfl; exact first_sound hb

end Verif
