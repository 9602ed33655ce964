import Verif.Spec.Fields
import Verif.Props.Units

/-! C45: previous fields. -/

namespace Verif
open Spec

/-- The block does not start with a continuation line. -/
def NoCont (l : List PoLine) : Prop := ∀ n p s t, l ≠ .continuation n p s :: t

theorem contText_noCont {l : List PoLine} (h : NoCont l) : contText l = [] := by
  cases l with
  | nil => rfl
  | cons x l =>
    cases x with
    | continuation n p s => exact absurd rfl (h n p s l)
    | _ => rfl

theorem contText_conts (cs : List (Nat × Str)) (p : Str) (r : List PoLine) :
    contText (cs.map (fun c => .continuation c.1 p c.2) ++ r) = (cs.map Prod.snd).flatten ++ contText r := by
  induction cs with
  | nil => rfl
  | cons c cs ih => rw [List.map_cons, List.cons_append, contText, ih]; simp

theorem fieldText_conts (kw : Str) (cs : List (Nat × Str)) (p : Str) (r : List PoLine) :
    fieldText kw (cs.map (fun c => .continuation c.1 p c.2) ++ r) = fieldText kw r := by
  induction cs with
  | nil => rfl
  | cons c cs ih => rw [List.map_cons, List.cons_append, fieldText, ih]; simp

theorem fieldText_field {kw kw' : Str} {o : Bool} {b : List PoLine} {v : Str} (h : Field kw' o b v) {r : List PoLine} (hr : NoCont r) :
    fieldText kw (b ++ r) = if kw' = kw then some v else fieldText kw r := by
  obtain ⟨p, ⟨n, s, cs, rfl, rfl⟩, _⟩ := h
  rw [List.cons_append, fieldText]
  split
  · rw [contText_conts, contText_noCont hr, List.append_nil]
  · rw [fieldText_conts]

theorem field_noCont {kw : Str} {o : Bool} {b : List PoLine} {v : Str} (h : Field kw o b v) (r : List PoLine) : NoCont (b ++ r) := by
  obtain ⟨p, ⟨n, s, cs, rfl, rfl⟩, _⟩ := h
  intro n p s t h
  cases h

theorem opt_noCont {kw : Str} {o : Bool} {b : List PoLine} {v : Option Str} (h : OptField kw o b v) {r : List PoLine} (hr : NoCont r) : NoCont (b ++ r) := by
  cases h with
  | none => exact hr
  | some h => exact field_noCont h r

theorem fieldText_opt {kw kw' : Str} {o : Bool} {b : List PoLine} {v : Option Str} (h : OptField kw' o b v) {r : List PoLine} (hr : NoCont r) :
    fieldText kw (b ++ r) = if kw' = kw ∧ v ≠ none then v else fieldText kw r := by
  cases h with
  | none => simp
  | some h => simp [fieldText_field h hr]

theorem fieldText_comments (kw : Str) (cs : List (Nat × Char × Str)) (r : List PoLine) : fieldText kw (cs.map commentLine ++ r) = fieldText kw r := by
  induction cs with
  | nil => rfl
  | cons c cs ih => rw [List.map_cons, List.cons_append, commentLine, fieldText, ih]; simp

theorem values_noCont {o : Bool} {hi lo : Nat} {b : List PoLine} {vs : List Str} (h : ValueFields o hi lo b vs) {r : List PoLine} (hr : NoCont r) :
    NoCont (b ++ r) := by
  induction h with
  | nil => exact hr
  | cons _ _ h _ _ => rw [List.append_assoc]; exact field_noCont h _

theorem text_noCont {forms : Option PluralForms} {o : Bool} {id : Str} {idPl : Option Str} {b : List PoLine} {m : Message}
    (h : TextFields forms o id idPl b m) (r : List PoLine) : NoCont (b ++ r) := by
  cases h with
  | simple h => exact field_noCont h r
  | plural h hne =>
    cases h with
    | nil => simp at hne
    | cons _ _ h _ => rw [List.append_assoc]; exact field_noCont h _

theorem fieldText_values {kw : Str} (hk : ¬ IsTextKw kw) {o : Bool} {hi lo : Nat} {b : List PoLine} {vs : List Str} (h : ValueFields o hi lo b vs) :
    fieldText kw b = none := by
  induction h with
  | nil => rfl
  | @cons lo i a v bs vs _ _ h h' ih =>
    have hn : NoCont bs := by have := values_noCont h' (r := []) (by simp [NoCont]); rwa [List.append_nil] at this
    rw [fieldText_field h hn, if_neg, ih]
    rintro rfl
    exact hk (.inr ⟨i, rfl⟩)

theorem fieldText_text {kw : Str} (hk : ¬ IsTextKw kw) {forms : Option PluralForms} {o : Bool} {id : Str} {idPl : Option Str} {b : List PoLine} {m : Message}
    (h : TextFields forms o id idPl b m) : fieldText kw b = none := by
  cases h with
  | simple h =>
    have := fieldText_field (kw := kw) h (r := []) (by simp [NoCont])
    rw [List.append_nil] at this
    rw [this, if_neg]
    · rfl
    · rintro rfl; exact hk (.inl rfl)
  | plural h _ => exact fieldText_values hk h

/-- The fields of an entry are those that can be read off its block directly. -/
theorem entry_fieldText {forms : Option PluralForms} {block : List PoLine} {u : PoUnit} (h : Entry forms block u) :
    u.prevContext = fieldText (c!"|msgctxt") block ∧
    u.prevMessage = previousMessage forms (fieldText (c!"|msgid") block) (fieldText (c!"|msgid_plural") block) ∧
    u.context = fieldText (c!"msgctxt") block ∧ some u.message.getId = fieldText (c!"msgid") block ∧
    u.message.getPluralId = fieldText (c!"msgid_plural") block := by
  obtain ⟨cs, b1, b2, b3, b4, b5, b6, b7, pid, ppl, id, idPl, rfl, f1, f2, f3, g3, f4, f5, f6, f7, hpm, _⟩ := h
  have n7 := text_noCont f7 []
  rw [List.append_nil] at n7
  have n6 := opt_noCont f6 n7
  have n5 := field_noCont f5 (b6 ++ b7)
  have n4 := opt_noCont f4 n5
  have n3 := opt_noCont f3 n4
  have n2 := opt_noCont f2 n3
  have key : ∀ kw, ¬ IsTextKw kw → fieldText kw (cs.map commentLine ++ (b1 ++ (b2 ++ (b3 ++ (b4 ++ (b5 ++ (b6 ++ b7))))))) =
      if c!"|msgctxt" = kw ∧ u.prevContext ≠ none then u.prevContext
      else if c!"|msgid" = kw ∧ pid ≠ none then pid
      else if c!"|msgid_plural" = kw ∧ ppl ≠ none then ppl
      else if c!"msgctxt" = kw ∧ u.context ≠ none then u.context
      else if c!"msgid" = kw then some id
      else if c!"msgid_plural" = kw ∧ idPl ≠ none then idPl else none := by
    intro kw hk
    rw [fieldText_comments, fieldText_opt f1 n2, fieldText_opt f2 n3, fieldText_opt f3 n4, fieldText_opt f4 n5, fieldText_field f5 n6,
      fieldText_opt f6 n7, fieldText_text hk f7]
  have hid : u.message.getId = id ∧ u.message.getPluralId = idPl := by
    generalize u.message = m at f7
    cases f7 <;> exact ⟨rfl, rfl⟩
  refine ⟨?_, ?_, ?_, ?_, ?_⟩
  · rw [key _ (not_textKw (by decide) (by decide))]
    cases u.prevContext <;> simp
  · rw [hpm, key _ (not_textKw (by decide) (by decide)), key _ (not_textKw (by decide) (by decide))]
    cases pid <;> cases ppl <;> simp
  · rw [key _ (not_textKw (by decide) (by decide))]
    cases u.context <;> simp
  · rw [key _ (not_textKw (by decide) (by decide)), hid.1]
    simp
  · rw [key _ (not_textKw (by decide) (by decide)), hid.2]
    cases idPl <;> simp

theorem without_conts (skip : Bool) (cs : List (Nat × Str)) (p : Str) (r : List PoLine) :
    withoutPrevious skip (cs.map (fun c => .continuation c.1 p c.2) ++ r) =
      if skip then withoutPrevious skip r else cs.map (fun c => .continuation c.1 p c.2) ++ withoutPrevious skip r := by
  induction cs with
  | nil => simp
  | cons c cs ih =>
    rw [List.map_cons, List.cons_append, withoutPrevious, ih]
    cases skip <;> simp

theorem without_field {kw : Str} {o : Bool} {b : List PoLine} {v : Str} (h : Field kw o b v) (skip : Bool) (r : List PoLine) :
    withoutPrevious skip (b ++ r) = if kw.head? = some '|' then withoutPrevious true r else b ++ withoutPrevious false r := by
  obtain ⟨p, ⟨n, s, cs, rfl, rfl⟩, _⟩ := h
  rw [List.cons_append, withoutPrevious]
  split
  · rw [without_conts]; simp
  · rw [without_conts]; simp

theorem without_opt_drop {kw : Str} {o : Bool} {b : List PoLine} {v : Option Str} (h : OptField kw o b v) (hk : kw.head? = some '|') (skip : Bool)
    (r : List PoLine) : ∃ skip', withoutPrevious skip (b ++ r) = withoutPrevious skip' r := by
  cases h with
  | none => exact ⟨skip, rfl⟩
  | some h => exact ⟨true, by rw [without_field h, if_pos hk]⟩

theorem without_opt_keep {kw : Str} {o : Bool} {b : List PoLine} {v : Option Str} (h : OptField kw o b v) (hk : kw.head? ≠ some '|') (skip : Bool)
    (r : List PoLine) : ∃ skip', withoutPrevious skip (b ++ r) = b ++ withoutPrevious skip' r := by
  cases h with
  | none => exact ⟨skip, rfl⟩
  | some h => exact ⟨false, by rw [without_field h, if_neg hk]⟩

theorem without_comments (cs : List (Nat × Char × Str)) (r : List PoLine) :
    withoutPrevious false (cs.map commentLine ++ r) = cs.map commentLine ++ withoutPrevious false r := by
  induction cs with
  | nil => rfl
  | cons c cs ih =>
    rw [List.map_cons, List.cons_append, commentLine, withoutPrevious, ih]
    · rfl
    · simp
    · simp

theorem without_text {forms : Option PluralForms} {o : Bool} {id : Str} {idPl : Option Str} {b : List PoLine} {m : Message}
    (h : TextFields forms o id idPl b m) (skip : Bool) (r : List PoLine) : withoutPrevious skip (b ++ r) = b ++ withoutPrevious false r := by
  cases h with
  | simple h => rw [without_field h, if_neg (by decide)]
  | plural h hne =>
    have key : ∀ {hi lo b vs}, ValueFields o hi lo b vs → vs ≠ [] → ∀ skip, withoutPrevious skip (b ++ r) = b ++ withoutPrevious false r := by
      intro hi lo b vs h
      induction h with
      | nil => intro h; exact absurd rfl h
      | @cons lo i b v bs vs _ _ h h' ih =>
        intro _ skip
        rw [List.append_assoc, without_field h, if_neg (by simp [valueKeyword])]
        cases h' with
        | nil => simp
        | cons => rw [ih (by simp)]; simp
    exact key h hne skip

/-- An entry without its previous fields is an entry for the same unit, only without previous context and message. -/
theorem entry_without {forms : Option PluralForms} {block : List PoLine} {u : PoUnit} (h : Entry forms block u) (r : List PoLine) :
    ∃ block', withoutPrevious false (block ++ r) = block' ++ withoutPrevious false r ∧ Entry forms block' (clearPrevious u) := by
  obtain ⟨cs, b1, b2, b3, b4, b5, b6, b7, pid, ppl, id, idPl, rfl, f1, f2, f3, g3, f4, f5, f6, f7, hpm, hcd, hst⟩ := h
  refine ⟨cs.map commentLine ++ (b4 ++ (b5 ++ (b6 ++ b7))), ?_, cs, [], [], [], b4, b5, b6, b7, none, none, id, idPl, by simp, .none, .none, .none, fun _ => rfl, f4, f5, f6, f7, rfl,
    ⟨hcd.1, hcd.2, hcd.3, hcd.4⟩, ⟨hst.1, hst.2⟩⟩
  simp only [List.append_assoc]
  rw [without_comments]
  obtain ⟨s1, e1⟩ := without_opt_drop f1 (by decide) false (b2 ++ (b3 ++ (b4 ++ (b5 ++ (b6 ++ (b7 ++ r))))))
  obtain ⟨s2, e2⟩ := without_opt_drop f2 (by decide) s1 (b3 ++ (b4 ++ (b5 ++ (b6 ++ (b7 ++ r)))))
  obtain ⟨s3, e3⟩ := without_opt_drop f3 (by decide) s2 (b4 ++ (b5 ++ (b6 ++ (b7 ++ r))))
  obtain ⟨s4, e4⟩ := without_opt_keep f4 (by decide) s3 (b5 ++ (b6 ++ (b7 ++ r)))
  rw [e1, e2, e3, e4, without_field f5, if_neg (by decide)]
  obtain ⟨s6, e6⟩ := without_opt_keep f6 (by decide) false (b7 ++ r)
  rw [e6, without_text f7]

/-- **C45** `prev_context` and `prev_message` hold exactly the texts of the `#|` fields of the unit's block (default when missing), and
without these lines the block is an entry for the same unit in all other respects. -/
theorem C45_previous {env : Env} {stream : List Event} {hdr : Header env.Lang} {xs : List (Except Err PoUnit)} {u : PoUnit}
    (h : Yields (parse env stream) hdr xs) (hu : .ok u ∈ xs) :
    ∃ (forms : Option PluralForms) (block : List PoLine), block.map .ok <:+: streamItems stream ∧ Entry forms block u ∧
      u.prevContext = fieldText (c!"|msgctxt") block ∧
      u.prevMessage = previousMessage forms (fieldText (c!"|msgid") block) (fieldText (c!"|msgid_plural") block) ∧
      Entry forms (withoutPrevious false block) (clearPrevious u) := by
  obtain ⟨forms, block, hi, he, _⟩ := unit_entry h hu
  obtain ⟨h1, h2, _⟩ := entry_fieldText he
  obtain ⟨b, h3, h4⟩ := entry_without he []
  refine ⟨forms, block, hi, he, h1, h2, ?_⟩
  rw [List.append_nil] at h3
  rw [h3, withoutPrevious, List.append_nil]
  exact h4

/-- **C14** The context and the ids of a unit are the texts of the fields of its block. -/
theorem C14_fields {env : Env} {stream : List Event} {hdr : Header env.Lang} {xs : List (Except Err PoUnit)} {u : PoUnit}
    (h : Yields (parse env stream) hdr xs) (hu : .ok u ∈ xs) :
    ∃ (forms : Option PluralForms) (block : List PoLine), block.map .ok <:+: streamItems stream ∧ Entry forms block u ∧
      u.context = fieldText (c!"msgctxt") block ∧ some u.message.getId = fieldText (c!"msgid") block ∧
      u.message.getPluralId = fieldText (c!"msgid_plural") block := by
  obtain ⟨forms, block, hi, he, _⟩ := unit_entry h hu
  obtain ⟨_, _, h1, h2, h3⟩ := entry_fieldText he
  exact ⟨forms, block, hi, he, h1, h2, h3⟩

/-! ### Concrete cases -/

example := C45_previous rich_yields rich_mem
example := C14_fields rich_yields rich_mem

/-- A block with previous fields. -/
def previousBlock : List PoLine :=
  [.comment 1 ' ' (c!"n"), .message 2 (c!"") (c!"|msgctxt") (c!"old"), .continuation 3 (c!"") (c!" ctx"), .message 4 (c!"") (c!"msgid") (c!"a"),
    .continuation 5 (c!"") (c!"b"), .message 6 (c!"") (c!"msgstr") (c!"x")]

example : fieldText (c!"|msgctxt") previousBlock = some (c!"old ctx") ∧ fieldText (c!"msgid") previousBlock = some (c!"ab") ∧
    fieldText (c!"msgctxt") previousBlock = none ∧ withoutPrevious false previousBlock =
      [.comment 1 ' ' (c!"n"), .message 4 (c!"") (c!"msgid") (c!"a"), .continuation 5 (c!"") (c!"b"), .message 6 (c!"") (c!"msgstr") (c!"x")] :=
  ⟨rfl, rfl, rfl, rfl⟩

end Verif
