import Verif.Spec.Remarks
import Verif.Props.Texts

/-! C91: the comment lines and the comment data of the units are the same sequence. -/

namespace Verif
open Spec

theorem Spec.Remarks.append {a b : List (Except IoErr Str)} {cs cs' : List (Char × Str)} (h : Remarks a cs) (h' : Remarks b cs') : Remarks (a ++ b) (cs ++ cs') := by
  induction h with
  | nil => exact h'
  | comment h _ ih => exact .comment h ih
  | other h _ ih => exact .other h ih

theorem comment_number {s : Str} {n m : Nat} {c : Char} {t : Str} (h : Classified s n (some (.comment n c t))) : Classified s m (some (.comment m c t)) := by
  cases h with
  | comment h1 h2 h3 => exact .comment h1 h2 h3

theorem remarks_lines {n : Nat} {rs : List (Except IoErr Str)} {b : List PoLine} (hn : ∀ s, .ok s ∈ rs → '\n' ∉ s) (h : LineItems n rs (b.map .ok)) :
    Remarks rs (b.filterMap commentOf) := by
  generalize hl : b.map Except.ok = l at h
  induction h generalizing b with
  | nil => cases List.map_eq_nil_iff.mp hl; exact .nil
  | failed => cases b <;> simp at hl
  | unrecognised => cases b <;> simp at hl
  | blank hb _ ih =>
    refine .other ?_ (ih (fun s hs => hn s (List.mem_cons_of_mem _ hs)) hl)
    intro c t hc
    have := classified_unique (hn _ (List.mem_cons_self ..)) hb (comment_number hc)
    cases this
  | @line n s rs ln l hc _ _ ih =>
    cases b with
    | nil => cases hl
    | cons x b =>
      simp only [List.map_cons, List.cons.injEq, Except.ok.injEq] at hl
      obtain ⟨rfl, hl⟩ := hl
      have ih := ih (fun s hs => hn s (List.mem_cons_of_mem _ hs)) hl
      have other : commentOf x = none → Remarks (.ok s :: rs) ((x :: b).filterMap commentOf) := by
        intro hx
        rw [List.filterMap_cons_none hx]
        refine .other ?_ ih
        intro c t hc'
        have := classified_unique (hn _ (List.mem_cons_self ..)) hc (comment_number hc')
        cases this
        cases hx
      cases x with
      | comment m c t =>
        cases hc with
        | comment h1 h2 h3 => exact .comment (.comment h1 h2 h3) ih
      | message => exact other rfl
      | continuation => exact other rfl
      | blank => exact other rfl

theorem field_remarks {kw : Str} {o : Bool} {b : List PoLine} {v : Str} (h : Field kw o b v) : b.filterMap commentOf = [] := by
  obtain ⟨p, ⟨n, s, cs, rfl, _⟩, _⟩ := h
  rw [List.filterMap_eq_nil_iff]
  intro x hx
  rcases List.mem_cons.mp hx with rfl | hx
  · rfl
  · obtain ⟨y, _, rfl⟩ := List.mem_map.mp hx
    rfl

theorem opt_remarks {kw : Str} {o : Bool} {b : List PoLine} {v : Option Str} (h : OptField kw o b v) : b.filterMap commentOf = [] := by
  cases h with
  | none => rfl
  | some h => exact field_remarks h

theorem value_remarks {o : Bool} {hi lo : Nat} {b : List PoLine} {vs : List Str} (h : ValueFields o hi lo b vs) : b.filterMap commentOf = [] := by
  induction h with
  | nil => rfl
  | cons _ _ f _ ih => rw [List.filterMap_append, field_remarks f, ih]; rfl

theorem commentLines_remarks (cs : List (Nat × Char × Str)) : (cs.map commentLine).filterMap commentOf = cs.map Prod.snd := by
  induction cs with
  | nil => rfl
  | cons c cs ih => rw [List.map_cons, List.filterMap_cons_some (f := commentOf) (b := c.2) rfl, ih]; rfl

theorem entry_remarks {forms : Option PluralForms} {b : List PoLine} {u : PoUnit} (h : Entry forms b u) : CommentData (b.filterMap commentOf) u := by
  obtain ⟨cs, b1, b2, b3, b4, b5, b6, b7, pid, ppl, id, idPl, rfl, f1, f2, f3, g3, f4, f5, f6, f7, f8, f9, f10⟩ := h
  have h7 : b7.filterMap commentOf = [] := by
    generalize u.message = m at f7
    cases f7 with
    | simple f => exact field_remarks f
    | plural f _ => exact value_remarks f
  simp only [List.filterMap_append, opt_remarks f1, opt_remarks f2, opt_remarks f3, opt_remarks f4, field_remarks f5, opt_remarks f6, h7, commentLines_remarks,
    List.append_nil]
  exact f9

theorem after_remarks {forms : Option PluralForms} {l l' : List Item} {us : List PoUnit} (h : After forms l us l') {n : Nat} {rs : List (Except IoErr Str)}
    (hn : ∀ s, .ok s ∈ rs → '\n' ∉ s) (hl : items n rs = l) : ∃ rs1 rs2 n' cs, rs = rs1 ++ rs2 ∧ items n' rs2 = l' ∧ Remarks rs1 cs ∧ RemarkData cs us := by
  induction h generalizing n rs with
  | refl => exact ⟨[], rs, n, [], rfl, hl, .nil, rfl, rfl, rfl, by simp⟩
  | @entry block u rest us l' he _ _ _ ih =>
    obtain ⟨r1, r2, rfl, h1, h2⟩ := items_split hl
    obtain ⟨r3, r4, n', cs, rfl, h3, h4, h5⟩ := ih (fun s hs => hn s (List.mem_append.mpr (.inr hs))) h2
    have hn1 : ∀ s, .ok s ∈ r1 → '\n' ∉ s := fun s hs => hn s (List.mem_append.mpr (.inl hs))
    have h8 := items_lineItems hn1 n
    rw [h1] at h8
    have hd := entry_remarks he
    refine ⟨r1 ++ r3, r4, n', _ ++ cs, by simp, h3, (remarks_lines hn1 h8).append h4, ?_, ?_, ?_, ?_⟩
    · rw [List.flatMap_cons, List.filterMap_append, h5.notes, hd.notes]
    · rw [List.flatMap_cons, List.filterMap_append, h5.comments, hd.comments]
    · rw [List.flatMap_cons, List.flatMap_append, h5.locations, hd.locations]
    · intro f
      have h6 := h5.flags f
      have h7 : f ∈ u.flags ↔ f ∈ (block.filterMap commentOf).flatMap flagItems := by rw [hd.flags, mem_distinct]
      simp only [List.mem_cons, exists_eq_or_imp, h6, h7, List.mem_flatMap, List.mem_append]
      constructor
      · rintro (⟨c, h, h'⟩ | ⟨c, h, h'⟩)
        · exact ⟨c, .inl h, h'⟩
        · exact ⟨c, .inr h, h'⟩
      · rintro ⟨c, h | h, h'⟩
        · exact .inl ⟨c, h, h'⟩
        · exact .inr ⟨c, h, h'⟩

/-- **C91** In an input that is read without error, the comment lines after the header give the notes, other comments and places of the units, in order, and their
flags; then comment lines of an entry without translation may follow, not if the input ends with a translation. -/
theorem C91_remarks {env : Env} {stream : List Event} {rs : List (Except IoErr Str)} {hdr : Header env.Lang} {us : List PoUnit} (h : Spec.Body stream rs)
    (hy : Yields (parse env stream) hdr (results us none)) :
    ∃ cs tail, Remarks rs (cs ++ tail) ∧ RemarkData cs us ∧ (EndsWithText rs → tail = []) := by
  obtain ⟨hn, forms, m, hr⟩ := body_run h hy
  by_cases he : EndsWithText rs
  · obtain ⟨rs1, rs2, n', cs, rfl, h1, h2, h3⟩ := after_remarks (after_complete hn hr (.inl he)) hn rfl
    have hn2 : ∀ s, .ok s ∈ rs2 → '\n' ∉ s := fun s hs => hn s (List.mem_append.mpr (.inr hs))
    have h4 := items_lineItems hn2 n'
    rw [h1] at h4
    exact ⟨cs, [], h2.append (remarks_lines (b := []) hn2 h4), h3, fun _ => rfl⟩
  · obtain ⟨l', ha, hs⟩ := hr.after
    obtain ⟨rs1, rs2, n', cs, rfl, h1, h2, h3⟩ := after_remarks ha hn rfl
    obtain ⟨b, rfl, _⟩ := stops_none hs
    have hn2 : ∀ s, .ok s ∈ rs2 → '\n' ∉ s := fun s hs => hn s (List.mem_append.mpr (.inr hs))
    have h4 := items_lineItems hn2 n'
    rw [h1] at h4
    exact ⟨cs, _, h2.append (remarks_lines hn2 h4), h3, fun h => absurd h he⟩

/-- **C91** If there is an error, the same holds for a beginning of the lines after the header. -/
theorem C91_error {env : Env} {stream : List Event} {rs : List (Except IoErr Str)} {hdr : Header env.Lang} {us : List PoUnit} {e : Option Err}
    (h : Spec.Body stream rs) (hy : Yields (parse env stream) hdr (results us e)) : ∃ rs1 rs2 cs, rs = rs1 ++ rs2 ∧ Remarks rs1 cs ∧ RemarkData cs us := by
  obtain ⟨hn, forms, m, hr⟩ := body_run h hy
  obtain ⟨l', ha, _⟩ := hr.after
  obtain ⟨rs1, rs2, n', cs, h1, _, h2, h3⟩ := after_remarks ha hn rfl
  exact ⟨rs1, rs2, cs, h1, h2, h3⟩

/-- **C91** Lines have one sequence of comments. -/
theorem C91_unique {rs : List (Except IoErr Str)} {cs cs' : List (Char × Str)} (hn : ∀ s, .ok s ∈ rs → '\n' ∉ s) (h : Remarks rs cs) (h' : Remarks rs cs') :
    cs = cs' := by
  induction h generalizing cs' with
  | nil => cases h'; rfl
  | comment hc _ ih =>
    have ih := fun {cs'} => @ih cs' (fun s hs => hn s (List.mem_cons_of_mem _ hs))
    cases h' with
    | comment hc' h' =>
      have := classified_unique (hn _ (List.mem_cons_self ..)) hc hc'
      cases this
      rw [ih h']
    | other hq => exact absurd hc (hq _ _)
  | other hq _ ih =>
    cases h' with
    | comment hc => exact absurd hc (hq _ _)
    | other _ h' => exact ih (fun s hs => hn s (List.mem_cons_of_mem _ hs)) h'

/-! ### Examples -/

-- the place of the unit in `cutTexts`
theorem cut_remarks : Remarks (cutTexts.map .ok) [(':', c!"x.c:1")] :=
  remarks_lines (by
    intro s hs
    simp only [List.mem_map, Except.ok.injEq, exists_eq_right] at hs
    revert s
    decide) cut_lineItems

example : ∃ cs tail, cs ++ tail = [(':', c!"x.c:1")] ∧ RemarkData cs [twoTextsUnit none] := by
  obtain ⟨cs, tail, h1, h2, _⟩ := C91_remarks cutTexts_body cutTexts_yields
  refine ⟨cs, tail, C91_unique ?_ h1 cut_remarks, h2⟩
  intro s hs
  simp only [List.mem_map, Except.ok.injEq, exists_eq_right] at hs
  revert s
  decide

-- the comment before an entry that is cut off gives nothing
example : ∃ cs tail, cs ++ tail = [('.', c!"y"), ('.', c!"x")] ∧ RemarkData cs [{ twoTextsUnit none with locations := [], notes := [⟨.developer, c!"y"⟩] }] := by
  obtain ⟨cs, tail, h1, h2, _⟩ := C91_remarks other_body other_yields
  have hn : ∀ s, .ok s ∈ otherTexts.map (Except.ok (ε := IoErr)) → '\n' ∉ s := by
    intro s hs
    simp only [List.mem_map, Except.ok.injEq, exists_eq_right] at hs
    revert s
    decide
  exact ⟨cs, tail, C91_unique hn h1 (remarks_lines hn other_lineItems), h2⟩

example := C91_error cutTexts_body cutTexts_yields

end Verif
