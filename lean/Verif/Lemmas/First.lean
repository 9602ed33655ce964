import Verif.Lemmas.Ends
import Verif.Spec.Catalogue

/-! The first entry. -/

namespace Verif
open Spec

theorem commentOf_field {kw : Str} {o : Bool} {b : List PoLine} {v : Str} (h : Field kw o b v) : b.filterMap commentOf = [] := by
  obtain ⟨p, ⟨n, s, cs, rfl, _⟩, _⟩ := h
  rw [List.filterMap_eq_nil_iff]
  intro a ha
  rcases List.mem_cons.mp ha with rfl | ha
  · rfl
  · obtain ⟨c, _, rfl⟩ := List.mem_map.mp ha
    rfl

theorem commentOf_opt {kw : Str} {o : Bool} {b : List PoLine} {v : Option Str} (h : OptField kw o b v) : b.filterMap commentOf = [] := by
  cases h with
  | none => rfl
  | some h => exact commentOf_field h

theorem commentOf_comments (cs : List (Nat × Char × Str)) : (cs.map commentLine).filterMap commentOf = cs.map Prod.snd := by
  induction cs with
  | nil => rfl
  | cons c cs ih => rw [List.map_cons, List.map_cons, List.filterMap_cons_some (f := commentOf) (b := c.2) rfl, ih]

theorem all_comments {block : List PoLine} (hall : ∀ ln ∈ block, IsComment ln) :
    ∃ ds : List (Nat × Char × Str), block = ds.map commentLine := by
  induction block with
  | nil => exact ⟨[], rfl⟩
  | cons x b ih =>
    obtain ⟨ds, hds⟩ := ih (fun y hy => hall y (List.mem_cons_of_mem _ hy))
    obtain ⟨c, hc⟩ := hall x (by simp)
    exact ⟨c :: ds, by rw [hc, hds]; rfl⟩

/-- A beginning of a first entry without id is read to its end. -/
theorem stray_rest {forms : Option PluralForms} {block : List PoLine} (h : StrayPlural block) : (entry forms true (block.map .ok)).2 = [] := by
  obtain ⟨o, b, b6, pl, rfl, ⟨cs, b1, b2, b3, b4, pc, pid, ppl, ctx, rfl, f1, f2, f3, g3, f4⟩, f6⟩ := h
  have s6 := field_starts f6 (P := fun k => k = c!"msgid_plural") rfl []
  have p6 := efield_step f6 (P := fun _ => False) (l := []) (.inl rfl)
  have hnf : NoField (c!"msgid") o (b6.map .ok) := by
    have := EStarts.noField (.inr s6) (kw := c!"msgid") (by decide)
    rwa [List.append_nil] at this
  have p5 : parseMsg (c!"msgid") o (b6.map .ok : List Item) = (.ok none, b6.map .ok) := parseMsg_none.mpr ⟨rfl, hnf⟩
  rw [List.append_nil] at s6 p6
  have key := fields_head (forms := forms) (first := true) (u := { collect (cs.map Prod.snd) with obsolete := o }) f1 f2 f3 g3 f4 (.inr s6)
    (by decide) (by decide) (by decide) (by decide)
  simp only [List.map_append, List.append_assoc]
  obtain ⟨k1, k2⟩ := key
  rcases k2 with k2 | k2
  · simp only [List.append_eq_nil_iff] at k2
    rw [k2.2.2.2.2] at s6
    obtain ⟨_, _, _, _, _, h, _⟩ := s6
    simp at h
  · obtain ⟨v, tl, e1, e2, e3⟩ := starts_not_comment k2
    rw [e1] at k1 ⊢
    subst e3
    refine entry_rest e2 (o := (parseMessageFields forms { collect (cs.map Prod.snd) with obsolete := lineObsolete v } true (.ok v :: tl)).1) ?_
    refine Prod.ext rfl ?_
    rw [k1]
    unfold restFields
    simp only
    rw [bind_of p5]
    simp only [Bool.not_true, Bool.false_and, Bool.false_eq_true, if_false]
    rw [bind_of p6]
    rfl

theorem firstPrefix_rest {block : List PoLine} (h : FirstPrefix block) : (entry none true (block.map .ok)).2 = [] := by
  rcases h with h | h
  · exact prefix_rest h true
  · exact stray_rest h

theorem firstEnds_of_rest {block : List PoLine} {rest : List Item} {o : Out (Option PoUnit)}
    (h : entry none true (block.map .ok ++ rest) = (o, rest)) (hn : NoErr rest) : FirstEnds block rest := by
  rcases rest with _ | ⟨e | ln, tl⟩
  · exact .inl rfl
  · exact absurd rfl (hn e)
  · refine .inr ⟨ln, tl, rfl, fun hp => ?_⟩
    have h1 := entry_cut h
    have h2 := firstPrefix_rest hp
    rw [List.map_append, List.map_cons, List.map_nil, h1] at h2
    simp at h2

/-- What `entry` gives for the first entry, as the specification sees it. -/
def firstOut (x : Out (Option PoUnit) × List Item) : FirstOut :=
  match x with
  | (.ok (some u), rest) => if u.message.isEmpty then .header u.notes u.comments u.message.getText rest else .unit u rest
  | (.err e, _) => .fail e
  | _ => .nothing

/-- **The first entry is read as the specification says.** -/
theorem first_sound {l : List Item} (hb : NoBlank l) : First l (firstOut (entry none true l)) := by
  rcases he : entry none true l with ⟨(_ | u) | e | _, rest⟩
  · show First l .nothing
    have := (entry_stop hb he).1 rfl
    generalize hn : (none : Option Err) = x at this
    cases this with
    | endsInHead h1 h2 => exact .comments (h2 rfl)
    | endsAfterIds h1 => exact .cut h1
    | _ => cases hn
  · obtain ⟨block, hl, ⟨h1, h2, _⟩ | ⟨_, h1, h2⟩⟩ := entry_sound he
    · have hend := endsHere_of_rest (hl ▸ he) h2.1
      unfold firstOut
      simp only
      split
      · rename_i hem
        obtain ⟨t, ht⟩ := (isEmpty_iff _).mp hem
        have := First.header h1 ht hend
        rw [ht, hl]
        exact this
      · rename_i hem
        have := First.unit h1 ((hasSource_iff _).mp (by simpa using hem)) hend
        rw [← hl] at this
        exact this
    · have hend := firstEnds_of_rest (hl ▸ he) h2
      obtain ⟨cs, b1, b2, b3, b4, b6, pid, ppl, idPl, hblk, f1, f2, f3, g3, f4, f6, _, hm, _, hcd, _⟩ := h1
      have hk : block.filterMap commentOf = cs.map Prod.snd := by
        rw [hblk]
        simp only [List.filterMap_append, commentOf_comments, commentOf_opt f1, commentOf_opt f2, commentOf_opt f3, commentOf_opt f4, commentOf_opt f6,
          List.append_nil]
      have hhead : EntryHead u.obsolete (cs.map commentLine ++ (b1 ++ (b2 ++ (b3 ++ b4)))) :=
        ⟨cs, b1, b2, b3, b4, _, _, _, _, rfl, f1, f2, f3, g3, f4⟩
      have hkind : (∃ o, EntryHead o block) ∨ StrayPlural block := by
        cases f6 with
        | none => left; exact ⟨_, by rw [hblk, List.append_nil]; exact hhead⟩
        | some f6 => right; exact ⟨_, _, _, _, by rw [hblk]; simp, hhead, f6⟩
      have hne : rest ≠ [] ∨ ∃ ln ∈ block, ¬ IsComment ln := by
        by_cases hr : rest = []
        · right
          apply Classical.byContradiction
          intro hc
          have hall : ∀ ln ∈ block, IsComment ln := by
            intro ln hln
            apply Classical.byContradiction
            intro hx
            exact hc ⟨ln, hln, hx⟩
          have hcs := all_comments hall
          obtain ⟨ds, hds⟩ := hcs
          rw [hl, hds, hr, List.append_nil, entry_comments] at he
          simp at he
        · exact .inl hr
      have := First.noId hkind hne hend
      unfold firstOut
      simp only [hm, Message.isEmpty, List.isEmpty_nil, if_true, Message.getText, Option.getD_none]
      rw [hl, hcd.notes, hcd.comments, ← hk]
      exact this
  · rcases (entry_stop hb he).2 e rfl with h | ⟨_, block, h, hl⟩
    · show First l (.fail e)
      generalize hn : (some e : Option Err) = x at h
      cases h with
      | endsInHead => cases hn
      | endsAfterIds => cases hn
      | unreadableHead h1 => cases hn; exact .unreadable (.inl (.inl ⟨_, h1⟩))
      | unreadableIds h1 => cases hn; exact .unreadable (.inl (.inr (.inl ⟨_, _, h1⟩)))
      | unreadableAfter h1 => cases hn; exact .unreadable (.inl (.inr (.inr ⟨_, h1⟩)))
      | noId h => cases h
      | noText h1 _ _ => cases hn; exact .noText h1 (ends_of_rest he)
      | noSource h => cases h
    · rw [hl]; exact .unreadable (.inr h)
  · have := (good_entry none true l).1
    rw [he] at this
    exact absurd rfl this

end Verif
