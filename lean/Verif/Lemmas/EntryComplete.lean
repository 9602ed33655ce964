import Verif.Lemmas.Entry

/-! Completeness of reading entries. -/

namespace Verif
open Spec

/-- The list starts with a keyword line of an entry of kind `o`, whose keyword satisfies `P`. -/
def Starts (P : Str → Prop) (o : Bool) (l : List Item) : Prop :=
  ∃ n p k s tl, l = .ok (.message n p k s) :: tl ∧ P k ∧ startsTilde p = o

theorem Starts.noField {P : Str → Prop} {o : Bool} {l : List Item} (h : Starts P o l) {kw : Str} (hk : ¬ P kw) : NoField kw o l := by
  obtain ⟨n, p, k, s, tl, rfl, h1, h2⟩ := h
  exact noField_of_head (fun e => hk (e ▸ h1))

theorem Starts.stops {P : Str → Prop} {o : Bool} {l : List Item} (h : Starts P o l) (p : Str) : FieldStops p l := by
  obtain ⟨n, p, k, s, tl, rfl, h1, h2⟩ := h
  exact stops_of_message

theorem field_starts {kw : Str} {o : Bool} {b : List PoLine} {v : Str} (h : Field kw o b v) {P : Str → Prop} (hP : P kw) (l : List Item) :
    Starts P o (b.map .ok ++ l) := by
  obtain ⟨p, h1, h2⟩ := h
  obtain ⟨n, s, tl, rfl⟩ := field_head h1
  exact ⟨n, p, kw, s, _, rfl, hP, tilde_eq.mpr h2⟩

theorem field_step {kw : Str} {o : Bool} {b : List PoLine} {v : Str} {P : Str → Prop} {l : List Item} (h : Field kw o b v)
    (hs : Starts P o l) : parseMsg kw o (b.map .ok ++ l) = (.ok (some v), l) := by
  obtain ⟨p, h1, h2⟩ := h
  exact parseMsg_some.mpr ⟨p, b, h1, tilde_eq.mpr h2, rfl, hs.stops p⟩

theorem opt_step {kw : Str} {o : Bool} {b : List PoLine} {v : Option Str} {P : Str → Prop} {l : List Item} (h : OptField kw o b v)
    (hs : Starts P o l) (hk : ¬ P kw) :
    parseMsg kw o (b.map .ok ++ l) = (.ok v, l) ∧ Starts (fun k => k = kw ∨ P k) o (b.map .ok ++ l) := by
  cases h with
  | none =>
    refine ⟨parseMsg_none.mpr ⟨rfl, hs.noField hk⟩, ?_⟩
    obtain ⟨n, p, k, s, tl, h0, h1, h2⟩ := hs
    exact ⟨n, p, k, s, tl, h0, .inr h1, h2⟩
  | some h => exact ⟨field_step h hs, field_starts h (.inl rfl) l⟩

/-- Keywords that start the translation part. -/
def IsTextKw (k : Str) : Prop := k = c!"msgstr" ∨ ∃ i, k = valueKeyword i

theorem textFields_starts {forms : Option PluralForms} {o : Bool} {id : Str} {idPl : Option Str} {b : List PoLine} {m : Message}
    (h : TextFields forms o id idPl b m) (l : List Item) : Starts IsTextKw o (b.map .ok ++ l) := by
  cases h with
  | simple hf => exact field_starts hf (.inl rfl) l
  | plural hv hne =>
    cases hv with
    | nil => simp at hne
    | @cons _ i b v bs vs _ _ hf _ =>
      rw [List.map_append, List.append_assoc]
      exact field_starts hf (.inr ⟨i, rfl⟩) _

theorem not_textKw {k : Str} (h1 : k ≠ c!"msgstr") (h2 : k.take 7 ≠ c!"msgstr[") : ¬ IsTextKw k := by
  rintro (h | ⟨i, rfl⟩)
  · exact h1 h
  · apply h2
    unfold valueKeyword
    simp

theorem Spec.StateRule.state_eq {u : PoUnit} (h : StateRule u) :
    u.state = if c!"fuzzy" ∈ u.flags then .needsWork else if u.message.isBlank = false then .final else .empty := by
  by_cases hf : c!"fuzzy" ∈ u.flags
  · rw [if_pos hf]; exact h.needsWork.mpr hf
  · rw [if_neg hf]
    by_cases ht : u.message.isBlank = false
    · rw [if_pos ht]; exact h.final.mpr ⟨hf, (hasText_iff _).mp ht⟩
    · rw [if_neg ht]
      cases hs : u.state with
      | empty => rfl
      | needsWork => exact absurd (h.needsWork.mp hs) hf
      | final => exact absurd ((hasText_iff _).mpr (h.final.mp hs).2) ht

theorem bind_of {σ α β : Type} {x : Eff σ α} {f : α → Eff σ β} {s s' : σ} {a : α} (h : x s = (.ok a, s')) : (x >>= f) s = f a s' := by
  rw [bind_eq, h]

theorem finish_eq {first : Bool} {line : Nat} {u v : PoUnit} (hu : StateRule u)
    (hv : v.state = if c!"fuzzy" ∈ v.flags then .needsWork else .empty) (h : { v with state := u.state } = u)
    (hne : first = false → u.message.isEmpty = false) : finishUnit first line v = .ok u := by
  have hstate := hu.state_eq
  have hc : (!first && u.message.isEmpty) = false := by
    cases first with
    | true => rfl
    | false => simp [hne rfl]
  have e1 : v.message = u.message := by rw [← h]
  have e2 : v.flags = u.flags := by rw [← h]
  unfold finishUnit
  rw [e1, hc]
  rw [e2] at hv
  simp only [Bool.false_eq_true, if_false, hv]
  by_cases hf : c!"fuzzy" ∈ u.flags
  · rw [if_pos hf] at hv hstate
    rw [hstate, ← hv] at h
    simp only [if_pos hf]
    rw [if_neg (by simp)]
    rw [← h]
  · rw [if_neg hf] at hv hstate
    simp only [if_neg hf]
    by_cases hb : u.message.isBlank = false
    · rw [if_pos hb] at hstate
      rw [if_pos ⟨trivial, hb⟩, ← e1, ← hstate, h]
    · rw [if_neg hb] at hstate
      rw [if_neg (fun h => hb h.2)]
      rw [hstate, ← hv] at h
      rw [← h]

/-- The fields of an entry are read back. -/
theorem fields_complete {forms : Option PluralForms} {first : Bool} {u : PoUnit} {cs : List (Nat × Char × Str)} {b1 b2 b3 b4 b5 b6 b7 : List PoLine}
    {prevId prevPl : Option Str} {id : Str} {idPl : Option Str} {rest : List Item}
    (f1 : OptField (c!"|msgctxt") u.obsolete b1 u.prevContext)
    (f2 : OptField (c!"|msgid") u.obsolete b2 prevId)
    (f3 : OptField (c!"|msgid_plural") u.obsolete b3 prevPl) (g3 : prevId = none → prevPl = none)
    (f4 : OptField (c!"msgctxt") u.obsolete b4 u.context)
    (f5 : Field (c!"msgid") u.obsolete b5 id)
    (f6 : OptField (c!"msgid_plural") u.obsolete b6 idPl)
    (f7 : TextFields forms u.obsolete id idPl b7 u.message)
    (f8 : u.prevMessage = previousMessage forms prevId prevPl)
    (f9 : CommentData (cs.map Prod.snd) u) (f10 : StateRule u)
    (hend : EntryEnd forms u b7 rest) (hne : first = false → u.message.isEmpty = false) :
    entry forms first ((cs.map commentLine ++ (b1 ++ (b2 ++ (b3 ++ (b4 ++ (b5 ++ (b6 ++ b7))))))).map .ok ++ rest) =
      (.ok (some u), rest) := by
  have s7 := textFields_starts f7 rest
  obtain ⟨p6, s6⟩ := opt_step f6 s7 (not_textKw (by decide) (by decide))
  have p5 := field_step f5 s6
  have s5 := field_starts f5 (P := fun k => k = c!"msgid") rfl (b6.map .ok ++ (b7.map .ok ++ rest))
  obtain ⟨p4, s4⟩ := opt_step f4 s5 (by decide)
  have p3 : (match (generalizing := false) prevId with
      | some _ => parseMsg (c!"|msgid_plural") u.obsolete
      | none => Eff.pure none : Eff (List Item) (Option Str)) (b3.map .ok ++ (b4.map .ok ++ (b5.map .ok ++ (b6.map .ok ++ (b7.map .ok ++ rest))))) =
      (.ok prevPl, b4.map .ok ++ (b5.map .ok ++ (b6.map .ok ++ (b7.map .ok ++ rest)))) := by
    cases hp : prevId with
    | some x => exact (opt_step f3 s4 (by decide)).1
    | none =>
      have := g3 hp
      subst this
      cases f3
      rfl
  have s3 := (opt_step f3 s4 (by decide)).2
  obtain ⟨p2, s2⟩ := opt_step f2 s3 (by decide)
  obtain ⟨p1, s1⟩ := opt_step f1 s2 (by decide)
  have p7 := newMessage_complete f7 (textEnd_iff.mpr hend)
  simp only [List.map_append, List.append_assoc]
  unfold entry
  have h0 : parseComments .default ((cs.map commentLine).map .ok ++ (b1.map .ok ++ (b2.map .ok ++ (b3.map .ok ++ (b4.map .ok ++
      (b5.map .ok ++ (b6.map .ok ++ (b7.map .ok ++ rest)))))))) = (.ok (collect (cs.map Prod.snd)), b1.map .ok ++ (b2.map .ok ++ (b3.map .ok ++ (b4.map .ok ++
      (b5.map .ok ++ (b6.map .ok ++ (b7.map .ok ++ rest))))))) := by
    refine parseComments_iff.mpr ⟨cs, rfl, rfl, ?_⟩
    obtain ⟨n, p, k, s, tl, h, _⟩ := s1
    rw [h]
    constructor <;> simp
  rw [h0]
  obtain ⟨n, p, k, s, tl, hh, _, hp⟩ := s1
  simp only [hh]
  rw [← hh]
  have hfields : parseMessageFields forms { collect (cs.map Prod.snd) with obsolete := lineObsolete (.message n p k s) } first
      (b1.map .ok ++ (b2.map .ok ++ (b3.map .ok ++ (b4.map .ok ++ (b5.map .ok ++ (b6.map .ok ++ (b7.map .ok ++ rest))))))) =
      (.ok (some { collect (cs.map Prod.snd) with obsolete := u.obsolete, prevContext := u.prevContext, prevMessage := u.prevMessage, context := u.context, message := u.message }), rest) := by
    unfold parseMessageFields
    simp only [lineObsolete, hp]
    rw [bind_eq, p1]
    simp only
    rw [bind_eq, p2]
    simp only
    refine (bind_of p3).trans ?_
    rw [bind_eq, p4]
    simp only
    rw [bind_eq, p5]
    simp only [Option.isNone_some, Bool.and_false, Bool.false_eq_true, if_false]
    rw [bind_eq, p6]
    simp only
    rw [bind_eq, p7]
    simp only [previous_eq, ← f8]
    rfl
  rw [hfields]
  have hcs := collect_state (cs.map Prod.snd)
  have hcd := collect_data (cs.map Prod.snd)
  have hfin : finishUnit first (PoLine.message n p k s).line { collect (cs.map Prod.snd) with obsolete := u.obsolete, prevContext := u.prevContext, prevMessage := u.prevMessage, context := u.context, message := u.message } = .ok u := by
    refine finish_eq f10 hcs ?_ hne
    simp only [hcd.flags, hcd.locations, hcd.notes, hcd.comments, ← f9.flags, ← f9.locations, ← f9.notes, ← f9.comments]
  simp only [hfin]

/-- **Completeness of reading an entry.** -/
theorem entry_complete {forms : Option PluralForms} {first : Bool} {block : List PoLine} {rest : List Item} {u : PoUnit}
    (h : Entry forms block u) (hend : EntryEnd forms u block rest) (hne : first = false → u.message.isEmpty = false) :
    entry forms first (block.map .ok ++ rest) = (.ok (some u), rest) := by
  obtain ⟨cs, b1, b2, b3, b4, b5, b6, b7, prevId, prevPl, id, idPl, rfl, f1, f2, f3, g3, f4, f5, f6, f7, f8, f9, f10⟩ := h
  obtain ⟨hn, k, hk⟩ := TextFields_ne_nil f7
  refine fields_complete f1 f2 f3 g3 f4 f5 f6 f7 f8 f9 f10 ?_ hne
  simp only [← List.append_assoc] at hend
  exact (entryEnd_append hn hk).mp hend

/-- An entry block is not empty. -/
theorem Spec.Entry.ne_nil {forms : Option PluralForms} {block : List PoLine} {u : PoUnit} (h : Entry forms block u) : block ≠ [] := by
  obtain ⟨cs, b1, b2, b3, b4, b5, b6, b7, prevId, prevPl, id, idPl, rfl, f1, f2, f3, g3, f4, f5, f6, f7, f8, f9, f10⟩ := h
  obtain ⟨hn, k, hk⟩ := TextFields_ne_nil f7
  simp [hn]

end Verif
