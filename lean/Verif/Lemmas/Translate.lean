import Verif.Lemmas.Opaque

/-! Inputs that differ in their translations, read side by side. -/

namespace Verif
open Spec

section
variable {R : Str → Str → Str → Prop}

/-- Messages with related texts, or no message. -/
def SourceMessage? (R : Str → Str → Str → Prop) (m m' : Message) : Prop := SourceMessage R m m' ∨ (m = .default ∧ m' = .default)

theorem trans_newMessage (hR : SourceRel R) (f : Option PluralForms) (o : Bool) {a a' b b' : Option Str} (ha : Both (R (c!"msgid")) a a')
    (hb : Both (R (c!"msgid_plural")) b b') : CorrE (SomeText R) Eq (Both (SourceMessage? R)) (newMessage f o a b) (newMessage f o a' b') := by
  unfold newMessage
  cases ha with
  | none => exact .pure (.some (.inr ⟨rfl, rfl⟩))
  | some ha =>
    cases hb with
    | some hb =>
      refine CorrE.bind (text_valuesLoop hR _ _ _ _ _ .nil) fun c c' hc => ?_
      rw [← each_isEmpty hc]
      split
      · exact CorrE.bindEq (textItems_expected _) fun _ => .pure .none
      · exact .pure (.some (.inl (.plural ha hb hc)))
    | none =>
      refine CorrE.bind (textItems_msg hR _ _) fun c c' hc => ?_
      cases hc with
      | @some t t' hc =>
        have hs : ∀ v : Str, (if v.isEmpty then none else some v) = shownText v := fun v => by cases v <;> rfl
        refine .pure (.some (.inl ?_))
        rw [hs, hs]
        exact .simple ha hc
      | none => exact CorrE.bindEq (textItems_expected _) fun _ => .pure .none

/-- Units with related texts set. -/
def SetSource (R : Str → Str → Str → Prop) (u : PoUnit) (w w' : PoUnit) : Prop :=
  ∃ a a' b b' c c' m m', Both (R (c!"|msgctxt")) a a' ∧ PreviousRel R b b' ∧ Both (R (c!"msgctxt")) c c' ∧ SourceMessage? R m m' ∧
    w = { u with prevContext := a, prevMessage := b, context := c, message := m } ∧
    w' = { u with prevContext := a', prevMessage := b', context := c', message := m' }

theorem trans_fields (hR : SourceRel R) (f : Option PluralForms) (u : PoUnit) (first : Bool) :
    CorrE (SomeText R) Eq (Both (SetSource R u)) (parseMessageFields f u first) (parseMessageFields f u first) := by
  have hm := fun tag => textItems_msg hR tag u.obsolete
  unfold parseMessageFields
  refine CorrE.bind (hm _) fun a a' ha => ?_
  refine CorrE.bind (hm _) fun b b' hb => ?_
  refine CorrE.bind (V := Both (R (c!"|msgid_plural"))) (by cases hb with | some hb => exact hm _ | none => exact .pure .none) fun c c' hc => ?_
  refine CorrE.bind (hm _) fun d d' hd => ?_
  refine CorrE.bind (hm _) fun e e' he => ?_
  rw [← both_isNone he]
  split
  · exact CorrE.bindEq (textItems_expected _) fun _ => .pure .none
  · refine CorrE.bind (hm _) fun g g' hg => ?_
    refine CorrE.bind (trans_newMessage hR _ _ he hg) fun m m' hm => ?_
    cases hm with
    | none => exact .pure .none
    | some hm => exact .pure (.some ⟨_, _, _, _, _, _, _, _, ha, text_previous hb hc, hd, hm, rfl, rfl⟩)

theorem trans_empty (hR : SourceRel R) {m m' : Message} (h : SourceMessage? R m m') : m.isEmpty = m'.isEmpty := by
  rcases h with h | ⟨rfl, rfl⟩
  · cases h with
    | plural => rfl
    | @simple a a' t t' ha _ =>
      have := hR.empty ha
      simp only [Message.isEmpty]
      cases a <;> cases a' <;> simp_all
  · rfl

/-- Units that correspond, perhaps without a message. -/
structure SourceUnit? (R : Str → Str → Str → Prop) (u u' : PoUnit) : Prop where
  context : Both (R (c!"msgctxt")) u.context u'.context
  prevContext : Both (R (c!"|msgctxt")) u.prevContext u'.prevContext
  message : SourceMessage? R u.message u'.message
  prevMessage : PreviousRel R u.prevMessage u'.prevMessage
  flags : u.flags = u'.flags
  notes : u.notes = u'.notes
  locations : u.locations = u'.locations
  comments : u.comments = u'.comments
  needsWork : u.state = .needsWork ↔ u'.state = .needsWork
  obsolete : u.obsolete = u'.obsolete

theorem trans_finish (hR : SourceRel R) (first : Bool) (n : Nat) {u w w' : PoUnit} (h : SetSource R u w w') :
    (∃ e, finishUnit first n w = .error e ∧ finishUnit first n w' = .error e) ∨
      ∃ x x', finishUnit first n w = .ok x ∧ finishUnit first n w' = .ok x' ∧ SourceUnit? R x x' := by
  obtain ⟨a, a', b, b', c, c', m, m', ha, hb, hc, hm, rfl, rfl⟩ := h
  unfold finishUnit
  simp only [← trans_empty hR hm]
  by_cases h1 : (!first && m.isEmpty) = true
  · rw [if_pos h1, if_pos h1]
    exact .inl ⟨_, rfl, rfl⟩
  · rw [if_neg h1, if_neg h1]
    refine .inr ?_
    split <;> split <;> exact ⟨_, _, rfl, rfl, hc, ha, hm, hb, rfl, rfl, rfl, rfl, by simp_all, rfl⟩

theorem trans_entry (hR : SourceRel R) (f : Option PluralForms) (first : Bool) {l l' : List Item} (h : SomeText R l l') :
    Corr (SomeText R) Eq (Both (SourceUnit? R)) (entry f first l) (entry f first l') := by
  unfold entry
  rw [parseComments_list, parseComments_list]
  obtain ⟨k, h⟩ := h
  obtain ⟨hk, hs⟩ := textItems_comments h
  rw [← hk]
  generalize (takeComments l).1.foldl (fun u c => addComment u c.1 c.2) .default = u
  generalize (takeComments l).2 = r at hs
  generalize (takeComments l').2 = r' at hs
  have key : ∀ {v v' : PoLine} {tl tl' : List Item}, lineObsolete v = lineObsolete v' → v.line = v'.line → SomeText R (.ok v :: tl) (.ok v' :: tl') →
      Corr (SomeText R) Eq (Both (SourceUnit? R))
        (match parseMessageFields f { u with obsolete := lineObsolete v } first (.ok v :: tl) with
          | (.err e, l2) => (.err e, l2)
          | (.panic, l2) => (.panic, l2)
          | (.ok none, l2) => (.ok none, l2)
          | (.ok (some u'), l2) =>
            match finishUnit first v.line u' with
            | .error e => (.err e, l2)
            | .ok w => (.ok (some w), l2))
        (match parseMessageFields f { u with obsolete := lineObsolete v' } first (.ok v' :: tl') with
          | (.err e, l2) => (.err e, l2)
          | (.panic, l2) => (.panic, l2)
          | (.ok none, l2) => (.ok none, l2)
          | (.ok (some u'), l2) =>
            match finishUnit first v'.line u' with
            | .error e => (.err e, l2)
            | .ok w => (.ok (some w), l2)) := by
    intro v v' tl tl' ho hn hs
    rw [← ho, ← hn]
    obtain ⟨k1, k2⟩ := trans_fields hR f { u with obsolete := lineObsolete v } first _ _ hs
    generalize parseMessageFields f { u with obsolete := lineObsolete v } first (.ok v :: tl) = y at *
    generalize parseMessageFields f { u with obsolete := lineObsolete v } first (.ok v' :: tl') = y' at *
    obtain ⟨o, r⟩ := y
    obtain ⟨o', r'⟩ := y'
    simp only at k1 k2
    cases k1 with
    | err h => subst h; exact ⟨.err rfl, by simp⟩
    | panic => exact ⟨.panic, by simp⟩
    | ok hw =>
      have k3 := k2 _ rfl
      cases hw with
      | none => exact ⟨.ok .none, fun _ _ => k3⟩
      | some hw =>
        rcases trans_finish hR first v.line hw with ⟨e, e1, e2⟩ | ⟨w, w', e1, e2, hw⟩
        · simp only [e1, e2]; exact ⟨.err rfl, by simp⟩
        · simp only [e1, e2]; exact ⟨.ok (.some hw), fun _ _ => k3⟩
  cases hs with
  | nil => exact ⟨.ok .none, fun _ _ => ⟨k, .nil⟩⟩
  | error => exact ⟨.err rfl, by simp [afterField]⟩
  | comment h => exact key rfl rfl ⟨k, .comment h⟩
  | message hp h => exact key rfl rfl ⟨k, .message hp h⟩
  | continuation hp h => exact key rfl rfl ⟨k, .continuation hp h⟩

theorem SourceUnit?.full {u u' : PoUnit} (h : SourceUnit? R u u') (he : u.message.isEmpty = false) : SourceMessage R u.message u'.message := by
  rcases h.message with hm | ⟨hm, _⟩
  · exact hm
  · rw [hm] at he; cases he

theorem trans_drain (hR : SourceRel R) (forms : Option PluralForms) (k : Nat) : ∀ l l' : List Item, l.length < k → SomeText R l l' →
    Each (fun u u' => SourceUnit? R u u' ∧ SourceMessage R u.message u'.message) (drain forms l).1 (drain forms l').1 ∧ (drain forms l).2 = (drain forms l').2 := by
  induction k with
  | zero => intro l l' h; omega
  | succ k ih =>
    intro l l' hk h
    rw [drain_eq, drain_eq]
    obtain ⟨h1, h2⟩ := trans_entry hR forms false h
    have hc := consumes_entry forms l
    rcases e1 : entry forms false l with ⟨o, r⟩
    rcases e2 : entry forms false l' with ⟨o', r'⟩
    rw [e1] at hc
    rw [e1, e2] at h1 h2
    simp only at h1 h2
    cases h1 with
    | err h => exact ⟨.nil, by rw [h]⟩
    | panic => exact ⟨.nil, rfl⟩
    | ok hv =>
      cases hv with
      | none => exact ⟨.nil, rfl⟩
      | some hv =>
        have hlt := hc _ r rfl
        obtain ⟨h3, h4⟩ := ih r r' (by omega) (h2 _ rfl)
        exact ⟨.cons ⟨hv, hv.full (entry_source e1)⟩ h3, h4⟩


end

end Verif
