import Verif.Spec.Translate
import Verif.Lemmas.Obsolete

/-! Inputs that differ only in their quoted texts, read side by side. -/

namespace Verif
open Spec

/-- Items that differ only in their quoted texts. -/
inductive TextItems (R : Str → Str → Str → Prop) : Str → List Item → List Item → Prop
  | nil {k} : TextItems R k [] []
  | error {k e tl tl'} : TextItems R k (.error e :: tl) (.error e :: tl')
  | comment {k n c s l l'} : TextItems R k l l' → TextItems R k (.ok (.comment n c s) :: l) (.ok (.comment n c s) :: l')
  | message {k n p t s s' l l'} : R t s s' → TextItems R t l l' → TextItems R k (.ok (.message n p t s) :: l) (.ok (.message n p t s') :: l')
  | continuation {k n p s s' l l'} : R k s s' → TextItems R k l l' → TextItems R k (.ok (.continuation n p s) :: l) (.ok (.continuation n p s') :: l')

/-- The items of two inputs that differ only in quoted texts, whatever the last keyword. -/
def SomeText (R : Str → Str → Str → Prop) (l l' : List Item) : Prop := ∃ k, TextItems R k l l'

section
variable {R : Str → Str → Str → Prop}

theorem Spec.TextRel.source (h : TextRel R) : SourceRel R := ⟨h.append, h.empty⟩

theorem textItems_comments {k : Str} {l l' : List Item} (h : TextItems R k l l') : (takeComments l).1 = (takeComments l').1 ∧
    TextItems R k (takeComments l).2 (takeComments l').2 := by
  induction h with
  | nil => exact ⟨rfl, .nil⟩
  | error => exact ⟨rfl, .error⟩
  | message hp h _ => exact ⟨rfl, .message hp h⟩
  | continuation hp h _ => exact ⟨rfl, .continuation hp h⟩
  | comment h ih => exact ⟨by simp only [takeComments]; rw [ih.1], ih.2⟩

theorem textItems_cont (hR : SourceRel R) {p k : Str} {l l' : List Item} (h : TextItems R k l l') : ∀ a a', R k a a' →
    R k (a ++ (takeCont p l).1) (a' ++ (takeCont p l').1) ∧ TextItems R k (takeCont p l).2 (takeCont p l').2 := by
  induction h with
  | nil => intro a a' ha; simp only [takeCont, List.append_nil]; exact ⟨ha, .nil⟩
  | error => intro a a' ha; simp only [takeCont, List.append_nil]; exact ⟨ha, .error⟩
  | message hp h _ => intro a a' ha; simp only [takeCont, List.append_nil]; exact ⟨ha, .message hp h⟩
  | comment h _ => intro a a' ha; simp only [takeCont, List.append_nil]; exact ⟨ha, .comment h⟩
  | @continuation k n q s s' l l' hs h ih =>
    intro a a' ha
    simp only [takeCont]
    by_cases hq : q = p
    · rw [if_pos hq, if_pos hq]
      have := ih _ _ (hR.append ha hs)
      simpa only [List.append_assoc] using this
    · rw [if_neg hq, if_neg hq]
      simp only [List.append_nil]
      exact ⟨ha, .continuation hs h⟩

theorem textItems_after {α : Type} {V : α → α → Prop} {v v' : α} (hv : V v v') {k : Str} {r r' : List Item} (h : TextItems R k r r') :
    Corr (SomeText R) Eq V (afterField v r) (afterField v' r') := by
  cases h with
  | error => exact ⟨.err rfl, by simp [afterField]⟩
  | nil => exact ⟨.ok hv, fun _ _ => ⟨k, .nil⟩⟩
  | message hp h => exact ⟨.ok hv, fun _ _ => ⟨k, .message hp h⟩⟩
  | continuation hp h => exact ⟨.ok hv, fun _ _ => ⟨k, .continuation hp h⟩⟩
  | comment h => exact ⟨.ok hv, fun _ _ => ⟨k, .comment h⟩⟩

theorem textItems_msg (hR : SourceRel R) (tag : Str) (o : Bool) : CorrE (SomeText R) Eq (Both (R tag)) (parseMsg tag o) (parseMsg tag o) := by
  rintro l l' ⟨k, h⟩
  rw [parseMsg_list, parseMsg_list]
  cases h with
  | nil => exact ⟨.ok .none, fun _ _ => ⟨k, .nil⟩⟩
  | error => exact ⟨.err rfl, by simp⟩
  | continuation hp h => exact ⟨.ok .none, fun _ _ => ⟨k, .continuation hp h⟩⟩
  | comment h => exact ⟨.ok .none, fun _ _ => ⟨k, .comment h⟩⟩
  | @message k n p t s s' l l' hs h =>
    simp only
    by_cases ht : t = tag ∧ startsTilde p = o
    · rw [if_pos ht, if_pos ht]
      obtain ⟨h1, h2⟩ := textItems_cont hR (p := p) h _ _ hs
      rw [ht.1] at h1
      exact textItems_after (.some h1) h2
    · rw [if_neg ht, if_neg ht]
      exact ⟨.ok .none, fun _ _ => ⟨k, .message hs h⟩⟩

theorem textItems_expected (exp : Str) : CorrE (SomeText R) Eq Eq (expected exp) (expected exp) := by
  rintro l l' ⟨k, h⟩
  rw [expected_list, expected_list]
  cases h with
  | nil => exact ⟨.ok rfl, fun _ _ => ⟨k, .nil⟩⟩
  | error => exact ⟨.err rfl, by simp⟩
  | continuation h => exact ⟨.err rfl, by simp⟩
  | comment h => exact ⟨.err rfl, by simp⟩
  | message h => exact ⟨.err rfl, by simp⟩

theorem each_snoc {α : Type} {Q : α → α → Prop} {l l' : List α} {a a' : α} (h : Each Q l l') (ha : Q a a') : Each Q (l ++ [a]) (l' ++ [a']) := by
  induction h with
  | nil => exact .cons ha .nil
  | cons h _ ih => exact .cons h ih

theorem each_isEmpty {α : Type} {Q : α → α → Prop} {l l' : List α} (h : Each Q l l') : l.isEmpty = l'.isEmpty := by cases h <;> rfl

/-- Related texts of `msgstr[i]` fields. -/
def ValueRel (R : Str → Str → Str → Prop) (v v' : Str) : Prop := ∃ i, R (valueKeyword i) v v'

theorem text_valuesLoop (hR : SourceRel R) (o : Bool) (k i : Nat) (vs vs' : List Str) (hv : Each (ValueRel R) vs vs') :
    CorrE (SomeText R) Eq (Each (ValueRel R)) (valuesLoop o k i vs) (valuesLoop o k i vs') := by
  induction k generalizing i vs vs' with
  | zero => exact .pure hv
  | succ k ih =>
    refine CorrE.bind (textItems_msg hR _ _) fun a a' ha => ?_
    cases ha with
    | some ha => exact ih _ _ _ (each_snoc hv ⟨i, ha⟩)
    | none => exact ih _ _ _ hv

/-- Messages with related texts, or no message. -/
def MessageRel? (R : Str → Str → Str → Prop) (m m' : Message) : Prop := MessageRel R m m' ∨ (m = .default ∧ m' = .default)

theorem text_newMessage (hR : TextRel R) (f : Option PluralForms) (o : Bool) {a a' b b' : Option Str} (ha : Both (R (c!"msgid")) a a')
    (hb : Both (R (c!"msgid_plural")) b b') : CorrE (SomeText R) Eq (Both (MessageRel? R)) (newMessage f o a b) (newMessage f o a' b') := by
  unfold newMessage
  cases ha with
  | none => exact .pure (.some (.inr ⟨rfl, rfl⟩))
  | some ha =>
    cases hb with
    | some hb =>
      refine CorrE.bind (text_valuesLoop hR.source _ _ _ _ _ .nil) fun c c' hc => ?_
      rw [← each_isEmpty hc]
      split
      · exact CorrE.bindEq (textItems_expected _) fun _ => .pure .none
      · exact .pure (.some (.inl (.plural ha hb hc)))
    | none =>
      refine CorrE.bind (textItems_msg hR.source _ _) fun c c' hc => ?_
      cases hc with
      | @some t t' hc =>
        refine .pure (.some (.inl (.simple ha ?_)))
        have he := hR.empty hc
        cases t with
        | nil => rw [he.mp rfl]; exact .none
        | cons x t =>
          cases t' with
          | nil => exact absurd (he.mpr rfl) (by simp)
          | cons y t' => exact .some hc
      | none => exact CorrE.bindEq (textItems_expected _) fun _ => .pure .none

theorem text_previous {f : Option PluralForms} {a a' b b' : Option Str} (ha : Both (R (c!"|msgid")) a a') (hb : Both (R (c!"|msgid_plural")) b b') :
    PreviousRel R (newPrevious f a b) (newPrevious f a' b') := by
  cases ha with
  | none => exact .none
  | some ha =>
    cases hb with
    | none => exact .simple ha
    | some hb => exact .plural ha hb

/-- Units with related texts set. -/
def SetTexts (R : Str → Str → Str → Prop) (u : PoUnit) (w w' : PoUnit) : Prop :=
  ∃ a a' b b' c c' m m', Both (R (c!"|msgctxt")) a a' ∧ PreviousRel R b b' ∧ Both (R (c!"msgctxt")) c c' ∧ MessageRel? R m m' ∧
    w = { u with prevContext := a, prevMessage := b, context := c, message := m } ∧
    w' = { u with prevContext := a', prevMessage := b', context := c', message := m' }

theorem both_isNone {α : Type} {Q : α → α → Prop} {a a' : Option α} (h : Both Q a a') : a.isNone = a'.isNone := by cases h <;> rfl

theorem text_fields (hR : TextRel R) (f : Option PluralForms) (u : PoUnit) (first : Bool) :
    CorrE (SomeText R) Eq (Both (SetTexts R u)) (parseMessageFields f u first) (parseMessageFields f u first) := by
  have hm := fun tag => textItems_msg hR.source tag u.obsolete
  unfold parseMessageFields
  refine CorrE.bind (hm _) fun a a' ha => ?_
  refine CorrE.bind (hm _) fun b b' hb => ?_
  refine CorrE.bind (V := Both (R (c!"|msgid_plural"))) (by cases hb with | some hb => exact hm _ | none => exact .pure .none) fun c c' hc => ?_
  refine CorrE.bind (hm _) fun d d' hd => ?_
  refine CorrE.bind (hm _) fun e e' he => ?_
  rw [← both_isNone he]
  split
  · exact CorrE.bindEq (textItems_expected _) fun _ => .pure .none
  · refine CorrE.bind (hm _) fun g g' hg => ?_
    refine CorrE.bind (text_newMessage hR _ _ he hg) fun m m' hm => ?_
    cases hm with
    | none => exact .pure .none
    | some hm => exact .pure (.some ⟨_, _, _, _, _, _, _, _, ha, text_previous hb hc, hd, hm, rfl, rfl⟩)

theorem messageRel_empty (hR : TextRel R) {m m' : Message} (h : MessageRel? R m m') : m.isEmpty = m'.isEmpty := by
  rcases h with h | ⟨rfl, rfl⟩
  · cases h with
    | plural => rfl
    | @simple a a' t t' ha _ =>
      have := hR.empty ha
      simp only [Message.isEmpty]
      cases a <;> cases a' <;> simp_all
  · rfl

theorem each_blank (hR : TextRel R) {vs vs' : List Str} (h : Each (ValueRel R) vs vs') : vs.all List.isEmpty = vs'.all List.isEmpty := by
  induction h with
  | nil => rfl
  | @cons a a' l l' ha _ ih =>
    obtain ⟨i, ha⟩ := ha
    have := hR.empty ha
    simp only [List.all_cons]
    rw [ih]
    cases a <;> cases a' <;> simp_all

theorem messageRel_blank (hR : TextRel R) {m m' : Message} (h : MessageRel? R m m') : m.isBlank = m'.isBlank := by
  rcases h with h | ⟨rfl, rfl⟩
  · cases h with
    | plural _ _ hv => exact each_blank hR hv
    | simple _ ht =>
      cases ht with
      | none => rfl
      | @some t t' ht =>
        have := hR.empty ht
        simp only [Message.isBlank]
        cases t <;> cases t' <;> simp_all
  · rfl

/-- Units that correspond, perhaps without a message. -/
structure UnitRel? (R : Str → Str → Str → Prop) (u u' : PoUnit) : Prop where
  context : Both (R (c!"msgctxt")) u.context u'.context
  prevContext : Both (R (c!"|msgctxt")) u.prevContext u'.prevContext
  message : MessageRel? R u.message u'.message
  prevMessage : PreviousRel R u.prevMessage u'.prevMessage
  flags : u.flags = u'.flags
  notes : u.notes = u'.notes
  locations : u.locations = u'.locations
  comments : u.comments = u'.comments
  state : u.state = u'.state
  obsolete : u.obsolete = u'.obsolete

theorem text_finish (hR : TextRel R) (first : Bool) (n : Nat) {u w w' : PoUnit} (h : SetTexts R u w w') :
    (∃ e, finishUnit first n w = .error e ∧ finishUnit first n w' = .error e) ∨
      ∃ x x', finishUnit first n w = .ok x ∧ finishUnit first n w' = .ok x' ∧ UnitRel? R x x' := by
  obtain ⟨a, a', b, b', c, c', m, m', ha, hb, hc, hm, rfl, rfl⟩ := h
  unfold finishUnit
  simp only [← messageRel_empty hR hm, ← messageRel_blank hR hm]
  by_cases h1 : (!first && m.isEmpty) = true
  · rw [if_pos h1, if_pos h1]
    exact .inl ⟨_, rfl, rfl⟩
  · rw [if_neg h1, if_neg h1]
    by_cases h2 : u.state = .empty ∧ m.isBlank = false
    · rw [if_pos h2, if_pos h2]
      exact .inr ⟨_, _, rfl, rfl, hc, ha, hm, hb, rfl, rfl, rfl, rfl, rfl, rfl⟩
    · rw [if_neg h2, if_neg h2]
      exact .inr ⟨_, _, rfl, rfl, hc, ha, hm, hb, rfl, rfl, rfl, rfl, rfl, rfl⟩

theorem text_entry (hR : TextRel R) (f : Option PluralForms) (first : Bool) {l l' : List Item} (h : SomeText R l l') :
    Corr (SomeText R) Eq (Both (UnitRel? R)) (entry f first l) (entry f first l') := by
  unfold entry
  rw [parseComments_list, parseComments_list]
  obtain ⟨k, h⟩ := h
  obtain ⟨hk, hs⟩ := textItems_comments h
  rw [← hk]
  generalize (takeComments l).1.foldl (fun u c => addComment u c.1 c.2) .default = u
  generalize (takeComments l).2 = r at hs
  generalize (takeComments l').2 = r' at hs
  have key : ∀ {v v' : PoLine} {tl tl' : List Item}, lineObsolete v = lineObsolete v' → v.line = v'.line → SomeText R (.ok v :: tl) (.ok v' :: tl') →
      Corr (SomeText R) Eq (Both (UnitRel? R))
        (match parseMessageFields f { u with obsolete := lineObsolete v } first (.ok v :: tl) with
          | (.err e, l2) => (.err e, l2)
          | (.panic, l2) => (.panic, l2)
          | (.ok none, l2) => (.ok none, l2)
          | (.ok (some u'), l2) =>
            match finishUnit first v.line u' with
            | .error e => (.err e, l2)
            | .ok w => (.ok (some w), l2))
        (match parseMessageFields f { u with obsolete := lineObsolete v' } first (.ok v' :: tl') with
          | (.err e, l2) => (.err e, l2)
          | (.panic, l2) => (.panic, l2)
          | (.ok none, l2) => (.ok none, l2)
          | (.ok (some u'), l2) =>
            match finishUnit first v'.line u' with
            | .error e => (.err e, l2)
            | .ok w => (.ok (some w), l2)) := by
    intro v v' tl tl' ho hn hs
    rw [← ho, ← hn]
    obtain ⟨k1, k2⟩ := text_fields hR f { u with obsolete := lineObsolete v } first _ _ hs
    generalize parseMessageFields f { u with obsolete := lineObsolete v } first (.ok v :: tl) = y at *
    generalize parseMessageFields f { u with obsolete := lineObsolete v } first (.ok v' :: tl') = y' at *
    obtain ⟨o, r⟩ := y
    obtain ⟨o', r'⟩ := y'
    simp only at k1 k2
    cases k1 with
    | err h => subst h; exact ⟨.err rfl, by simp⟩
    | panic => exact ⟨.panic, by simp⟩
    | ok hw =>
      have k3 := k2 _ rfl
      cases hw with
      | none => exact ⟨.ok .none, fun _ _ => k3⟩
      | some hw =>
        rcases text_finish hR first v.line hw with ⟨e, e1, e2⟩ | ⟨w, w', e1, e2, hw⟩
        · simp only [e1, e2]; exact ⟨.err rfl, by simp⟩
        · simp only [e1, e2]; exact ⟨.ok (.some hw), fun _ _ => k3⟩
  cases hs with
  | nil => exact ⟨.ok .none, fun _ _ => ⟨k, .nil⟩⟩
  | error => exact ⟨.err rfl, by simp [afterField]⟩
  | comment h => exact key rfl rfl ⟨k, .comment h⟩
  | message hp h => exact key rfl rfl ⟨k, .message hp h⟩
  | continuation hp h => exact key rfl rfl ⟨k, .continuation hp h⟩

theorem UnitRel?.full {u u' : PoUnit} (h : UnitRel? R u u') (he : u.message.isEmpty = false) : UnitRel R u u' := by
  refine ⟨h.context, h.prevContext, ?_, h.prevMessage, h.flags, h.notes, h.locations, h.comments, h.state, h.obsolete⟩
  rcases h.message with hm | ⟨hm, _⟩
  · exact hm
  · rw [hm] at he; cases he

theorem text_drain (hR : TextRel R) (forms : Option PluralForms) (k : Nat) : ∀ l l' : List Item, l.length < k → SomeText R l l' →
    Each (UnitRel R) (drain forms l).1 (drain forms l').1 ∧ (drain forms l).2 = (drain forms l').2 := by
  induction k with
  | zero => intro l l' h; omega
  | succ k ih =>
    intro l l' hk h
    rw [drain_eq, drain_eq]
    obtain ⟨h1, h2⟩ := text_entry hR forms false h
    have hc := consumes_entry forms l
    rcases e1 : entry forms false l with ⟨o, r⟩
    rcases e2 : entry forms false l' with ⟨o', r'⟩
    rw [e1] at hc
    rw [e1, e2] at h1 h2
    simp only at h1 h2
    cases h1 with
    | err h => exact ⟨.nil, by rw [h]⟩
    | panic => exact ⟨.nil, rfl⟩
    | ok hv =>
      cases hv with
      | none => exact ⟨.nil, rfl⟩
      | some hv =>
        have hlt := hc _ r rfl
        obtain ⟨h3, h4⟩ := ih r r' (by omega) (h2 _ rfl)
        exact ⟨.cons (hv.full (entry_source e1)) h3, h4⟩

theorem retexted_items {k : Str} {rs rs' : List (Except IoErr Str)} (h : Retexted R k rs rs') (hn : ∀ s, .ok s ∈ rs → '\n' ∉ s)
    (hn' : ∀ s, .ok s ∈ rs' → '\n' ∉ s) {n : Nat} {l l' : List Item} (hl : LineItems n rs l) (hl' : LineItems n rs' l') : TextItems R k l l' := by
  induction h generalizing n l l' with
  | nil => cases hl; cases hl'; exact .nil
  | failed => cases hl; cases hl'; exact .error
  | @line k s rs rs' hs _ ih =>
    have hs1 := hn s (by simp)
    have ih := fun {n l l'} => @ih (fun s hs => hn s (by simp [hs])) (fun s hs => hn' s (by simp [hs])) n l l'
    cases hl with
    | unrecognised h =>
      cases hl' with
      | unrecognised h' => exact .error
      | blank h' => have := classified_unique hs1 h' h; cases this
      | line h' => have := classified_unique hs1 h' h; cases this
    | blank h hr =>
      cases hl' with
      | unrecognised h' => have := classified_unique hs1 h' h; cases this
      | blank h' hr' => exact ih hr hr'
      | line h' hne => have := classified_unique hs1 h' h; cases this; exact absurd rfl hne
    | line h hne hr =>
      cases hl' with
      | unrecognised h' => have := classified_unique hs1 h' h; cases this
      | blank h' => have := classified_unique hs1 h' h; cases this; exact absurd rfl hne
      | line h' _ hr' =>
        have := classified_unique hs1 h' h
        cases this
        cases h with
        | blank => exact absurd rfl hne
        | keyword h => exact absurd h (hs _ _ _)
        | continuation h => exact absurd h (hs _ _ _)
        | comment => exact .comment (ih hr hr')
  | @continuation k s s' m raw raw' rs rs' hq hq' he _ ih =>
    have hs1 := hn s (by simp)
    have hs1' := hn' s' (by simp)
    have ih := fun {n l l'} => @ih (fun s hs => hn s (by simp [hs])) (fun s hs => hn' s (by simp [hs])) n l l'
    have k1 : Classified s n _ := .continuation hq
    have k2 : Classified s' n _ := .continuation hq'
    cases hl with
    | unrecognised h => have := classified_unique hs1 h k1; cases this
    | blank h => have := classified_unique hs1 h k1; cases this
    | line h _ hr =>
      have := classified_unique hs1 h k1
      cases this
      cases hl' with
      | unrecognised h => have := classified_unique hs1' h k2; cases this
      | blank h => have := classified_unique hs1' h k2; cases this
      | line h _ hr' =>
        have := classified_unique hs1' h k2
        cases this
        exact .continuation he (ih hr hr')
  | @keyword k s s' m kw raw raw' rs rs' hq hq' he _ ih =>
    have hs1 := hn s (by simp)
    have hs1' := hn' s' (by simp)
    have ih := fun {n l l'} => @ih (fun s hs => hn s (by simp [hs])) (fun s hs => hn' s (by simp [hs])) n l l'
    have k1 : Classified s n _ := .keyword hq
    have k2 : Classified s' n _ := .keyword hq'
    cases hl with
    | unrecognised h => have := classified_unique hs1 h k1; cases this
    | blank h => have := classified_unique hs1 h k1; cases this
    | line h _ hr =>
      have := classified_unique hs1 h k1
      cases this
      cases hl' with
      | unrecognised h => have := classified_unique hs1' h k2; cases this
      | blank h => have := classified_unique hs1' h k2; cases this
      | line h _ hr' =>
        have := classified_unique hs1' h k2
        cases this
        exact .message he (ih hr hr')

end

end Verif
