import Verif.Lemmas.Comments

/-! Inputs whose entries are marked obsolete. -/

namespace Verif
open Spec

/-- Items without and with the obsolete marker. -/
inductive MarkItems : List Item → List Item → Prop
  | nil : MarkItems [] []
  | error {e tl tl'} : MarkItems (.error e :: tl) (.error e :: tl')
  | comment {n c s l l'} : MarkItems l l' → MarkItems (.ok (.comment n c s) :: l) (.ok (.comment n c s) :: l')
  | message {n p t s l l'} : startsTilde p = false → MarkItems l l' → MarkItems (.ok (.message n p t s) :: l) (.ok (.message n ('~' :: p) t s) :: l')
  | continuation {n p s l l'} : MarkItems l l' → MarkItems (.ok (.continuation n p s) :: l) (.ok (.continuation n ('~' :: p) s) :: l')

theorem markItems_comments {l l' : List Item} (h : MarkItems l l') : (takeComments l).1 = (takeComments l').1 ∧
    MarkItems (takeComments l).2 (takeComments l').2 := by
  induction h with
  | nil => exact ⟨rfl, .nil⟩
  | error => exact ⟨rfl, .error⟩
  | message hp h _ => exact ⟨rfl, .message hp h⟩
  | continuation h _ => exact ⟨rfl, .continuation h⟩
  | comment h ih => exact ⟨by simp only [takeComments]; rw [ih.1], ih.2⟩

theorem markItems_cont {p : Str} {l l' : List Item} (h : MarkItems l l') :
    (takeCont p l).1 = (takeCont ('~' :: p) l').1 ∧ MarkItems (takeCont p l).2 (takeCont ('~' :: p) l').2 := by
  induction h with
  | nil => exact ⟨rfl, .nil⟩
  | error => exact ⟨rfl, .error⟩
  | message hp h _ => exact ⟨rfl, .message hp h⟩
  | comment h _ => exact ⟨rfl, .comment h⟩
  | @continuation n q s l l' h ih =>
    simp only [takeCont]
    by_cases hq : q = p
    · rw [if_pos hq, if_pos (by rw [hq])]
      exact ⟨by rw [ih.1], ih.2⟩
    · rw [if_neg hq, if_neg (by simpa using hq)]
      exact ⟨rfl, .continuation h⟩

theorem markItems_after {α : Type} (v : α) {r r' : List Item} (h : MarkItems r r') :
    Corr MarkItems SameButMarker Eq (afterField v r) (afterField v r') := by
  cases h with
  | error => exact ⟨.err .same, by simp [afterField]⟩
  | nil => exact ⟨.ok rfl, fun _ _ => .nil⟩
  | message hp h => exact ⟨.ok rfl, fun _ _ => .message hp h⟩
  | continuation h => exact ⟨.ok rfl, fun _ _ => .continuation h⟩
  | comment h => exact ⟨.ok rfl, fun _ _ => .comment h⟩

theorem markItems_msg (tag : Str) : CorrE MarkItems SameButMarker Eq (parseMsg tag false) (parseMsg tag true) := by
  intro l l' h
  rw [parseMsg_list, parseMsg_list]
  cases h with
  | nil => exact ⟨.ok rfl, fun _ _ => .nil⟩
  | error => exact ⟨.err .same, by simp⟩
  | continuation h => exact ⟨.ok rfl, fun _ _ => .continuation h⟩
  | comment h => exact ⟨.ok rfl, fun _ _ => .comment h⟩
  | @message n p t s l l' hp h =>
    simp only
    have hp' : startsTilde ('~' :: p) = true := rfl
    by_cases ht : t = tag
    · rw [if_pos ⟨ht, hp⟩, if_pos ⟨ht, hp'⟩]
      obtain ⟨h1, h2⟩ := markItems_cont (p := p) h
      rw [h1]
      exact markItems_after _ h2
    · rw [if_neg (fun h => ht h.1), if_neg (fun h => ht h.1)]
      exact ⟨.ok rfl, fun _ _ => .message hp h⟩

theorem markItems_expected (exp : Str) : CorrE MarkItems SameButMarker Eq (expected exp) (expected exp) := by
  intro l l' h
  rw [expected_list, expected_list]
  cases h with
  | nil => exact ⟨.ok rfl, fun _ _ => .nil⟩
  | error => exact ⟨.err .same, by simp⟩
  | continuation h => exact ⟨.err .same, by simp⟩
  | comment h => exact ⟨.err .same, by simp⟩
  | message h => exact ⟨.err .marker, by simp⟩

/-- Data from comments that agree. -/
structure SameComments (u u' : PoUnit) : Prop where
  notes : u.notes = u'.notes
  comments : u.comments = u'.comments
  flags : u.flags = u'.flags
  locations : u.locations = u'.locations
  state : u.state = u'.state

/-- Reading side by side what differs in the obsolete marker. -/
def markChange : Change where
  S₀ := MarkItems
  S := MarkItems
  E := SameButMarker
  K := SameComments
  ob := fun o o' => o = false ∧ o' = true
  weak := id
  comments := by
    intro l l' h
    obtain ⟨h1, h2⟩ := markItems_comments h
    rw [h1]
    exact ⟨h2, rfl, rfl, rfl, rfl, rfl⟩
  head := by
    intro l l' h
    cases h with
    | nil => exact .inl ⟨rfl, rfl⟩
    | error => exact .inr (.inl ⟨_, _, _, _, rfl, rfl, .same⟩)
    | message hp h => exact .inr (.inr ⟨_, _, _, _, rfl, rfl, fun _ => .same, .inl ⟨_, _, _, _, _, _, _, _, rfl, rfl, hp, rfl⟩⟩)
    | continuation h => exact .inr (.inr ⟨_, _, _, _, rfl, rfl, fun _ => .same, .inr ⟨by simp, by simp⟩⟩)
    | comment h => exact .inr (.inr ⟨_, _, _, _, rfl, rfl, fun _ => .same, .inr ⟨by simp, by simp⟩⟩)
  msg := by
    rintro o o' ⟨rfl, rfl⟩ tag
    exact markItems_msg tag
  exp := markItems_expected
  set := fun h => ⟨h.notes, h.comments, h.flags, h.locations, h.state⟩
  fin := by
    intro u u' h hm
    rw [h.state, hm]
    split
    · exact ⟨h.notes, h.comments, h.flags, h.locations, rfl⟩
    · exact h

theorem obsoleted_items {rs rs' : List (Except IoErr Str)} (h : Obsoleted rs rs') (hn : ∀ s, .ok s ∈ rs → '\n' ∉ s)
    (hn' : ∀ s, .ok s ∈ rs' → '\n' ∉ s) {n : Nat} {l l' : List Item} (hl : LineItems n rs l) (hl' : LineItems n rs' l') : MarkItems l l' := by
  induction h generalizing n l l' with
  | nil => cases hl; cases hl'; exact .nil
  | failed => cases hl; cases hl'; exact .error
  | @line s rs rs' hs _ ih =>
    have hs1 := hn s (by simp)
    have ih := fun {n l l'} => @ih (fun s hs => hn s (by simp [hs])) (fun s hs => hn' s (by simp [hs])) n l l'
    cases hl with
    | unrecognised h =>
      cases hl' with
      | unrecognised h' => exact .error
      | blank h' => have := classified_unique hs1 h' h; cases this
      | line h' => have := classified_unique hs1 h' h; cases this
    | blank h hr =>
      cases hl' with
      | unrecognised h' => have := classified_unique hs1 h' h; cases this
      | blank h' hr' => exact ih hr hr'
      | line h' hne => have := classified_unique hs1 h' h; cases this; exact absurd rfl hne
    | line h hne hr =>
      cases hl' with
      | unrecognised h' => have := classified_unique hs1 h' h; cases this
      | blank h' => have := classified_unique hs1 h' h; cases this; exact absurd rfl hne
      | line h' _ hr' =>
        have := classified_unique hs1 h' h
        cases this
        cases h with
        | blank => exact absurd rfl hne
        | keyword h => exact absurd h (hs _ _ _)
        | continuation h => exact absurd h (hs _ _ _)
        | comment => exact .comment (ih hr hr')
  | @quoted s s' m k raw raw' rs rs' hq ht hq' he _ ih =>
    have hs1 := hn s (by simp)
    have hs1' := hn' s' (by simp)
    have ih := fun {n l l'} => @ih (fun s hs => hn s (by simp [hs])) (fun s hs => hn' s (by simp [hs])) n l l'
    have ht' : startsTilde (m.getD []) = false := by
      simp only [Tilde] at ht
      simp [startsTilde, ht]
    have hm : ('|' ∈ '~' :: m.getD []) ↔ '|' ∈ m.getD [] := by simp
    cases k with
    | none =>
      have k1 : Classified s n _ := .continuation hq
      have k2 : Classified s' n _ := .continuation hq'
      cases hl with
      | unrecognised h => have := classified_unique hs1 h k1; cases this
      | blank h => have := classified_unique hs1 h k1; cases this
      | line h _ hr =>
        have := classified_unique hs1 h k1
        cases this
        cases hl' with
        | unrecognised h => have := classified_unique hs1' h k2; cases this
        | blank h => have := classified_unique hs1' h k2; cases this
        | line h _ hr' =>
          have := classified_unique hs1' h k2
          cases this
          rw [he]
          exact .continuation (ih hr hr')
    | some k =>
      have k1 : Classified s n _ := .keyword hq
      have k2 : Classified s' n _ := .keyword hq'
      cases hl with
      | unrecognised h => have := classified_unique hs1 h k1; cases this
      | blank h => have := classified_unique hs1 h k1; cases this
      | line h _ hr =>
        have := classified_unique hs1 h k1
        cases this
        cases hl' with
        | unrecognised h => have := classified_unique hs1' h k2; cases this
        | blank h => have := classified_unique hs1' h k2; cases this
        | line h _ hr' =>
          have := classified_unique hs1' h k2
          cases this
          have e : taggedKeyword (some ('~' :: m.getD [])) k = taggedKeyword m k := by
            unfold taggedKeyword
            simp only [Option.getD_some]
            by_cases hx : '|' ∈ m.getD []
            · rw [if_pos hx, if_pos (hm.mpr hx)]
            · rw [if_neg hx, if_neg (fun h => hx (hm.mp h))]
          rw [he, e]
          exact .message ht' (ih hr hr')

end Verif
