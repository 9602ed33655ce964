import Verif.Lemmas.Change

/-! Inputs that differ in their comment lines. -/

namespace Verif
open Spec

/-- Items that differ in comment lines and line numbers. -/
inductive ReItems : Bool → List Item → List Item → Prop
  | nil {b} : ReItems b [] []
  | error {b e e' tl tl'} : SameErr e e' → ReItems b (.error e :: tl) (.error e' :: tl')
  | message {b n n' p t s l l'} : ReItems false l l' → ReItems b (.ok (.message n p t s) :: l) (.ok (.message n' p t s) :: l')
  | continuation {b n n' p s l l'} : ReItems false l l' → ReItems b (.ok (.continuation n p s) :: l) (.ok (.continuation n' p s) :: l')
  | comments {b n n' c c' s s' l l'} : ReItems true l l' → ReItems b (.ok (.comment n c s) :: l) (.ok (.comment n' c' s') :: l')
  | moreLeft {n c s l l'} : ReItems true l l' → ReItems true (.ok (.comment n c s) :: l) l'
  | moreRight {n c s l l'} : ReItems true l l' → ReItems true l (.ok (.comment n c s) :: l')

theorem ReItems.weak {l l' : List Item} (h : ReItems false l l') : ReItems true l l' := by
  cases h with
  | nil => exact .nil
  | error h => exact .error h
  | message h => exact .message h
  | continuation h => exact .continuation h
  | comments h => exact .comments h

theorem reItems_comments {b : Bool} {l l' : List Item} (h : ReItems b l l') : ReItems false (takeComments l).2 (takeComments l').2 := by
  induction h with
  | nil => exact .nil
  | error h => exact .error h
  | message h _ => exact .message h
  | continuation h _ => exact .continuation h
  | comments h ih => exact ih
  | moreLeft h ih => exact ih
  | moreRight h ih => exact ih

theorem reItems_cont {b : Bool} {p : Str} {l l' : List Item} (h : ReItems b l l') : b = false →
    (takeCont p l).1 = (takeCont p l').1 ∧ ReItems false (takeCont p l).2 (takeCont p l').2 := by
  induction h with
  | nil => exact fun _ => ⟨rfl, .nil⟩
  | error h => exact fun _ => ⟨rfl, .error h⟩
  | message h _ => exact fun _ => ⟨rfl, .message h⟩
  | comments h _ => exact fun _ => ⟨rfl, .comments h⟩
  | moreLeft h _ => intro h; cases h
  | moreRight h _ => intro h; cases h
  | @continuation b n n' q s l l' h ih =>
    intro _
    by_cases hq : q = p
    · simp only [takeCont]
      rw [if_pos hq, if_pos hq]
      obtain ⟨h1, h2⟩ := ih rfl
      exact ⟨by rw [h1], h2⟩
    · simp only [takeCont]
      rw [if_neg hq, if_neg hq]
      exact ⟨rfl, .continuation h⟩

theorem reItems_after {α : Type} (v : α) {r r' : List Item} (h : ReItems false r r') :
    Corr (ReItems false) SameButComment Eq (afterField v r) (afterField v r') := by
  cases h with
  | error he => exact ⟨.err (.same he), by simp [afterField]⟩
  | nil => exact ⟨.ok rfl, fun _ _ => .nil⟩
  | message h => exact ⟨.ok rfl, fun _ _ => .message h⟩
  | continuation h => exact ⟨.ok rfl, fun _ _ => .continuation h⟩
  | comments h => exact ⟨.ok rfl, fun _ _ => .comments h⟩

theorem reItems_msg (tag : Str) (o : Bool) : CorrE (ReItems false) SameButComment Eq (parseMsg tag o) (parseMsg tag o) := by
  intro l l' h
  rw [parseMsg_list, parseMsg_list]
  cases h with
  | nil => exact ⟨.ok rfl, fun _ _ => .nil⟩
  | error he => exact ⟨.err (.same he), by simp⟩
  | continuation h => exact ⟨.ok rfl, fun _ _ => .continuation h⟩
  | comments h => exact ⟨.ok rfl, fun _ _ => .comments h⟩
  | @message _ n n' p t s l l' h =>
    simp only
    split
    · obtain ⟨h1, h2⟩ := reItems_cont (p := p) h rfl
      rw [h1]
      exact reItems_after _ h2
    · exact ⟨.ok rfl, fun _ _ => .message h⟩

theorem reItems_expected (exp : Str) : CorrE (ReItems false) SameButComment Eq (expected exp) (expected exp) := by
  intro l l' h
  rw [expected_list, expected_list]
  cases h with
  | nil => exact ⟨.ok rfl, fun _ _ => .nil⟩
  | error he => exact ⟨.err (.same he), by simp⟩
  | continuation h => exact ⟨.err (.same rfl), by simp⟩
  | comments h => exact ⟨.err .comment, by simp⟩
  | message h => exact ⟨.err (.same rfl), by simp⟩

/-- Reading side by side what differs in comments. -/
def commentChange : Change where
  S₀ := ReItems true
  S := ReItems false
  E := SameButComment
  K := fun _ _ => True
  ob := Eq
  weak := fun h => h.weak
  comments := fun h => ⟨reItems_comments h, trivial⟩
  head := by
    intro l l' h
    cases h with
    | nil => exact .inl ⟨rfl, rfl⟩
    | error h => exact .inr (.inl ⟨_, _, _, _, rfl, rfl, .same h⟩)
    | message h => exact .inr (.inr ⟨_, _, _, _, rfl, rfl, fun _ => .same rfl, .inl ⟨_, _, _, _, _, _, _, _, rfl, rfl, rfl⟩⟩)
    | continuation h => exact .inr (.inr ⟨_, _, _, _, rfl, rfl, fun _ => .same rfl, .inr ⟨by simp, by simp⟩⟩)
    | comments h => exact .inr (.inr ⟨_, _, _, _, rfl, rfl, fun _ => .same rfl, .inr ⟨by simp, by simp⟩⟩)
  msg := by
    rintro o _ rfl tag
    exact reItems_msg tag o
  exp := reItems_expected
  set := fun _ => trivial
  fin := fun _ _ => trivial

theorem commentLine_at {s : Str} (h : CommentLine s) (n : Nat) : ∃ c t, Classified s n (some (.comment n c t)) := by
  obtain ⟨c, t, h⟩ := h
  exact ⟨c, t, classified_renumber h n⟩

theorem commentLine_items {s : Str} (h : CommentLine s) (hn : '\n' ∉ s) {n : Nat} {rs : List (Except IoErr Str)} {l : List Item}
    (hl : LineItems n (.ok s :: rs) l) : ∃ c t tl, l = .ok (.comment n c t) :: tl ∧ LineItems (n + 1) rs tl := by
  obtain ⟨c, t, hc⟩ := commentLine_at h n
  cases hl with
  | unrecognised h' => have := classified_unique hn h' hc; cases this
  | blank h' => have := classified_unique hn h' hc; cases this
  | line h' _ hr => have := classified_unique hn h' hc; cases this; exact ⟨c, t, _, rfl, hr⟩

theorem blank_items {s : Str} (h : White s) (hn : '\n' ∉ s) {n : Nat} {rs : List (Except IoErr Str)} {l : List Item}
    (hl : LineItems n (.ok s :: rs) l) : LineItems (n + 1) rs l := by
  have hb : Classified s n _ := .blank h
  cases hl with
  | unrecognised h' => have := classified_unique hn h' hb; cases this
  | blank _ h => exact h
  | line h' hne _ => have := classified_unique hn h' hb; cases this; exact absurd rfl hne

theorem recommented_items {b : Bool} {rs rs' : List (Except IoErr Str)} (h : Recommented b rs rs') (hn : ∀ s, .ok s ∈ rs → '\n' ∉ s)
    (hn' : ∀ s, .ok s ∈ rs' → '\n' ∉ s) {n n' : Nat} {l l' : List Item} (hl : LineItems n rs l) (hl' : LineItems n' rs' l') : ReItems b l l' := by
  induction h generalizing n n' l l' with
  | nil => cases hl; cases hl'; exact .nil
  | failed => cases hl; cases hl'; exact .error rfl
  | blankLeft hw _ ih => exact ih (fun s hs => hn s (by simp [hs])) hn' (blank_items hw (hn _ (List.mem_cons_self ..)) hl) hl'
  | blankRight hw _ ih => exact ih hn (fun s hs => hn' s (by simp [hs])) hl (blank_items hw (hn' _ (List.mem_cons_self ..)) hl')
  | comments hc hc' _ ih =>
    obtain ⟨c, t, tl, rfl, h1⟩ := commentLine_items hc (hn _ (List.mem_cons_self ..)) hl
    obtain ⟨c', t', tl', rfl, h2⟩ := commentLine_items hc' (hn' _ (List.mem_cons_self ..)) hl'
    exact .comments (ih (fun s hs => hn s (by simp [hs])) (fun s hs => hn' s (by simp [hs])) h1 h2)
  | moreLeft hc _ ih =>
    obtain ⟨c, t, tl, rfl, h1⟩ := commentLine_items hc (hn _ (List.mem_cons_self ..)) hl
    exact .moreLeft (ih (fun s hs => hn s (by simp [hs])) hn' h1 hl')
  | moreRight hc _ ih =>
    obtain ⟨c, t, tl, rfl, h1⟩ := commentLine_items hc (hn' _ (List.mem_cons_self ..)) hl'
    exact .moreRight (ih hn (fun s hs => hn' s (by simp [hs])) hl h1)
  | @line b s rs rs' hs _ ih =>
    have hs1 := hn s (by simp)
    have ih := fun {n n' l l'} => @ih (fun s hs => hn s (by simp [hs])) (fun s hs => hn' s (by simp [hs])) n n' l l'
    cases hl with
    | unrecognised h =>
      have h2 : Classified s n' none := classified_renumber h n'
      cases hl' with
      | unrecognised h' => exact .error rfl
      | blank h' => have := classified_unique hs1 h' h2; cases this
      | line h' => have := classified_unique hs1 h' h2; cases this
    | blank h hr =>
      have h2 : Classified s n' (some .blank) := classified_renumber h n'
      cases hl' with
      | unrecognised h' => have := classified_unique hs1 h' h2; cases this
      | blank h' hr' =>
        have := ih hr hr'
        cases b with
        | false => exact this
        | true => exact this.weak
      | line h' hne => have := classified_unique hs1 h' h2; cases this; exact absurd rfl hne
    | @line _ _ _ ln l h hne hr =>
      have h2 := classified_renumber h n'
      cases hl' with
      | unrecognised h' => have := classified_unique hs1 h' h2; cases this
      | blank h' => have := classified_unique hs1 h' h2; cases ln <;> first | exact absurd rfl hne | cases this
      | line h' _ hr' =>
        have := classified_unique hs1 h' h2
        cases ln with
        | blank => exact absurd rfl hne
        | comment k c t => exact absurd ⟨c, t, classified_renumber h 0⟩ hs
        | continuation k p t => cases this; exact .continuation (ih hr hr')
        | message k p kw t => cases this; exact .message (ih hr hr')

end Verif
