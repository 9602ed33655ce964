import Verif.Lemmas.Determinism

/-! Where an entry ends: the two descriptions agree. -/

namespace Verif
open Spec

theorem fieldLines_cont {kw p : Str} {b : List PoLine} {v : Str} (h : FieldLines kw p b v) (n : Nat) (s : Str) :
    FieldLines kw p (b ++ [.continuation n p s]) (v ++ s) := by
  obtain ⟨m, t, cs, rfl, rfl⟩ := h
  exact ⟨m, t, cs ++ [(n, s)], by simp, by simp⟩

theorem field_cont {kw p : Str} {o : Bool} {b : List PoLine} {v : Str} (h : Field kw o b v) (hp : lastMarker b = some p) (n : Nat) (s : Str) :
    Field kw o (b ++ [.continuation n p s]) (v ++ s) := by
  obtain ⟨q, h1, h2⟩ := h
  rw [h1.lastMarker] at hp
  cases hp
  exact ⟨_, fieldLines_cont h1 n s, h2⟩

theorem values_cont {p : Str} {o : Bool} {hi lo : Nat} {b : List PoLine} {vs : List Str} (h : ValueFields o hi lo b vs) (hv : vs ≠ [])
    (hp : lastMarker b = some p) (n : Nat) (s : Str) : ∃ vs', vs' ≠ [] ∧ ValueFields o hi lo (b ++ [.continuation n p s]) vs' := by
  induction h with
  | nil => simp at hv
  | @cons lo i a v bs vs h1 h2 h3 h4 ih =>
    by_cases hvs : vs = []
    · subst hvs
      cases h4
      rw [List.append_nil] at hp
      refine ⟨[v ++ s], by simp, ?_⟩
      have := ValueFields.cons h1 h2 (field_cont h3 hp n s) .nil
      simpa using this
    · have hb := (h4.lastKeyword hvs).1
      rw [lastMarker_append hb] at hp
      obtain ⟨vs', h5, h6⟩ := ih hvs hp
      refine ⟨v :: vs', by simp, ?_⟩
      rw [List.append_assoc]
      exact .cons h1 h2 h3 h6

theorem values_more {p : Str} {o : Bool} {hi lo : Nat} {b : List PoLine} {vs : List Str} (h : ValueFields o hi lo b vs) (hv : vs ≠ []) {j : Nat}
    (hj : j < hi) (hl : ∀ i, lastKeyword b = some (valueKeyword i) → i < j) (ho : o = true ↔ Tilde p) (n : Nat) (s : Str) :
    ∃ vs', vs' ≠ [] ∧ ValueFields o hi lo (b ++ [.message n p (valueKeyword j) s]) vs' := by
  induction h with
  | nil => simp at hv
  | @cons lo i a v bs vs h1 h2 h3 h4 ih =>
    by_cases hvs : vs = []
    · subst hvs
      cases h4
      obtain ⟨q, h3', _⟩ := id h3
      have hij := hl i (by rw [List.append_nil]; exact h3'.lastKeyword)
      have hf : Field (valueKeyword j) o [.message n p (valueKeyword j) s] s := ⟨p, ⟨n, s, [], by simp, by simp⟩, ho⟩
      refine ⟨[v, s], by simp, ?_⟩
      have := ValueFields.cons h1 h2 h3 (.cons (Nat.succ_le_of_lt hij) hj hf .nil)
      simpa using this
    · obtain ⟨hb, k, _, hk⟩ := h4.lastKeyword hvs
      obtain ⟨vs', h5, h6⟩ := ih hvs (fun i hi' => hl i (by rw [lastKeyword_append hk, ← hk]; exact hi'))
      refine ⟨v :: vs', by simp, ?_⟩
      rw [List.append_assoc]
      exact .cons h1 h2 h3 h6

/-- A line that belongs to the translation part of an entry continues the entry. -/
theorem entry_more {forms : Option PluralForms} {block : List PoLine} {u : PoUnit} {ln : PoLine} (h : Entry forms block u)
    (hn : ¬ EndsBefore forms u block (some ln)) : ∃ u', Entry forms (block ++ [ln]) u' := by
  obtain ⟨cs, b1, b2, b3, b4, b5, b6, b7, pid, ppl, id, idPl, rfl, f1, f2, f3, g3, f4, f5, f6, f7, _⟩ := h
  have key : ∃ m', TextFields forms u.obsolete id idPl (b7 ++ [ln]) m' := by
    obtain ⟨hne, k, hk⟩ := TextFields_ne_nil f7
    simp only [← List.append_assoc] at hn
    cases ln with
    | blank => exact absurd trivial hn
    | comment n c s => exact absurd trivial hn
    | continuation n p s =>
      simp only [EndsBefore, ne_eq, Decidable.not_not] at hn
      rw [lastMarker_append hne] at hn
      generalize hm : u.message = m at f7
      cases f7 with
      | simple f => exact ⟨_, .simple (field_cont f hn n s)⟩
      | plural f hv =>
        obtain ⟨vs', h1, h2⟩ := values_cont f hv hn n s
        exact ⟨_, .plural h2 h1⟩
    | message n p t s =>
      simp only [EndsBefore] at hn
      rw [lastKeyword_append hk] at hn
      generalize hm : u.message = m at f7 hn
      cases f7 with
      | simple f => simp at hn
      | plural f hv =>
        simp only [Message.plural.injEq, exists_eq', true_implies] at hn
        simp only [Classical.not_forall] at hn
        obtain ⟨ho, j, hj, rfl, hx⟩ := hn
        obtain ⟨vs', h1, h2⟩ := values_more f hv hj (fun i hi => by
          by_cases hij : i < j
          · exact hij
          · exact absurd ⟨i, by omega, hk.symm.trans hi⟩ hx) ho n s
        exact ⟨_, .plural h2 h1⟩
  obtain ⟨m', f7'⟩ := key
  obtain ⟨u', hu', _⟩ := entry_of_fields cs f1 f2 f3 g3 f4 f5 f6 f7'
  exact ⟨u', by simpa using hu'⟩

/-- **Where an entry ends.** -/
theorem ends_iff {forms : Option PluralForms} {block : List PoLine} {u : PoUnit} {rest : List Item} (h : Entry forms block u) :
    EndsHere forms block rest ↔ EntryEnd forms u block rest := by
  constructor
  · rintro (rfl | ⟨ln, tl, rfl, hp⟩)
    · exact ⟨by simp [NoErr], trivial⟩
    · refine ⟨by simp [NoErr], ?_⟩
      apply Classical.byContradiction
      intro hn
      exact hp (.inr (.inr (entry_more h hn)))
  · intro he
    have := entry_complete (first := true) h he (by simp)
    exact endsHere_of_rest this he.1

end Verif
