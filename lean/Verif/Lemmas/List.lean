import Verif.Model.Basic

/-! Small facts about lists. -/

namespace Verif

theorem dropWhile_eq_nil_iff' {α : Type} {p : α → Bool} {l : List α} : l.dropWhile p = [] ↔ ∀ x ∈ l, p x = true := by
  induction l with
  | nil => simp
  | cons a l ih =>
    by_cases h : p a = true
    · simp [h, ih]
    · simp [h]

theorem head?_append_of_ne_nil' {α : Type} {l m : List α} (h : l ≠ []) : (l ++ m).head? = l.head? := by
  cases l with
  | nil => exact absurd rfl h
  | cons a l => rfl

end Verif
