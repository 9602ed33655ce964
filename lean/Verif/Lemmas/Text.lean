import Verif.Lemmas.ValueList
import Verif.Model.Text
import Verif.Spec.Entry

/-! Trimming and splitting of texts. -/

namespace Verif
open Spec

theorem splitP_ne_nil (p : Char → Bool) (s : Str) : splitP p s ≠ [] := by
  cases s with
  | nil => simp [splitP]
  | cons c cs =>
    rw [splitP]
    split
    · simp
    · split <;> simp

theorem splitP_free {p : Char → Bool} {l : Str} (h : ∀ c ∈ l, p c = false) : splitP p l = [l] := by
  induction l with
  | nil => rfl
  | cons c l ih =>
    rw [splitP, if_neg (by rw [h c (by simp)]; simp), ih (fun x hx => h x (List.mem_cons_of_mem _ hx))]

theorem splitP_append {p : Char → Bool} {l : Str} {c : Char} {t : Str} (h : ∀ c ∈ l, p c = false) (hc : p c = true) :
    splitP p (l ++ c :: t) = l :: splitP p t := by
  induction l with
  | nil => rw [List.nil_append, splitP, if_pos hc]
  | cons x l ih =>
    rw [List.cons_append, splitP, if_neg (by rw [h x (by simp)]; simp), ih (fun x hx => h x (List.mem_cons_of_mem _ hx))]

theorem dropWhile_head (s : Str) (c : Char) (h : (s.dropWhile isWhite).head? = some c) : isWhite c = false := by
  induction s with
  | nil => cases h
  | cons x s ih =>
    rw [List.dropWhile_cons] at h
    split at h
    · exact ih h
    · rename_i hx
      cases h
      simpa using hx

theorem trim_trimmed (s : Str) : Trimmed (trim s) := by
  refine ⟨?_, trimEnd_last _⟩
  intro c hc
  obtain ⟨b, _, hb⟩ := trimEnd_split (trimStart s)
  have : (trimStart s).head? = some c := by
    rw [hb, List.head?_append]
    rw [show trimEnd (trimStart s) = trim s from rfl, hc]
    rfl
  exact dropWhile_head s c this

theorem dropWhile_text {s : Str} (h : ∀ c, s.head? = some c → isWhite c = false) : s.dropWhile isWhite = s := by
  cases s with
  | nil => rfl
  | cons c s => rw [List.dropWhile_cons, if_neg (by rw [h c rfl]; simp)]

/-- `trim` removes the white space at the ends. -/
theorem stripped_iff {s t : Str} : Stripped s t ↔ t = trim s := by
  constructor
  · rintro ⟨⟨h1, h2⟩, a, b, ha, hb, rfl⟩
    have key : trim (a ++ (t ++ b)) = t := by
      unfold trim
      rw [trimStart_append ha]
      cases t with
      | nil =>
        rw [List.nil_append, show b = b ++ [] by simp, trimStart_append hb]
        rfl
      | cons c t =>
        rw [List.cons_append, trimStart_solid (h1 c rfl), ← List.cons_append, trimEnd_append_white hb, trimEnd_of_last h2]
    exact key.symm
  · rintro rfl
    refine ⟨trim_trimmed s, s.takeWhile isWhite, ?_⟩
    obtain ⟨b, hb, he⟩ := trimEnd_split (trimStart s)
    refine ⟨b, ?_, hb, ?_⟩
    · intro c hc
      have := List.all_takeWhile (p := isWhite) (l := s)
      rw [List.all_eq_true] at this
      exact this c hc
    · rw [trim, ← he]
      exact List.takeWhile_append_dropWhile.symm

/-- `split` gives the pieces between the separators. -/
theorem cut_iff {p : Char → Bool} {s : Str} {ps : List Str} : Cut (fun c => p c = true) s ps ↔ ps = splitP p s := by
  have key : ∀ {s ps}, Cut (fun c => p c = true) s ps → ps = splitP p s := by
    intro s ps h
    induction h with
    | last h => rw [splitP_free fun c hc => by simpa using h c hc]
    | cons h hc _ ih => rw [splitP_append (fun c hc => by simpa using h c hc) hc, ← ih]
  refine ⟨key, ?_⟩
  rintro rfl
  induction s with
  | nil => exact .last (by simp)
  | cons c s ih =>
    rw [splitP]
    split
    · rename_i hc
      exact .cons (p := []) (by simp) hc ih
    · rename_i hc
      generalize splitP p s = ps at ih
      cases ih with
      | last h => exact .last (by simpa using ⟨by simpa using hc, by simpa using h⟩)
      | cons h hd ih => exact .cons (p := c :: _) (by simpa using ⟨by simpa using hc, by simpa using h⟩) hd ih

theorem strip_eq (s : Str) : strip s = trim s := by
  have he : ∃ t, Stripped s t := ⟨_, stripped_iff.mpr rfl⟩
  unfold strip
  rw [dif_pos he]
  exact stripped_iff.mp he.choose_spec

theorem cut_eq (p : Char → Bool) (s : Str) : cut (fun c => p c = true) s = splitP p s := by
  have he : ∃ ps, Cut (fun c => p c = true) s ps := ⟨_, cut_iff.mpr rfl⟩
  unfold cut
  rw [dif_pos he]
  exact cut_iff.mp he.choose_spec

theorem flagItems_eq (c : Char × Str) : flagItems c = if c.1 = ',' then (splitP (· == ',') c.2).map trim else [] := by
  unfold flagItems
  rw [← cut_eq, show strip = trim from funext strip_eq]
  simp

theorem locationItems_eq (c : Char × Str) : locationItems c = if c.1 = ':' then (splitP isWhite c.2).filter (fun w => w ≠ []) else [] := by
  unfold locationItems
  rw [← cut_eq]

theorem isPlural_iff (m : Message) : m.isPlural = true ↔ ∃ p, m = .plural p := by
  cases m <;> simp [Message.isPlural]

theorem line_eq (ln : PoLine) : ln.line = lineNumber ln := by cases ln <;> rfl

end Verif
