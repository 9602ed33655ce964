import Verif.Lemmas.Utf8
import Verif.Props.Lines

/-! The line items by the line grammar are those that the reader makes. -/

namespace Verif
open Spec

theorem byteLines_shape (bs : List UInt8) : (∀ l ∈ (byteLines bs).1, ∃ a, l = a ++ [10] ∧ (10 : UInt8) ∉ a) ∧ (10 : UInt8) ∉ (byteLines bs).2 := by
  induction bs with
  | nil => simp [byteLines]
  | cons b bs ih =>
    rw [byteLines]
    split
    · rename_i hb
      subst hb
      refine ⟨?_, ih.2⟩
      intro l hl
      rcases List.mem_cons.mp hl with rfl | hl
      · exact ⟨[], rfl, by simp⟩
      · exact ih.1 l hl
    · rename_i hb
      split
      · refine ⟨by simp, ?_⟩
        simp only [List.mem_cons, not_or]
        exact ⟨fun h => hb h.symm, ih.2⟩
      · rename_i l ls hl
        rw [hl] at ih
        refine ⟨?_, ih.2⟩
        intro l' hl'
        rcases List.mem_cons.mp hl' with rfl | hl'
        · obtain ⟨a, h1, h2⟩ := ih.1 l (by simp)
          refine ⟨b :: a, by rw [h1]; rfl, ?_⟩
          simp only [List.mem_cons, not_or]
          exact ⟨fun h => hb h.symm, h2⟩
        · exact ih.1 l' (by simp [hl'])

theorem nl_mem_utf8_of {s : Str} (h : '\n' ∈ s) : (10 : UInt8) ∈ utf8 s := by
  unfold utf8
  rw [List.mem_flatMap]
  exact ⟨'\n', h, by rw [utf8_nl]; simp⟩

theorem encodeChar_ne_nil (c : Char) : String.utf8EncodeChar c ≠ [] := by
  unfold String.utf8EncodeChar
  simp only
  split
  · simp
  · split
    · simp
    · split <;> simp

theorem lineText_nl {l : List UInt8} {s : Str} (hl : (∃ a, l = a ++ [10] ∧ (10 : UInt8) ∉ a) ∨ (10 : UInt8) ∉ l) (h : lineText l = .ok s) : '\n' ∉ s := by
  rw [lineText_code] at h
  split at h
  · cases h
  · rename_i t ht
    cases h
    rw [decodeUtf8_eq_some] at ht
    subst ht
    rcases hl with ⟨a, h1, h2⟩ | hl
    · have hne : t ≠ [] := by rintro rfl; simp [utf8] at h1
      obtain ⟨t', c, rfl⟩ : ∃ t' c, t = t' ++ [c] := ⟨t.dropLast, t.getLast hne, (List.dropLast_concat_getLast hne).symm⟩
      rw [utf8_append, utf8_cons] at h1
      have hc : c = '\n' := by
        have h3 := congrArg List.getLast? h1
        simp only [utf8, List.flatMap_nil, List.append_nil, List.getLast?_append, List.getLast?_singleton, Option.some_or] at h3
        rw [List.getLast?_eq_some_getLast (encodeChar_ne_nil c), Option.some_or, ← List.getLast?_eq_some_getLast (encodeChar_ne_nil c)] at h3
        have h4 := mem_encodeChar (List.mem_of_getLast? h3)
        have h10 : (10 : UInt8).toNat = 10 := rfl
        rw [h10] at h4
        apply Char.toNat_inj.mp
        show c.toNat = 10
        omega
      subst hc
      have h5 : utf8 t' = a := by
        simp only [utf8_nl, utf8, List.flatMap_nil, List.append_nil] at h1 ⊢
        exact List.append_cancel_right h1
      have hn : '\n' ∉ t' := fun h => h2 (h5 ▸ nl_mem_utf8_of h)
      have hd : (t' ++ ['\n']).dropLast = t' := List.dropLast_concat
      unfold chomp
      rw [if_pos (by simp), hd]
      show '\n' ∉ (if t'.getLast? = some '\r' then t'.dropLast else t')
      split
      · exact fun h => hn ((List.dropLast_subset _) h)
      · exact hn
    · have hn : '\n' ∉ t := fun h => hl (nl_mem_utf8_of h)
      rw [chomp_no_nl hn]; exact hn

theorem rawLines_no_nl {inp : List UInt8 × Option Nat} {s : Str} (h : .ok s ∈ rawLines inp) : '\n' ∉ s := by
  have hs := byteLines_shape inp.1
  unfold rawLines at h
  rcases List.mem_append.mp h with h | h
  · obtain ⟨l, hl, he⟩ := List.mem_map.mp h
    exact lineText_nl (.inl (hs.1 l hl)) he
  · split at h
    · simp at h
    · split at h
      · simp at h
      · rw [List.mem_singleton] at h
        exact lineText_nl (.inr hs.2) h.symm

theorem classify_code {s : Str} (h : '\n' ∉ s) (n : Nat) : classify s n = parseLine s n := by
  have he : ∃ x, Classified s n x := ⟨_, (C06_line_classification s n h _).mp rfl⟩
  have hs : Classified s n (classify s n) := by
    unfold classify
    rw [dif_pos he]
    exact he.choose_spec
  exact ((C06_line_classification s n h _).mpr hs).symm

theorem classify_iff {s : Str} (h : '\n' ∉ s) (n : Nat) (x : Option PoLine) : classify s n = x ↔ Classified s n x := by
  rw [classify_code h]
  exact C06_line_classification s n h x

theorem itemsOf_code {rs : List (Except IoErr Str)} (h : ∀ s, .ok s ∈ rs → '\n' ∉ s) (n : Nat) : itemsOf n rs = items n rs := by
  induction rs generalizing n with
  | nil => rfl
  | cons r rs ih =>
    have ih := ih (fun s hs => h s (List.mem_cons_of_mem _ hs))
    cases r with
    | error e => rfl
    | ok s =>
      rw [itemsOf, items, classify_code (h s (by simp)), ih]
      cases parseLine s n with
      | none => rfl
      | some p => cases p <;> rfl

theorem streamItems_code (stream : List Event) : streamItems stream = items 1 (rawLines (flatten stream)) :=
  itemsOf_code (fun _ hs => rawLines_no_nl hs) 1

end Verif
