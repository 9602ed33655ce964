import Verif.Spec.Input

/-! Decoding of lines. -/

namespace Verif
open Spec

theorem utf8_append (a b : Str) : utf8 (a ++ b) = utf8 a ++ utf8 b := by simp [utf8]

theorem utf8_cons (c : Char) (s : Str) : utf8 (c :: s) = String.utf8EncodeChar c ++ utf8 s := by simp [utf8]

theorem decodeUtf8_utf8 (s : Str) : decodeUtf8 (utf8 s) = some s := by
  unfold decodeUtf8
  have : (utf8 s).toByteArray = s.utf8Encode := rfl
  rw [this, List.utf8Decode?_utf8Encode]
  simp

theorem toByteArray_inj {a b : List UInt8} (h : a.toByteArray = b.toByteArray) : a = b := by
  have := congrArg (fun x => x.data.toList) h
  simpa using this

/-- `decodeUtf8` accepts exactly the encodings of texts. -/
theorem decodeUtf8_eq_some {bs : List UInt8} {s : Str} : decodeUtf8 bs = some s ↔ bs = utf8 s := by
  constructor
  · intro h
    unfold decodeUtf8 at h
    rw [Option.map_eq_some_iff] at h
    obtain ⟨a, h1, h2⟩ := h
    have := ByteArray.utf8Encode_get_utf8Decode? (b := bs.toByteArray) (h := by rw [h1]; rfl)
    simp only [h1, Option.get_some] at this
    rw [h2] at this
    exact (toByteArray_inj this).symm
  · rintro rfl
    exact decodeUtf8_utf8 s

theorem chomp_lf {l : Str} (h : l.getLast? ≠ some '\r') : chomp (l ++ ['\n']) = l := by
  simp [chomp, h]

theorem chomp_crlf (l : Str) : chomp (l ++ ['\r', '\n']) = l := by
  have : l ++ ['\r', '\n'] = (l ++ ['\r']) ++ ['\n'] := by simp
  rw [this]
  simp [chomp, -List.append_assoc]

theorem chomp_no_nl {l : Str} (h : '\n' ∉ l) : chomp l = l := by
  unfold chomp
  rw [if_neg]
  intro hl
  exact h (List.mem_of_getLast? hl)

theorem chomp_text (s : Str) : LineText (utf8 s) (.ok (chomp s)) := by
  unfold chomp
  by_cases h : s.getLast? = some '\n'
  · rw [if_pos h]
    have hne : s ≠ [] := by rintro rfl; cases h
    have e : s = s.dropLast ++ ['\n'] := by
      have := List.dropLast_concat_getLast hne
      rw [List.getLast?_eq_some_getLast hne] at h
      cases h' : s.getLast hne
      · simp_all
    generalize s.dropLast = t at e
    subst e
    by_cases hr : t.getLast? = some '\r'
    · have hne : t ≠ [] := by rintro rfl; cases hr
      have e : t = t.dropLast ++ ['\r'] := by
        have := List.dropLast_concat_getLast hne
        rw [List.getLast?_eq_some_getLast hne] at hr
        simp_all
      simp only [hr, if_true]
      generalize t.dropLast = v at e
      subst e
      rw [List.append_assoc]
      exact .crlf
    · simp only [hr, if_false]
      exact .lf hr
  · rw [if_neg h]
    exact .open h

theorem utf8_inj {s t : Str} (h : utf8 s = utf8 t) : s = t := by
  have := decodeUtf8_utf8 s
  rw [h, decodeUtf8_utf8] at this
  exact (Option.some.inj this).symm

/-- The text of a line as the reader decodes it. -/
theorem lineText_iff_code {l : List UInt8} {x : Except IoErr Str} :
    LineText l x ↔ x = match decodeUtf8 l with | none => .error .invalidUtf8 | some s => .ok (chomp s) := by
  constructor
  · intro h
    cases h with
    | lf h => rw [decodeUtf8_utf8]; simp only; rw [chomp_lf h]
    | crlf => rw [decodeUtf8_utf8]; simp only; rw [chomp_crlf]
    | @«open» s h =>
      rw [decodeUtf8_utf8]; simp only
      unfold chomp
      rw [if_neg h]
    | bad h =>
      cases hd : decodeUtf8 l with
      | none => rfl
      | some s => exact absurd (decodeUtf8_eq_some.mp hd) (h s)
  · rintro rfl
    cases hd : decodeUtf8 l with
    | none => exact .bad fun s hs => by rw [hs, decodeUtf8_utf8] at hd; cases hd
    | some s =>
      rw [decodeUtf8_eq_some.mp hd]
      exact chomp_text s

theorem lineText_iff {l : List UInt8} {x : Except IoErr Str} : lineText l = x ↔ LineText l x := by
  have he : ∃ x, LineText l x := ⟨_, lineText_iff_code.mpr rfl⟩
  have hs : LineText l (lineText l) := by
    unfold lineText
    rw [dif_pos he]
    exact he.choose_spec
  constructor
  · rintro rfl; exact hs
  · intro h
    rw [lineText_iff_code.mp h, lineText_iff_code.mp hs]

theorem lineText_code (l : List UInt8) : lineText l = match decodeUtf8 l with | none => .error .invalidUtf8 | some s => .ok (chomp s) :=
  lineText_iff.mpr (lineText_iff_code.mpr rfl)

end Verif
