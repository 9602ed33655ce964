import Verif.Lemmas.Stream

/-! UTF-8 and line splitting. -/

namespace Verif
open Spec

theorem mem_encodeChar {c : Char} {b : UInt8} (h : b ∈ String.utf8EncodeChar c) : b.toNat = c.toNat ∧ c.toNat < 128 ∨ 128 ≤ b.toNat := by
  unfold String.utf8EncodeChar at h
  have hc : c.val.toNat = c.toNat := rfl
  have ub : ∀ x : Nat, (UInt8.ofNat x).toNat = x % 256 := fun x => by simp
  simp only [hc] at h
  split at h
  · left
    simp only [List.mem_singleton] at h
    subst h
    rw [ub]; omega
  · right
    split at h
    · simp only [List.mem_cons, List.not_mem_nil, or_false] at h
      rcases h with rfl | rfl <;> rw [ub] <;> omega
    · split at h
      · simp only [List.mem_cons, List.not_mem_nil, or_false] at h
        rcases h with rfl | rfl | rfl <;> rw [ub] <;> omega
      · simp only [List.mem_cons, List.not_mem_nil, or_false] at h
        rcases h with rfl | rfl | rfl | rfl <;> rw [ub] <;> omega

theorem nl_mem_utf8 {s : Str} (h : (10 : UInt8) ∈ utf8 s) : '\n' ∈ s := by
  unfold utf8 at h
  rw [List.mem_flatMap] at h
  obtain ⟨c, hc, hb⟩ := h
  have := mem_encodeChar hb
  have h10 : (10 : UInt8).toNat = 10 := rfl
  rw [h10] at this
  have : c = '\n' := by
    apply Char.toNat_inj.mp
    show c.toNat = 10
    omega
  rwa [this] at hc

theorem utf8_nl : String.utf8EncodeChar '\n' = [10] := by decide

theorem splitNl_line {a : List UInt8} (h : (10 : UInt8) ∉ a) (b : List UInt8) : splitNl (a ++ 10 :: b) = some (a ++ [10], b) := by
  induction a with
  | nil => simp [splitNl]
  | cons x a ih =>
    simp only [List.mem_cons, not_or] at h
    rw [List.cons_append, splitNl, if_neg (fun e => h.1 e.symm), ih h.2]
    rfl

theorem splitNl_none {a : List UInt8} (h : (10 : UInt8) ∉ a) : splitNl a = none := by
  induction a with
  | nil => rfl
  | cons x a ih =>
    simp only [List.mem_cons, not_or] at h
    rw [splitNl, if_neg (fun e => h.1 e.symm), ih h.2]
    rfl

theorem rawLines_line {l : Str} (h : '\n' ∉ l) (b : List UInt8) (f : Option Nat) :
    rawLines (utf8 l ++ 10 :: b, f) = .ok (chomp (l ++ ['\n'])) :: rawLines (b, f) := by
  rw [rawLines_eq, splitNl_line (fun hm => h (nl_mem_utf8 hm))]
  simp only
  have : utf8 l ++ [10] = utf8 (l ++ ['\n']) := by rw [utf8_append]; simp [utf8, utf8_nl]
  rw [this, lineText_code, decodeUtf8_utf8]

/-- A terminated clean line, followed by anything. -/
theorem rawLines_lf {l : Str} (h : CleanLine l) (b : List UInt8) (f : Option Nat) :
    rawLines (utf8 l ++ 10 :: b, f) = .ok l :: rawLines (b, f) := by
  rw [rawLines_line h.1, chomp_lf h.2]

theorem rawLines_crlf {l : Str} (h : '\n' ∉ l) (b : List UInt8) (f : Option Nat) :
    rawLines (utf8 l ++ 13 :: 10 :: b, f) = .ok l :: rawLines (b, f) := by
  have e : utf8 l ++ 13 :: 10 :: b = utf8 (l ++ ['\r']) ++ 10 :: b := by
    rw [utf8_append]; simp [utf8, show String.utf8EncodeChar '\r' = [13] from by decide]
  rw [e, rawLines_line (by simp [h])]
  have : l ++ ['\r'] ++ ['\n'] = l ++ ['\r', '\n'] := by simp
  rw [this, chomp_crlf]

theorem rawLines_rendering {ls : List Str} {t : Str} (h : Rendering ls t) :
    rawLines (utf8 t, none) = ls.map .ok := by
  induction h with
  | nil => rfl
  | @last l hne hl =>
    rw [rawLines_eq]
    simp only
    rw [splitNl_none (fun hm => hl (nl_mem_utf8 hm))]
    have hne' : utf8 l ≠ [] := by
      intro h0
      have := decodeUtf8_utf8 l
      rw [h0] at this
      have h2 := decodeUtf8_utf8 []
      have h3 : (utf8 [] : List UInt8) = [] := rfl
      rw [h3] at h2
      rw [h2] at this
      exact hne (by simpa using this.symm)
    simp only [hne', if_false]
    rw [lineText_code]
    rw [decodeUtf8_utf8]
    simp [chomp_no_nl hl]
  | @lf l ls t hl _ ih =>
    rw [utf8_append, utf8_cons, utf8_nl, List.singleton_append, rawLines_lf hl, ih]
    rfl
  | @crlf l ls t hl _ ih =>
    rw [utf8_append, utf8_cons, utf8_cons, utf8_nl, show String.utf8EncodeChar '\r' = [13] from by decide,
      List.singleton_append, List.singleton_append, rawLines_crlf hl, ih]
    rfl

end Verif
