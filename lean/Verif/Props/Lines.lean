import Verif.Lemmas.ParseLine

/-! Properties C06, C07, C08, C09, C12: single lines and strings. -/

namespace Verif
open Spec

theorem dropWhile_white_append {w : Str} (hw : White w) (x : Str) : (w ++ x).dropWhile isWhite = x.dropWhile isWhite := by
  induction w with
  | nil => rfl
  | cons c w ih =>
    rw [List.cons_append, List.dropWhile_cons, if_pos (hw c (by simp)), ih fun d hd => hw d (by simp [hd])]

theorem hash_decomp {line : Str} {r : Str} : line.dropWhile isWhite = '#' :: r ↔ ∃ w, White w ∧ line = w ++ '#' :: r := by
  constructor
  · intro h
    refine ⟨line.takeWhile isWhite, fun c hc => List.all_eq_true.mp List.all_takeWhile c hc, ?_⟩
    rw [← h, List.takeWhile_append_dropWhile]
  · rintro ⟨w, hw, rfl⟩
    rw [dropWhile_white_append hw, List.dropWhile_cons, if_neg (by decide)]

/-- **C06.** Every line is classified exactly as the line grammar says. -/
theorem C06_line_classification (line : Str) (n : Nat) (hl : '\n' ∉ line) (x : Option PoLine) :
    parseLine line n = x ↔ Classified line n x := by
  have hsound : ∀ y, Classified line n y → parseLine line n = y := by
    rintro y (hb | hk | hc | ⟨hw, rfl, hq⟩ | ⟨hb, hq, hh⟩)
    · exact parseLine_blank n hb
    · rw [parseLine_quoted n hl hk]; rfl
    · rw [parseLine_quoted n hl hc]; rfl
    · exact parseLine_comment n hl hq (hash_decomp.mpr ⟨_, hw, rfl⟩)
    · refine parseLine_none n hl hb hq fun r hr => ?_
      obtain ⟨w, hw, h⟩ := hash_decomp.mp hr
      exact hh w r hw h
  constructor
  · rintro rfl
    have : ∃ y, Classified line n y := by
      by_cases hb : White line
      · exact ⟨_, .blank hb⟩
      · by_cases hq : ∃ m k raw, QuotedLine line m k raw
        · obtain ⟨m, k, raw, hq⟩ := hq
          cases k with
          | none => exact ⟨_, .continuation hq⟩
          | some k => exact ⟨_, .keyword hq⟩
        · have hq' : ∀ m k raw, ¬ QuotedLine line m k raw := fun m k raw h => hq ⟨m, k, raw, h⟩
          by_cases hh : ∃ w r, White w ∧ line = w ++ '#' :: r
          · obtain ⟨w, r, hw, h⟩ := hh
            exact ⟨_, .comment hw h hq'⟩
          · exact ⟨_, .unrecognised hb hq' fun w r hw h => hh ⟨w, r, hw, h⟩⟩
    obtain ⟨y, hy⟩ := this
    rw [hsound y hy]
    exact hy
  · exact hsound x

/-- The classes are exclusive: a line has exactly one classification. -/
theorem C06_unique (line : Str) (n : Nat) (hl : '\n' ∉ line) : ∃ x, Classified line n x ∧ ∀ y, Classified line n y → y = x :=
  ⟨parseLine line n, (C06_line_classification line n hl _).mp rfl,
    fun y hy => ((C06_line_classification line n hl y).mpr hy).symm⟩

-- A previous-field line of an obsolete entry, with odd spacing and an escape.
example : parseLine (c!" #~| msgid_plural\t\"a\\\"b\" ") 7 =
    some (.message 7 (c!"~|") (c!"|msgid_plural") (c!"a\"b")) := by
  rw [C06_line_classification _ _ (by decide)]
  exact .keyword (m := some (c!"~|")) (k := c!"msgid_plural") (raw := c!"a\\\"b")
    ⟨by simp [IsMarker], by simp [IsKeyword], c!" ", c!" ", c!"\t", c!" ", by decide, by decide, by decide,
      by decide, by decide⟩

/-! ### C07 -/

/-- **C07 (the natural claim is refuted).** A line starting with `# ` may be a live keyword line, and may continue the string before it. -/
theorem C07_refuted (n : Nat) :
    parseLine (c!"# msgid \"x\"") n = some (.message n [] (c!"msgid") (c!"x")) ∧
    parseLine (c!"# \"x\"") n = some (.continuation n [] (c!"x")) := by
  constructor
  · rw [C06_line_classification _ _ (by decide)]
    exact .keyword (m := some []) (k := c!"msgid") (raw := c!"x")
      ⟨by simp [IsMarker], by simp [IsKeyword], [], c!" ", c!" ", [], by decide, by decide, by decide,
        by decide, by decide⟩
  · rw [C06_line_classification _ _ (by decide)]
    exact .continuation (m := some []) (raw := c!"x")
      ⟨by simp [IsMarker], by simp, [], c!" ", [], [], by decide, by decide, by decide,
        by decide, by decide⟩

/-- **C07 (what holds).** A line whose first non-blank character is `#` is a comment exactly when what follows is not
(marker) (keyword) quoted text. -/
theorem C07_comment_iff (line : Str) (n : Nat) (hl : '\n' ∉ line) :
    (∃ kind content, parseLine line n = some (.comment n kind content)) ↔
      (∃ w r, White w ∧ line = w ++ '#' :: r) ∧ ∀ m k raw, ¬ QuotedLine line m k raw := by
  constructor
  · rintro ⟨kind, content, h⟩
    rw [C06_line_classification _ _ hl] at h
    cases h with
    | comment hw h hq => exact ⟨⟨_, _, hw, h⟩, hq⟩
  · rintro ⟨⟨w, r, hw, h⟩, hq⟩
    exact ⟨_, _, (C06_line_classification _ _ hl _).mpr (.comment hw h hq)⟩

/-- **C07 (a usable sufficient condition).** A `#` line whose last non-blank character is not a double quote is always a comment. -/
theorem C07_unquoted_is_comment (w r : Str) (n : Nat) (hw : White w) (hl : '\n' ∉ w ++ '#' :: r)
    (hlast : ∀ a b, w ++ '#' :: r = a ++ '"' :: b → ¬ White b) :
    parseLine (w ++ '#' :: r) n = some (.comment n (r.head?.getD ' ') ((r.drop 1).dropWhile isWhite)) := by
  rw [C06_line_classification _ _ hl]
  refine .comment hw rfl ?_
  rintro m k raw ⟨-, -, w1, w2, w3, w4, hw1, hw2, hw3, hw4, h⟩
  refine hlast (w1 ++ (markerText m ++ (w2 ++ (k.getD [] ++ (w3 ++ '"' :: raw))))) w4 ?_ hw4
  rw [h]; simp

example : parseLine (c!" #~ msgid \"a\" b") 3 = some (.comment 3 '~' (c!"msgid \"a\" b")) := by
  refine C07_unquoted_is_comment [' '] (c!"~ msgid \"a\" b") 3 (by decide) (by decide) ?_
  intro a b h hb
  have h1 : (c!" #~ msgid \"a\" b").getLast? = (a ++ '"' :: b).getLast? := congrArg _ h
  rw [List.getLast?_append, List.getLast?_cons (a := '"')] at h1
  cases hl : b.getLast? with
  | none =>
    rw [hl, Option.getD_none, Option.some_or] at h1
    exact absurd h1 (by decide)
  | some c =>
    rw [hl] at h1
    cases h1
    exact absurd (hb _ (List.mem_of_getLast? hl)) (by decide)

/-! ### C08, C09 -/

/-- **C08.** Unescaping inverts escaping. -/
theorem C08_unescape_escape (s : Str) : unescape (esc s) = s := by rw [unescape_eq, unesc_esc_eq]

example : esc (c!"a\\n\n\"\t") = c!"a\\\\n\\n\\\"\\t" := by decide

/-- **C09.** Unescaping is the left-to-right decoding of the five escapes. -/
theorem C09_unescape_exact (s : Str) : unescape s = unesc s := unescape_eq s

-- `\\n` is a backslash and an `n`, unknown escapes and a final backslash stay.
example : unescape (c!"\\\\n\\x\\n\\") = c!"\\n\\x\n\\" := by rw [C09_unescape_exact]; decide

/-- Texts without backslash are not changed at all. -/
theorem C09_no_backslash (s : Str) (h : '\\' ∉ s) : unescape s = s := by
  rw [unescape_eq]
  induction s with
  | nil => rfl
  | cons c s ih =>
    rw [unesc_other, ih (by simp_all)]
    rintro d cs' rfl; simp at h

/-! ### C12 -/

/-- **C12.** The amount of white space around and between the parts of a keyword or continuation line does not matter. -/
theorem C12_message_spacing (m k : Option Str) (raw : Str) (w₁ w₂ w₃ w₄ v₁ v₂ v₃ v₄ : Str) (n : Nat)
    (hm : ∀ x, m = some x → IsMarker x) (hk : ∀ x, k = some x → IsKeyword x) (hraw : '\n' ∉ raw)
    (hw : White w₁ ∧ White w₂ ∧ White w₃ ∧ White w₄) (hv : White v₁ ∧ White v₂ ∧ White v₃ ∧ White v₄)
    (hwn : '\n' ∉ w₁ ++ w₂ ++ w₃ ++ w₄) (hvn : '\n' ∉ v₁ ++ v₂ ++ v₃ ++ v₄) :
    parseLine (w₁ ++ (markerText m ++ (w₂ ++ (k.getD [] ++ (w₃ ++ '"' :: (raw ++ '"' :: w₄)))))) n =
    parseLine (v₁ ++ (markerText m ++ (v₂ ++ (k.getD [] ++ (v₃ ++ '"' :: (raw ++ '"' :: v₄)))))) n := by
  have hm' : '\n' ∉ markerText m := by
    cases m with
    | none => simp [markerText]
    | some m => rcases hm m rfl with rfl | rfl | rfl | rfl <;> decide
  have hk' : '\n' ∉ k.getD [] := by
    cases k with
    | none => simp
    | some k =>
      intro h
      have := (keyword_chars (hk k rfl) _ h).2
      revert this; decide
  simp only [List.mem_append, not_or] at hwn hvn
  rw [parseLine_quoted n (by simp [hwn, hm', hk', hraw]) ⟨hm, hk, w₁, w₂, w₃, w₄, hw.1, hw.2.1, hw.2.2.1, hw.2.2.2, rfl⟩,
    parseLine_quoted n (by simp [hvn, hm', hk', hraw]) ⟨hm, hk, v₁, v₂, v₃, v₄, hv.1, hv.2.1, hv.2.2.1, hv.2.2.2, rfl⟩]

example : parseLine (c!"   #~\tmsgid \"x\"  ") 4 = parseLine (c!"#~msgid\"x\"") 4 :=
  C12_message_spacing (some (c!"~")) (some (c!"msgid")) (c!"x") (c!"   ") (c!"\t") (c!" ") (c!"  ") [] [] [] [] 4
    (by simp [IsMarker]) (by simp [IsKeyword]) (by decide) (by decide) (by decide) (by decide) (by decide)

theorem quotedLine_pad {w line : Str} (hw : White w) {m k : Option Str} {raw : Str} (h : QuotedLine line m k raw) :
    QuotedLine (w ++ line) m k raw := by
  obtain ⟨hm, hk, w1, w2, w3, w4, hw1, hw2, hw3, hw4, rfl⟩ := h
  refine ⟨hm, hk, w ++ w1, w2, w3, w4, ?_, hw2, hw3, hw4, by simp⟩
  intro c hc
  rcases List.mem_append.mp hc with hc | hc
  · exact hw c hc
  · exact hw1 c hc

theorem quotedLine_unpad {w r : Str} (hw : White w) {m k : Option Str} {raw : Str} (h : QuotedLine (w ++ '#' :: r) m k raw) :
    QuotedLine ('#' :: r) m k raw := by
  obtain ⟨hm, hk, w1, w2, w3, w4, hw1, hw2, hw3, hw4, h⟩ := h
  cases m with
  | some m =>
    simp only [markerText, List.cons_append] at h
    have := prefix_unique (p := fun c => isWhite c = true) h hw hw1 (by simp [isWhite_hash]) (by simp [isWhite_hash])
    refine ⟨hm, hk, [], w2, w3, w4, by simp [White], hw2, hw3, hw4, ?_⟩
    rw [this.2]; rfl
  | none =>
    exfalso
    have h' := congrArg (List.dropWhile isWhite) h
    rw [dropWhile_white_append hw, dropWhile_white_append hw1, markerText, List.nil_append, dropWhile_white_append hw2] at h'
    cases k with
    | none =>
      simp only [Option.getD_none, List.nil_append] at h'
      rw [dropWhile_white_append hw3] at h'
      simp [isWhite_quote, isWhite_hash] at h'
    | some k =>
      obtain ⟨k', rfl⟩ := keyword_head (hk k rfl)
      simp [isWhite_m, isWhite_hash] at h'

/-- **C12 (comments).** White space before the `#` does not matter. -/
theorem C12_comment_indent (w v r : Str) (n : Nat) (hw : White w) (hv : White v) (hwn : '\n' ∉ w) (hvn : '\n' ∉ v) (hr : '\n' ∉ r) :
    parseLine (w ++ '#' :: r) n = parseLine (v ++ '#' :: r) n := by
  have hlw : '\n' ∉ w ++ '#' :: r := by simp [hwn, hr]
  have hlv : '\n' ∉ v ++ '#' :: r := by simp [hvn, hr]
  by_cases hq : ∃ m k raw, QuotedLine ('#' :: r) m k raw
  · obtain ⟨m, k, raw, hq⟩ := hq
    rw [parseLine_quoted n hlw (quotedLine_pad hw hq), parseLine_quoted n hlv (quotedLine_pad hv hq)]
  · have hq' : ∀ m k raw, ¬ QuotedLine ('#' :: r) m k raw := fun m k raw h => hq ⟨m, k, raw, h⟩
    rw [parseLine_comment n hlw (fun m k raw h => hq' m k raw (quotedLine_unpad hw h)) (hash_decomp.mpr ⟨w, hw, rfl⟩),
      parseLine_comment n hlv (fun m k raw h => hq' m k raw (quotedLine_unpad hv h)) (hash_decomp.mpr ⟨v, hv, rfl⟩)]

example : parseLine (c!" \t #: a.c:1") 9 = parseLine (c!"#: a.c:1") 9 :=
  C12_comment_indent (c!" \t ") [] (c!": a.c:1") 9 (by decide) (by decide) (by decide) (by decide) (by decide)

end Verif
