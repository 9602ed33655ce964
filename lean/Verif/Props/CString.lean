import Verif.Spec.CString
import Verif.Lemmas.Texts
import Verif.Props.Lines

/-! C84: the quoted texts of PO files and the string literals of C. -/

namespace Verif
open Spec

theorem five_escape {c : Char} {s : Str} : FiveEscapes ('\\' :: c :: s) ↔ c ∈ ['n', 'r', 't', '"', '\\'] ∧ FiveEscapes s := by
  constructor
  · intro h
    cases h with
    | char h1 => exact absurd rfl h1
    | escape h1 h2 => exact ⟨h1, h2⟩
  · exact fun h => .escape h.1 h.2

theorem five_char {c : Char} {s : Str} (hc : c ≠ '\\') : FiveEscapes (c :: s) ↔ FiveEscapes s := by
  constructor
  · intro h
    cases h with
    | char _ h2 => exact h2
    | escape => exact absurd rfl hc
  · exact .char hc

theorem unesc_char {c : Char} {s : Str} (hc : c ≠ '\\') : unesc (c :: s) = c :: unesc s :=
  unesc_other (by rintro d cs' rfl; exact absurd rfl hc)

/-- A character after a backslash that makes no escape of the reader. -/
theorem unesc_unknown {c : Char} {s : Str} (hc : c ∉ ['n', 'r', 't', '"', '\\']) : unesc ('\\' :: c :: s) = '\\' :: c :: unesc s := by
  have hb : isEscChar c = false := by simpa [isEscChar, and_assoc, and_comm, and_left_comm] using hc
  rw [unesc_other (by intro d cs' _ h; cases h; exact hb), unesc_char (by rintro rfl; simp at hc)]

/-- One of the five escapes. -/
theorem unesc_known {c : Char} {b : UInt8} (hb : (c, b) ∈ simpleEscapes) (hc : c ∈ ['n', 'r', 't', '"', '\\']) :
    ∃ d, utf8 [d] = [b] ∧ ∀ s, unesc ('\\' :: c :: s) = d :: unesc s := by
  simp only [simpleEscapes, List.mem_cons, List.not_mem_nil, or_false, Prod.mk.injEq] at hb hc
  rcases hc with rfl | rfl | rfl | rfl | rfl <;> simp at hb <;> subst hb
  · exact ⟨'\n', rfl, fun _ => rfl⟩
  · exact ⟨'\r', rfl, fun _ => rfl⟩
  · exact ⟨'\t', rfl, fun _ => rfl⟩
  · exact ⟨'"', rfl, fun _ => rfl⟩
  · exact ⟨'\\', rfl, fun _ => rfl⟩

theorem unesc_digits {ds : Str} (h : ∀ d ∈ ds, d ≠ '\\') (s : Str) : unesc (ds ++ s) = ds ++ unesc s := by
  induction ds with
  | nil => rfl
  | cons d ds ih =>
    rw [List.cons_append, unesc_char (h d (by simp)), ih fun x hx => h x (by simp [hx])]; rfl

theorem octal_ne {c : Char} (h : IsOctal c) : c ≠ '\\' ∧ c ∉ ['n', 'r', 't', '"', '\\'] := by
  have key : ∀ d : Char, '7'.toNat < d.toNat ∨ d.toNat < '0'.toNat → c ≠ d := by
    rintro d hd rfl
    have := h.1; have := h.2
    omega
  simp only [List.mem_cons, List.not_mem_nil, or_false, not_or]
  exact ⟨key _ (by decide), key _ (by decide), key _ (by decide), key _ (by decide), key _ (by decide), key _ (by decide)⟩

theorem hex_ne {c : Char} (h : IsHex c) : c ≠ '\\' := by
  rintro rfl
  revert h
  unfold IsHex
  decide

theorem length_utf8 (s : Str) : s.length ≤ (utf8 s).length := by
  induction s with
  | nil => simp [utf8]
  | cons c s ih =>
    rw [utf8_cons, List.length_append, List.length_cons]
    have := List.length_pos_iff.mpr (encodeChar_ne_nil c)
    omega

/-- What the reader makes of a literal. -/
theorem literal_unesc {s : Str} {bs : List UInt8} (h : CLiteral s bs) :
    (∀ r, unesc (s ++ r) = unesc s ++ unesc r) ∧ bs.length ≤ (utf8 (unesc s)).length ∧ (FiveEscapes s → utf8 (unesc s) = bs) ∧
      (¬ FiveEscapes s → bs.length < (utf8 (unesc s)).length) := by
  induction h with
  | nil => exact ⟨fun r => rfl, Nat.zero_le _, fun _ => rfl, fun h => absurd .nil h⟩
  | @char c s bs h1 h2 h3 h ih =>
    obtain ⟨i1, i2, i3, i4⟩ := ih
    rw [unesc_char h1, five_char h1]
    have : utf8 (c :: unesc s) = utf8 [c] ++ utf8 (unesc s) := by rw [← utf8_append]; rfl
    rw [this]
    refine ⟨fun r => ?_, ?_, fun hf => by rw [i3 hf], fun hf => ?_⟩
    · rw [List.cons_append, unesc_char h1, i1]; rfl
    · simp only [List.length_append]; omega
    · have := i4 hf
      simp only [List.length_append]; omega
  | @simple c b s bs h1 h ih =>
    obtain ⟨i1, i2, i3, i4⟩ := ih
    by_cases hc : c ∈ ['n', 'r', 't', '"', '\\']
    · obtain ⟨d, hd, hu⟩ := unesc_known h1 hc
      have : utf8 (d :: unesc s) = b :: utf8 (unesc s) := by
        rw [show d :: unesc s = [d] ++ unesc s from rfl, utf8_append, hd]; rfl
      rw [hu, five_escape, this]
      refine ⟨fun r => ?_, ?_, fun hf => by rw [i3 hf.2], fun hf => ?_⟩
      · rw [List.cons_append, List.cons_append, hu, i1]; rfl
      · simp only [List.length_cons]; omega
      · have := i4 fun hs => hf ⟨hc, hs⟩
        simp only [List.length_cons]; omega
    · rw [unesc_unknown hc, five_escape]
      have hl : bs.length + 2 ≤ (utf8 ('\\' :: c :: unesc s)).length := by
        rw [show '\\' :: c :: unesc s = ['\\', c] ++ unesc s from rfl, utf8_append, List.length_append]
        have := length_utf8 ['\\', c]
        simp only [List.length_cons, List.length_nil] at this
        omega
      refine ⟨fun r => ?_, ?_, fun hf => absurd hf.1 hc, fun _ => ?_⟩
      · rw [List.cons_append, List.cons_append, unesc_unknown hc, i1]; rfl
      all_goals simp only [List.length_cons]; omega
  | @octal ds b s bs h1 h2 h3 h4 h5 h ih =>
    obtain ⟨i1, i2, i3, i4⟩ := ih
    obtain ⟨d, ds, rfl⟩ := List.exists_cons_of_ne_nil h1
    obtain ⟨o1, o2⟩ := octal_ne (h3 d (by simp))
    have hu : ∀ r, unesc ('\\' :: (d :: ds ++ r)) = '\\' :: (d :: ds ++ unesc r) := by
      intro r
      rw [List.cons_append, unesc_unknown o2, unesc_digits fun x hx => (octal_ne (h3 x (by simp [hx]))).1]; rfl
    rw [hu]
    have hl : bs.length + 2 ≤ (utf8 ('\\' :: (d :: ds ++ unesc s))).length := by
      rw [show '\\' :: (d :: ds ++ unesc s) = '\\' :: d :: ds ++ unesc s from rfl, utf8_append, List.length_append]
      have := length_utf8 ('\\' :: d :: ds)
      simp only [List.length_cons] at this
      omega
    refine ⟨fun r => ?_, ?_, fun hf => ?_, fun _ => ?_⟩
    · rw [List.cons_append, List.append_assoc, hu, i1]; simp
    · simp only [List.length_cons]; omega
    · rw [List.cons_append, five_escape] at hf
      exact absurd hf.1 o2
    · simp only [List.length_cons]; omega
  | @hex ds b s bs h1 h2 h3 h4 h ih =>
    obtain ⟨i1, i2, i3, i4⟩ := ih
    have hx : 'x' ∉ ['n', 'r', 't', '"', '\\'] := by decide
    have hu : ∀ r, unesc ('\\' :: 'x' :: (ds ++ r)) = '\\' :: 'x' :: (ds ++ unesc r) := by
      intro r
      rw [unesc_unknown hx, unesc_digits fun x hx => hex_ne (h2 x hx)]
    rw [hu, five_escape]
    have hl : bs.length + 2 ≤ (utf8 ('\\' :: 'x' :: (ds ++ unesc s))).length := by
      rw [show '\\' :: 'x' :: (ds ++ unesc s) = '\\' :: 'x' :: ds ++ unesc s from rfl, utf8_append, List.length_append]
      have := length_utf8 ('\\' :: 'x' :: ds)
      simp only [List.length_cons] at this
      omega
    refine ⟨fun r => ?_, ?_, fun hf => absurd hf.1 hx, fun _ => ?_⟩
    · rw [List.cons_append, List.cons_append, List.append_assoc, hu, i1]; simp
    all_goals simp only [List.length_cons]; omega

theorem literal_no_nl {s : Str} {bs : List UInt8} (h : CLiteral s bs) : '\n' ∉ s := by
  have ho : ∀ c, IsOctal c → c ≠ '\n' := by rintro c h rfl; revert h; unfold IsOctal; decide
  have hh : ∀ c, IsHex c → c ≠ '\n' := by rintro c h rfl; revert h; unfold IsHex; decide
  induction h with
  | nil => simp
  | char h1 h2 h3 h ih => simp [ih, Ne.symm h3]
  | @simple c b s bs h1 h ih =>
    have : c ≠ '\n' := by rintro rfl; simp [simpleEscapes] at h1
    simp [ih, Ne.symm this]
  | octal h1 h2 h3 h4 h5 h ih =>
    simp only [List.mem_cons, List.mem_append, not_or]
    exact ⟨by decide, fun hm => ho _ (h3 _ hm) rfl, ih⟩
  | hex h1 h2 h3 h4 h ih =>
    simp only [List.mem_cons, List.mem_append, not_or]
    exact ⟨by decide, by decide, fun hm => hh _ (h2 _ hm) rfl, ih⟩

theorem literalLine_read {k s : Str} (hk : IsKeyword k) (hs : '\n' ∉ s) (n : Nat) : parseLine (literalLine k s) n = some (.message n [] k (unesc s)) := by
  have hk' : '\n' ∉ k := fun h => by have := (keyword_chars hk _ h).2; revert this; decide
  have hq : QuotedLine (literalLine k s) none (some k) s :=
    ⟨fun m hm => (by cases hm), fun k' hk' => (by cases hk'; exact hk), [], [], [' '], [], (by decide), (by decide), (by decide), (by decide), rfl⟩
  rw [parseLine_quoted n (by simp [literalLine, hs, hk']) hq]
  rfl

theorem literalLine_clean {k s : Str} (hk : '\n' ∉ k) (hs : '\n' ∉ s) : CleanLine (literalLine k s) := by
  refine ⟨by simp [literalLine, hs, hk], ?_⟩
  rw [literalLine, show ' ' :: '"' :: (s ++ ['"']) = ' ' :: '"' :: s ++ ['"'] from rfl, ← List.append_assoc, List.getLast?_append]
  simp

/-- The entry with the id `"s"` and the translation `"t"`. -/
theorem literal_entry (env : Env) {s t : Str} (hs : '\n' ∉ s) (ht : '\n' ∉ t) (hne : unesc s ≠ []) :
    Yields (parse env (textStream [literalLine (c!"msgid") s, literalLine (c!"msgstr") t])) (noHeader env)
      (results [{ PoUnit.default with
        message := .simple (unesc s) (if unesc t = [] then none else some (unesc t))
        state := if unesc t = [] then .empty else .final }] none) := by
  have hi : items 1 ([literalLine (c!"msgid") s, literalLine (c!"msgstr") t].map Except.ok) =
      [.ok (.message 1 [] (c!"msgid") (unesc s)), .ok (.message 2 [] (c!"msgstr") (unesc t))] := by
    simp only [List.map_cons, List.map_nil, items]
    rw [literalLine_read (.inr (.inl rfl)) hs, literalLine_read (.inr (.inr (.inr (.inl rfl)))) ht]
  have hc : ∀ l ∈ [literalLine (c!"msgid") s, literalLine (c!"msgstr") t], CleanLine l := by
    intro l hl
    simp only [List.mem_cons, List.not_mem_nil, or_false] at hl
    rcases hl with rfl | rfl
    · exact literalLine_clean (by decide) hs
    · exact literalLine_clean (by decide) ht
  obtain ⟨c, x, hx⟩ := List.exists_cons_of_ne_nil hne
  cases ht : unesc t with
  | nil => exact yields_text (res := ⟨noHeader env, none, _, none⟩) hc (by rw [hi, hx, ht]; rfl)
  | cons d y => exact yields_text (res := ⟨noHeader env, none, _, none⟩) hc (by rw [hi, hx, ht]; rfl)

theorem unesc_ne_nil {s : Str} (h : s ≠ []) : unesc s ≠ [] := by
  rw [unesc.eq_def]
  split <;> first | exact List.cons_ne_nil _ _ | exact absurd rfl h

/-- **C84** Ids and translations that are string literals of C.  The reader gives the text that the literal has in C exactly if all escapes in it are
`\n`, `\r`, `\t`, `\"` or `\\`; otherwise it gives a text with more bytes. -/
theorem C84_literal (env : Env) {s t : Str} {bs bt : List UInt8} (hs : CLiteral s bs) (ht : CLiteral t bt) (hne : s ≠ []) :
    ∃ id text : Str, Yields (parse env (textStream [literalLine (c!"msgid") s, literalLine (c!"msgstr") t])) (noHeader env)
        (results [{ PoUnit.default with
          message := .simple id (if text = [] then none else some text)
          state := if text = [] then .empty else .final }] none) ∧
      (utf8 id = bs ↔ FiveEscapes s) ∧ bs.length ≤ (utf8 id).length ∧ (utf8 text = bt ↔ FiveEscapes t) ∧ bt.length ≤ (utf8 text).length := by
  obtain ⟨_, s2, s3, s4⟩ := literal_unesc hs
  obtain ⟨_, t2, t3, t4⟩ := literal_unesc ht
  refine ⟨unesc s, unesc t, literal_entry env (literal_no_nl hs) (literal_no_nl ht) (unesc_ne_nil hne), ⟨fun h => ?_, s3⟩, s2, ⟨fun h => ?_, t3⟩, t2⟩
  · refine Classical.byContradiction fun hf => ?_
    have := s4 hf
    rw [h] at this; omega
  · refine Classical.byContradiction fun hf => ?_
    have := t4 hf
    rw [h] at this; omega

/-- **C84** Two literals one after the other on one line are one string in C.  The reader does not join them: it takes the quotes and the space between
them as a part of the text. -/
theorem C84_adjacent (env : Env) {s s' t : Str} {bs bs' bt : List UInt8} (hs : CLiteral s bs) (hs' : CLiteral s' bs') (ht : CLiteral t bt)
    (hf : FiveEscapes s) (hf' : FiveEscapes s') (hft : FiveEscapes t) :
    ∃ id text : Str, Yields (parse env (textStream [literalLine (c!"msgid") (s ++ (c!"\" \"" ++ s')), literalLine (c!"msgstr") t])) (noHeader env)
        (results [{ PoUnit.default with
          message := .simple id (if text = [] then none else some text)
          state := if text = [] then .empty else .final }] none) ∧
      utf8 id = bs ++ ([34, 32, 34] ++ bs') ∧ utf8 text = bt := by
  obtain ⟨s1, _, s3, _⟩ := literal_unesc hs
  obtain ⟨_, _, s3', _⟩ := literal_unesc hs'
  obtain ⟨_, _, t3, _⟩ := literal_unesc ht
  refine ⟨unesc (s ++ (c!"\" \"" ++ s')), unesc t, literal_entry env ?_ (literal_no_nl ht) ?_, ?_, t3 hft⟩
  · simp [literal_no_nl hs, literal_no_nl hs']
  · exact unesc_ne_nil (by simp)
  · rw [s1, unesc_digits (by decide), utf8_append, utf8_append, s3 hf, s3' hf']
    rfl

/-! ### Examples -/

-- `a\tb\"`: the same text in C and here
example : CLiteral (c!"a\\tb\\\"") [97, 9, 98, 34] ∧ FiveEscapes (c!"a\\tb\\\"") :=
  ⟨.char (by decide) (by decide) (by decide) (.simple (by decide) (.char (by decide) (by decide) (by decide) (.simple (by decide) .nil))),
    .char (by decide) (.escape (by decide) (.char (by decide) (.escape (by decide) .nil)))⟩

-- `\a`, `\101b` and `\x41` are bells and letters in C; here the backslashes stay
theorem bell_literal : CLiteral (c!"\\a\\101b\\x41") [7, 65, 98, 65] :=
  .simple (by decide) (.octal (ds := c!"101") (by decide) (by decide) (by unfold IsOctal; decide) (fun h => absurd h (by decide)) (by decide)
    (.char (by decide) (by decide) (by decide) (.hex (ds := c!"41") (by decide) (by unfold IsHex; decide) (by simp) (by decide) .nil)))

example : ¬ FiveEscapes (c!"\\a\\101b\\x41") := fun h => absurd (five_escape.mp h).1 (by decide)

/-- **C84** The natural claim that quoted texts are read as string literals of C is false. -/
theorem C84_refuted : CLiteral (c!"\\a\\101b\\x41") [7, 65, 98, 65] ∧
    Yields (parse demoEnv (textStream [literalLine (c!"msgid") (c!"\\a\\101b\\x41"), literalLine (c!"msgstr") (c!"")])) (noHeader demoEnv)
      (results [{ PoUnit.default with message := .simple (c!"\\a\\101b\\x41") none }] none) :=
  ⟨bell_literal, literal_entry demoEnv (by decide) (by decide) (by decide)⟩

theorem tab_literal : CLiteral (c!"a\\tb\\\"") [97, 9, 98, 34] ∧ FiveEscapes (c!"a\\tb\\\"") :=
  ⟨.char (by decide) (by decide) (by decide) (.simple (by decide) (.char (by decide) (by decide) (by decide) (.simple (by decide) .nil))),
    .char (by decide) (.escape (by decide) (.char (by decide) (.escape (by decide) .nil)))⟩

example := C84_literal demoEnv bell_literal tab_literal.1 (by decide)
example := C84_adjacent demoEnv tab_literal.1 tab_literal.1 tab_literal.1 tab_literal.2 tab_literal.2 tab_literal.2

end Verif
