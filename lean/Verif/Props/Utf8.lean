import Verif.Spec.Utf8
import Verif.Props.Chars

/-! C72: which bytes are texts. -/

namespace Verif
open Spec

theorem sequence_encode (c : Char) : Sequence (String.utf8EncodeChar c) c.toNat := by
  unfold String.utf8EncodeChar
  have hc : c.val.toNat = c.toNat := rfl
  have hv : c.toNat < 0xd800 ∨ 0xdfff < c.toNat ∧ c.toNat < 0x110000 := c.valid
  have ub : ∀ x : Nat, (UInt8.ofNat x).toNat = x % 256 := fun x => by simp
  simp only [hc]
  generalize c.toNat = v at hv
  split
  · have e : v = (UInt8.ofNat v).toNat := by rw [ub]; omega
    have := Sequence.row1 (a := UInt8.ofNat v) ⟨by omega, by omega⟩
    rwa [← e] at this
  · split
    · have h1 := ub (v / 64 % 32 + 192)
      have h2 := ub (v % 64 + 128)
      have := Sequence.row2 (a := UInt8.ofNat (v / 64 % 32 + 192)) (b := UInt8.ofNat (v % 64 + 128)) ⟨by omega, by omega⟩ ⟨by omega, by omega⟩
      rwa [show ((UInt8.ofNat (v / 64 % 32 + 192)).toNat - 0xC0) * 64 + ((UInt8.ofNat (v % 64 + 128)).toNat - 0x80) = v from by omega] at this
    · split
      · have h1 := ub (v / 4096 % 16 + 224)
        have h2 := ub (v / 64 % 64 + 128)
        have h3 := ub (v % 64 + 128)
        generalize UInt8.ofNat (v / 4096 % 16 + 224) = a at *
        generalize UInt8.ofNat (v / 64 % 64 + 128) = b at *
        generalize UInt8.ofNat (v % 64 + 128) = d at *
        have e : (a.toNat - 0xE0) * 4096 + (b.toNat - 0x80) * 64 + (d.toNat - 0x80) = v := by omega
        rw [← e]
        by_cases c1 : a.toNat = 0xE0
        · exact .row3 ⟨by omega, by omega⟩ ⟨by omega, by omega⟩ ⟨by omega, by omega⟩
        · by_cases c2 : a.toNat < 0xED
          · exact .row4 ⟨by omega, by omega⟩ ⟨by omega, by omega⟩ ⟨by omega, by omega⟩
          · by_cases c3 : a.toNat = 0xED
            · exact .row5 ⟨by omega, by omega⟩ ⟨by omega, by omega⟩ ⟨by omega, by omega⟩
            · exact .row6 ⟨by omega, by omega⟩ ⟨by omega, by omega⟩ ⟨by omega, by omega⟩
      · have h1 := ub (v / 262144 % 8 + 240)
        have h2 := ub (v / 4096 % 64 + 128)
        have h3 := ub (v / 64 % 64 + 128)
        have h4 := ub (v % 64 + 128)
        generalize UInt8.ofNat (v / 262144 % 8 + 240) = a at *
        generalize UInt8.ofNat (v / 4096 % 64 + 128) = b at *
        generalize UInt8.ofNat (v / 64 % 64 + 128) = d at *
        generalize UInt8.ofNat (v % 64 + 128) = f at *
        have e : (a.toNat - 0xF0) * 262144 + (b.toNat - 0x80) * 4096 + (d.toNat - 0x80) * 64 + (f.toNat - 0x80) = v := by omega
        rw [← e]
        by_cases c1 : a.toNat = 0xF0
        · exact .row7 ⟨by omega, by omega⟩ ⟨by omega, by omega⟩ ⟨by omega, by omega⟩ ⟨by omega, by omega⟩
        · by_cases c2 : a.toNat < 0xF4
          · exact .row8 ⟨by omega, by omega⟩ ⟨by omega, by omega⟩ ⟨by omega, by omega⟩ ⟨by omega, by omega⟩
          · exact .row9 ⟨by omega, by omega⟩ ⟨by omega, by omega⟩ ⟨by omega, by omega⟩ ⟨by omega, by omega⟩

/-- The code point determines the bytes. -/
theorem sequence_inj {x y : List UInt8} {v : Nat} (h : Sequence x v) (h' : Sequence y v) : x = y := by
  have e : ∀ a b : UInt8, a.toNat = b.toNat → a = b := fun a b => UInt8.toNat_inj.mp
  generalize hv : v = w at h'
  cases h <;> cases h' <;> simp only [Byte] at * <;> first
    | (exfalso; omega)
    | (simp only [List.cons.injEq, and_true]; refine ⟨?_, ?_, ?_, ?_⟩ <;> (apply e; omega))
    | (simp only [List.cons.injEq, and_true]; refine ⟨?_, ?_, ?_⟩ <;> (apply e; omega))
    | (simp only [List.cons.injEq, and_true]; refine ⟨?_, ?_⟩ <;> (apply e; omega))
    | (simp only [List.cons.injEq, and_true]; apply e; omega)

theorem wellFormed_iff {bs : List UInt8} {s : Str} : WellFormed bs s ↔ bs = utf8 s := by
  constructor
  · intro h
    induction h with
    | nil => rfl
    | cons hx _ ih => rw [utf8_cons, ← ih, sequence_inj hx (sequence_encode _)]
  · rintro rfl
    induction s with
    | nil => exact .nil
    | cons c s ih => rw [utf8_cons]; exact .cons (sequence_encode c) ih

/-! ### Cutting encoded texts at ASCII bytes -/

theorem encode_ascii {c : Char} (h : c.toNat < 128) : String.utf8EncodeChar c = [UInt8.ofNat c.toNat] := by
  unfold String.utf8EncodeChar
  have hc : c.val.toNat = c.toNat := rfl
  simp only [hc]
  rw [if_pos (show c.toNat ≤ 0x7f by omega)]

theorem encode_cases (c : Char) : (c.toNat < 128 ∧ String.utf8EncodeChar c = [UInt8.ofNat c.toNat]) ∨ ∀ b ∈ String.utf8EncodeChar c, 128 ≤ b.toNat := by
  by_cases h : c.toNat < 128
  · exact .inl ⟨h, encode_ascii h⟩
  · exact .inr fun b hb => (mem_encodeChar hb).resolve_left fun h' => h h'.2

/-- Where an ASCII byte stands in an encoded text, its character stands in the text. -/
theorem utf8_cut {a r : List UInt8} {b : UInt8} {t : Str} (hb : b.toNat < 128) (h : utf8 t = a ++ b :: r) :
    ∃ s c u, a = utf8 s ∧ c.toNat = b.toNat ∧ r = utf8 u ∧ t = s ++ c :: u := by
  induction t generalizing a with
  | nil => cases a <;> cases h
  | cons d t ih =>
    rw [utf8_cons] at h
    rcases encode_cases d with ⟨hd, he⟩ | hd
    · rw [he, List.singleton_append] at h
      cases a with
      | nil =>
        obtain ⟨h1, h2⟩ := List.cons.inj h
        refine ⟨[], d, t, rfl, ?_, h2.symm, rfl⟩
        rw [← h1]; simp; omega
      | cons x a =>
        obtain ⟨h1, h2⟩ := List.cons.inj h
        obtain ⟨s, c, u, rfl, h4, h5, rfl⟩ := ih h2
        exact ⟨d :: s, c, u, by rw [utf8_cons, he, h1]; rfl, h4, h5, rfl⟩
    · rcases List.append_eq_append_iff.mp h with ⟨z, h1, h2⟩ | ⟨z, h1, h2⟩
      · obtain ⟨s, c, u, rfl, h4, h5, rfl⟩ := ih h2
        exact ⟨d :: s, c, u, by rw [utf8_cons, h1], h4, h5, rfl⟩
      · cases z with
        | nil =>
          obtain ⟨s, c, u, h3, h4, h5, rfl⟩ := ih (a := []) (by simpa using h2.symm)
          have : s = [] := by
            cases s with
            | nil => rfl
            | cons c s => rw [utf8_cons] at h3; exact absurd (List.append_eq_nil_iff.mp h3.symm).1 (encodeChar_ne_nil c)
          subst this
          exact ⟨[d], c, u, by rw [utf8_cons, h1]; simp [utf8], h4, h5, rfl⟩
        | cons x z =>
          have hx : b = x := (List.cons.inj h2).1
          have := hd b (by rw [h1, hx]; simp)
          omega

theorem toNat_eq {c : Char} {d : Char} {b : UInt8} (h : c.toNat = b.toNat) (hd : b.toNat = d.toNat) : c = d := Char.toNat_inj.mp (h.trans hd)

/-- The complete lines of an encoded text, and the rest, are encoded texts. -/
theorem byteLines_utf8 (t : Str) : (∀ l ∈ (byteLines (utf8 t)).1, ∃ s, l = utf8 s) ∧ ∃ s, (byteLines (utf8 t)).2 = utf8 s := by
  by_cases h : (10 : UInt8) ∈ utf8 t
  · obtain ⟨a, r, h1, h2⟩ := List.eq_append_cons_of_mem h
    obtain ⟨s, c, u, h3, h4, h5, h6⟩ := utf8_cut (b := 10) (by decide) h1
    have hc : c = '\n' := toNat_eq h4 rfl
    have ih := byteLines_utf8 u
    rw [byteLines_eq, h1, splitNl_line h2]
    simp only
    rw [h5]
    refine ⟨?_, ih.2⟩
    intro l hl
    rcases List.mem_cons.mp hl with rfl | hl
    · exact ⟨s ++ ['\n'], by rw [utf8_append, h3]; simp [utf8, utf8_nl]⟩
    · exact ih.1 l hl
  · rw [byteLines_eq, splitNl_none h]
    exact ⟨by simp, t, rfl⟩
termination_by t.length
decreasing_by
  subst h6
  simp only [List.length_append, List.length_cons]
  omega

theorem byteLines_join (bs : List UInt8) : (byteLines bs).1.flatten ++ (byteLines bs).2 = bs := by
  induction bs with
  | nil => rfl
  | cons b bs ih =>
    rw [byteLines]
    split
    · simpa using ih
    · cases h : (byteLines bs).1 with
      | nil => rw [h] at ih; simpa using ih
      | cons l ls => rw [h] at ih; simpa using ih

theorem utf8_flatten {ls : List (List UInt8)} (h : ∀ l ∈ ls, ∃ s, l = utf8 s) : ∃ s, ls.flatten = utf8 s := by
  induction ls with
  | nil => exact ⟨[], rfl⟩
  | cons l ls ih =>
    obtain ⟨s, rfl⟩ := h l (List.mem_cons_self ..)
    obtain ⟨u, hu⟩ := ih fun l hl => h l (List.mem_cons_of_mem _ hl)
    exact ⟨s ++ u, by rw [utf8_append, List.flatten_cons, hu]⟩

theorem lineText_ok {l : List UInt8} {s : Str} (h : lineText l = .ok s) : ∃ u, l = utf8 u := by
  apply Classical.byContradiction
  intro hn
  have := lineText_error.mpr ⟨rfl, fun s hs => hn ⟨s, hs⟩⟩
  rw [this] at h
  cases h

/-- **C72** An input that is read without error is well-formed UTF-8 as a whole. -/
theorem C72_accepted {env : Env} {stream : List Event} {hdr : Header env.Lang} {us : List PoUnit} (h : Yields (parse env stream) hdr (results us none)) :
    ∃ t, WellFormed (flatten stream).1 t := by
  have hl := (C39_complete h).1
  rw [rawLines_segments] at hl
  have h2 : (flatten stream).2 = none := by
    cases hf : (flatten stream).2 with
    | none => rfl
    | some c =>
      obtain ⟨s, m, ln, he, _⟩ := hl (.error (.os c)) (by rw [hf]; simp)
      cases he
  have hs : ∀ l ∈ segments (flatten stream), ∃ s, l = utf8 s := by
    intro l hm
    obtain ⟨s, m, ln, he, _⟩ := hl (lineText l) (List.mem_append_left _ (List.mem_map_of_mem hm))
    exact lineText_ok he
  have hj : (segments (flatten stream)).flatten = (flatten stream).1 := by
    have := byteLines_join (flatten stream).1
    unfold segments
    by_cases hn : (byteLines (flatten stream).1).2 = []
    · rw [if_neg (fun h => h.2 hn), List.append_nil]
      rwa [hn, List.append_nil] at this
    · rw [if_pos ⟨h2, hn⟩]
      simpa using this
  obtain ⟨t, ht⟩ := utf8_flatten hs
  exact ⟨t, wellFormed_iff.mpr (by rw [← hj, ht])⟩

theorem no_invalid {stream : List Event} {t : Str} (h : WellFormed (flatten stream).1 t) (k : Nat) : (rawLines (flatten stream))[k]? ≠ some (.error .invalidUtf8) := by
  intro hk
  rw [wellFormed_iff] at h
  rcases (C05_where _ _ _).mp hk with ⟨_, l, h1, h2⟩ | ⟨c, h1, _⟩
  · have hm : l ∈ segments (flatten stream) := List.mem_of_getElem? h1
    have hb := byteLines_utf8 t
    unfold segments at hm
    rw [h] at hm
    rcases List.mem_append.mp hm with hm | hm
    · obtain ⟨s, hs⟩ := hb.1 l hm
      exact h2 s hs
    · split at hm
      · obtain ⟨s, hs⟩ := hb.2
        rw [List.mem_singleton] at hm
        exact h2 s (hm.trans hs)
      · cases hm
  · cases h1

/-- **C72** An input that is well-formed UTF-8 (as far as it can be read) never gives an error about the encoding. -/
theorem C72_wellFormed {env : Env} {stream : List Event} {t : Str} (h : WellFormed (flatten stream).1 t) (n : Nat) :
    ¬ Fails (parse env stream) (.io n .invalidUtf8) ∧
    ∀ hdr xs, Yields (parse env stream) hdr xs → .error (.io n .invalidUtf8) ∉ xs := by
  constructor
  · intro hf
    rcases C38_parse hf with he | ⟨_, _, _, _, _, _, _, _, _, _, ⟨_, he⟩ | ⟨_, he⟩⟩
    · cases he with
      | io h1 h2 h3 => exact no_invalid h _ h2
    · cases he
    · cases he
  · intro hdr xs hy hm
    cases C38_next hy hm with
    | io h1 h2 h3 => exact no_invalid h _ h2

/-- The bytes of the two lines `msgid ".."` and `msgstr "x"`. -/
def Spec.quoting (bs : List UInt8) : List UInt8 := utf8 (c!"msgid \"") ++ (bs ++ utf8 (c!"\"\nmsgstr \"x\"\n"))

theorem mem_utf8 {s : Str} {c : Char} (hc : c.toNat < 128) (h : c ∈ s) : UInt8.ofNat c.toNat ∈ utf8 s := by
  unfold utf8
  rw [List.mem_flatMap]
  exact ⟨c, h, by rw [encode_ascii hc]; exact List.mem_singleton_self _⟩

theorem quoting_lines {s : Str} (hn : '\n' ∉ s) :
    rawLines (quoting (utf8 s), none) = [.ok (c!"msgid \"" ++ (s ++ ['"'])), .ok (c!"msgstr \"x\"")] := by
  have hr : quoting (utf8 s) = utf8 ((c!"msgid \"" ++ (s ++ ['"'])) ++ '\n' :: (c!"msgstr \"x\"" ++ '\n' :: [])) := by
    simp [quoting, utf8]
  rw [hr, rawLines_rendering (.lf ⟨by simp [hn], by rw [← List.append_assoc, List.getLast?_concat]; decide⟩ (.lf (by decide) .nil))]
  rfl

theorem quoting_items {s : Str} (hn : '\n' ∉ s) (hb : '\\' ∉ s) :
    items 1 [.ok (c!"msgid \"" ++ (s ++ ['"'])), .ok (c!"msgstr \"x\"")] =
      [.ok (.message 1 [] (c!"msgid") s), .ok (.message 2 [] (c!"msgstr") (c!"x"))] := by
  have h1 : Classified (c!"msgid \"" ++ (s ++ ['"'])) 1 (some (.message 1 [] (c!"msgid") s)) := by
    have := Classified.keyword (n := 1) (line := c!"msgid \"" ++ (s ++ ['"'])) (m := none) (k := c!"msgid") (raw := s)
      ⟨by simp, fun k hk => by cases hk; exact .inr (.inl rfl), [], [], [' '], [], by decide, by decide, by decide, by decide, by simp [markerText]⟩
    rwa [← unescape_eq, C09_no_backslash s hb] at this
  unfold items
  rw [(C06_line_classification _ 1 (by simp [hn]) _).mpr h1]
  rfl

/-- **C72** Bytes between the quotes of a message id: if they are well-formed UTF-8 then the id is the text that they stand for, otherwise the line is
reported as not being UTF-8. -/
theorem C72_text (env : Env) {stream : List Event} {bs : List UInt8} (h : Delivers stream (quoting bs)) (h0 : bs ≠ []) (h1 : 10 ∉ bs) (h2 : 92 ∉ bs) :
    (∃ s, WellFormed bs s ∧ Yields (parse env stream) (noHeader env) (results [unitAB s (c!"x")] none)) ∨
    ((∀ s, ¬ WellFormed bs s) ∧ Fails (parse env stream) (.io 1 .invalidUtf8)) := by
  have hp := parse_stream env stream
  rw [streamItems_code, h] at hp
  by_cases hw : ∃ s, bs = utf8 s
  · obtain ⟨s, rfl⟩ := hw
    refine .inl ⟨s, wellFormed_iff.mpr rfl, ?_⟩
    have hn : '\n' ∉ s := fun hm => h1 (mem_utf8 (c := '\n') (by decide) hm)
    have hb : '\\' ∉ s := fun hm => h2 (mem_utf8 (c := '\\') (by decide) hm)
    rw [quoting_lines hn, quoting_items hn hb] at hp
    cases s with
    | nil => exact absurd rfl h0
    | cons c s => exact hp
  · refine .inr ⟨fun s hs => hw ⟨s, wellFormed_iff.mp hs⟩, ?_⟩
    have hq : quoting bs = (utf8 (c!"msgid \"") ++ (bs ++ utf8 (c!"\""))) ++ 10 :: utf8 (c!"msgstr \"x\"\n") := by
      simp [quoting, utf8, utf8_nl]
    have hl : lineText (utf8 (c!"msgid \"") ++ (bs ++ utf8 (c!"\"")) ++ [10]) = .error .invalidUtf8 := by
      refine lineText_error.mpr ⟨rfl, fun t ht => hw ?_⟩
      have e1 : utf8 t = utf8 (c!"msgid ") ++ 34 :: (bs ++ 34 :: [10]) := by
        rw [← ht]
        simp [utf8, encode_ascii]
      obtain ⟨_, _, u, _, _, hu, _⟩ := utf8_cut (b := 34) (by decide) e1
      obtain ⟨s, _, _, hs, _⟩ := utf8_cut (b := 34) (by decide) hu.symm
      exact ⟨s, hs⟩
    have h10 : (10 : UInt8) ∉ utf8 (c!"msgid \"") ++ (bs ++ utf8 (c!"\"")) := by
      intro hm
      rcases List.mem_append.mp hm with hm | hm
      · exact absurd (nl_mem_utf8 hm) (by decide)
      · rcases List.mem_append.mp hm with hm | hm
        · exact h1 hm
        · exact absurd (nl_mem_utf8 hm) (by decide)
    rw [rawLines_eq, hq] at hp
    simp only [splitNl_line h10, hl] at hp
    exact hp

-- `C72_text`: a two-byte sequence is a character; the bytes of a surrogate and an overlong form are refused
example : Yields (parse demoEnv [.data 109 (quoting [0xC3, 0xA9]).tail]) (noHeader demoEnv) (results [unitAB (c!"é") (c!"x")] none) := by
  rcases C72_text demoEnv (stream := [.data 109 (quoting [0xC3, 0xA9]).tail]) (bs := [0xC3, 0xA9]) (by unfold Delivers; decide) (by decide) (by decide) (by decide)
    with ⟨s, h1, h2⟩ | ⟨h, _⟩
  · have : s = c!"é" := utf8_inj ((wellFormed_iff.mp h1).symm.trans (by decide))
    rwa [this] at h2
  · exact absurd (wellFormed_iff.mpr (by decide)) (h (c!"é"))
example : Fails (parse demoEnv [.data 109 (quoting [0xED, 0xA0, 0x80]).tail]) (.io 1 .invalidUtf8) := by
  rcases C72_text demoEnv (stream := [.data 109 (quoting [0xED, 0xA0, 0x80]).tail]) (bs := [0xED, 0xA0, 0x80]) (by unfold Delivers; decide) (by decide) (by decide) (by decide)
    with ⟨s, h1, h2⟩ | ⟨_, h⟩
  · generalize hb : ([0xED, 0xA0, 0x80] : List UInt8) = b at h1
    cases h1 with
    | nil => cases hb
    | @cons x bs c s h1 h2 =>
      generalize c.toNat = v at h1
      exfalso
      cases h1 <;> simp only [List.cons_append, List.nil_append, List.cons.injEq] at hb <;>
        (obtain ⟨rfl, hb⟩ := hb; first | (simp [Byte] at *; done) | (obtain ⟨rfl, hb⟩ := hb; simp [Byte] at *; done))
  · exact h
example : Fails (parse demoEnv [.data 109 (quoting [0xC0, 0x80]).tail]) (.io 1 .invalidUtf8) := by
  rcases C72_text demoEnv (stream := [.data 109 (quoting [0xC0, 0x80]).tail]) (bs := [0xC0, 0x80]) (by unfold Delivers; decide) (by decide) (by decide) (by decide)
    with ⟨s, h1, h2⟩ | ⟨_, h⟩
  · generalize hb : ([0xC0, 0x80] : List UInt8) = b at h1
    cases h1 with
    | nil => cases hb
    | @cons x bs c s h1 h2 =>
      generalize c.toNat = v at h1
      exfalso
      cases h1 <;> simp only [List.cons_append, List.nil_append, List.cons.injEq] at hb <;>
        (obtain ⟨rfl, hb⟩ := hb; first | (simp [Byte] at *; done) | (obtain ⟨rfl, hb⟩ := hb; simp [Byte] at *; done))
  · exact h

-- `C72_accepted`, `C72_wellFormed`
example : ∃ t, WellFormed (flatten (textStream [c!"msgid \"a\"", c!"msgstr \"b\"", c!"# \"c\""])).1 t := C72_accepted C07_absorbed
example (n : Nat) : ¬ Fails (parse demoEnv [.data 0xC3 [0xA9, 10], .fail 5]) (.io n .invalidUtf8) :=
  (C72_wellFormed (t := c!"é\n") (wellFormed_iff.mpr (by decide)) n).1

end Verif
