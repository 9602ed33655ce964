import Verif.Props.Layout

/-! C05, C38, C39, C40: errors, their positions, and what is read before them. -/

namespace Verif
open Spec

/-! ### C38 -/

theorem stops_none {forms : Option PluralForms} {l : List Item} (h : Stops forms l none) :
    ∃ b : List PoLine, l = b.map .ok ∧ ((∃ o, EntryHead o b) ∨ ∃ o idPl, EntryIds o idPl b) := by
  cases h with
  | endsInHead h => exact ⟨_, rfl, .inl ⟨_, h⟩⟩
  | endsAfterIds h => exact ⟨_, rfl, .inr ⟨_, _, h⟩⟩

variable {env : Env} {stream : List Event} {hdr : Header env.Lang}

/-- **C38** Every error that `next()` returns belongs to a line of the input and has its number; an error for an unrecognised line has that number plus one. -/
theorem C38_next {xs : List (Except Err PoUnit)} (h : Yields (parse env stream) hdr xs) {e : Err} (he : .error e ∈ xs) :
    ErrorAt (rawLines (flatten stream)) e := by
  obtain ⟨_, us, e', rfl, _⟩ := yields_reads h
  obtain ⟨forms, head, blocks, tail, h1, h2, h3, h4, _⟩ := C14_blocks h
  have : e' = some e := by
    cases e' with
    | none => simp [results] at he
    | some e' => simp [results] at he; rw [he]
  subst this
  exact h4.errorAt ((stream_items stream _).mpr rfl) ⟨head.map .ok ++ (blocks.flatMap Prod.fst).map .ok, by rw [h1]; simp⟩

theorem forms_error {s : Str} {e : Err} (h : FormsError env s e) : (∃ msg, e = .unexpected 0 msg) ∨ ∃ msg, e = .pluralForms msg := by
  cases h with
  | notList => exact .inl ⟨_, rfl⟩
  | formula => exact .inr ⟨_, rfl⟩
  | count => exact .inr ⟨_, rfl⟩

/-- **C38** Every error that `parse()` returns belongs to a line of the input, as above, or comes from the `Plural-Forms` property of the header; then it
has no line number, or the number 0. -/
theorem C38_parse {e : Err} (h : Fails (parse env stream) e) :
    ErrorAt (rawLines (flatten stream)) e ∨
    ∃ ns cs t rest hdr s, First (streamItems stream) (.header ns cs t rest) ∧ HeaderRule env ns cs t hdr ∧
      hdr.properties.lookup (c!"Plural-Forms") = some s ∧ FormsError env s e ∧
      ((∃ msg, e = .unexpected 0 msg) ∨ ∃ msg, e = .pluralForms msg) := by
  rw [← rejects_iff] at h
  have h0 := (stream_items stream _).mpr rfl
  cases h with
  | first f =>
    left
    generalize streamItems stream = l at f h0
    cases f with
    | unreadable h => exact errorAt_of_mem h0 (by simp)
    | noText h1 h2 => exact (Stops.noText h1 h2).errorAt h0 (List.suffix_refl _)
  | @badForms ns cs t rest hdr' _ f r1 r2 =>
    right
    generalize hp : hdr'.properties.lookup (c!"Plural-Forms") = p at r2
    generalize hx : (Except.error e : Except Err (Option PluralForms)) = x at r2
    cases r2 with
    | absent => cases hx
    | empty => cases hx
    | given => cases hx
    | bad hs hr => cases hx; exact ⟨_, _, _, _, _, _, f, r1, hp, hr, forms_error hr⟩

/-! ### C05 -/

/-- The byte lines of an input: the complete lines, and the unterminated last line if the input ends there. -/
def Spec.segments (inp : List UInt8 × Option Nat) : List (List UInt8) :=
  (byteLines inp.1).1 ++ if inp.2 = none ∧ (byteLines inp.1).2 ≠ [] then [(byteLines inp.1).2] else []

theorem lineText_error {l : List UInt8} {x : IoErr} : lineText l = .error x ↔ x = .invalidUtf8 ∧ ∀ s, l ≠ utf8 s := by
  rw [lineText_code]
  constructor
  · intro h
    split at h
    · rename_i hd
      cases h
      refine ⟨rfl, ?_⟩
      rintro s rfl
      rw [decodeUtf8_utf8] at hd
      cases hd
    · cases h
  · rintro ⟨rfl, h⟩
    cases hd : decodeUtf8 l with
    | none => rfl
    | some s => exact absurd (decodeUtf8_eq_some.mp hd) (h s)

theorem rawLines_segments (inp : List UInt8 × Option Nat) : rawLines inp = (segments inp).map lineText ++ (inp.2.map fun c => .error (.os c)).toList := by
  unfold rawLines segments
  cases inp.2 with
  | some c => simp
  | none => by_cases h : (byteLines inp.1).2 = [] <;> simp [h]

theorem segments_failed {bs : List UInt8} {c : Nat} : segments (bs, some c) = (byteLines bs).1 := by simp [segments]

/-- **C05** Where lines cannot be read: line `k` (from 0) is not the encoding of a text, or the input fails after `k` complete lines. -/
theorem C05_where (inp : List UInt8 × Option Nat) (k : Nat) (x : IoErr) :
    (rawLines inp)[k]? = some (.error x) ↔
      (x = .invalidUtf8 ∧ ∃ l, (segments inp)[k]? = some l ∧ ∀ s, l ≠ utf8 s) ∨ (∃ c, x = .os c ∧ inp.2 = some c ∧ k = (byteLines inp.1).1.length) := by
  rw [rawLines_segments]
  by_cases hk : k < (segments inp).length
  · rw [List.getElem?_append_left (by simpa using hk), List.getElem?_map]
    constructor
    · intro h
      rw [Option.map_eq_some_iff] at h
      obtain ⟨l, h1, h2⟩ := h
      obtain ⟨h3, h4⟩ := lineText_error.mp h2
      exact .inl ⟨h3, l, h1, h4⟩
    · rintro (⟨h1, l, h2, h3⟩ | ⟨c, h1, h2, h3⟩)
      · rw [h2]
        exact congrArg some (lineText_error.mpr ⟨h1, h3⟩)
      · obtain ⟨bs, f⟩ := inp
        simp only at h2
        subst h2
        rw [segments_failed] at hk
        simp only at h3
        omega
  · rw [List.getElem?_append_right (by simpa using hk), List.length_map]
    constructor
    · intro h
      obtain ⟨bs, f⟩ := inp
      cases f with
      | none => simp at h
      | some c =>
        rw [segments_failed] at h hk
        have : k - (byteLines bs).1.length = 0 := by
          apply Classical.byContradiction
          intro hn
          rw [List.getElem?_eq_none (by simp; omega)] at h
          cases h
        rw [this] at h
        simp only [Option.map_some, Option.toList_some, List.getElem?_cons_zero, Option.some.injEq, Except.error.injEq] at h
        exact .inr ⟨c, h.symm, rfl, by simp only; omega⟩
    · rintro (⟨h1, l, h2, h3⟩ | ⟨c, h1, h2, h3⟩)
      · rw [List.getElem?_eq_none (by omega)] at h2; cases h2
      · obtain ⟨bs, f⟩ := inp
        simp only at h2 h3
        subst h2
        rw [segments_failed]
        simp [h3, h1]

theorem lineItems_failed {n : Nat} {rs : List (Except IoErr Str)} (hn : ∀ s, .ok s ∈ rs → '\n' ∉ s) {k : Nat} {x : IoErr} (hk : rs[k]? = some (.error x))
    (hb : Before n rs k) : ∃ b : List PoLine, LineItems n rs (b.map .ok ++ [.error (.io (n + k) x)]) ∧ b.length ≤ k := by
  induction k generalizing n rs with
  | zero =>
    cases rs with
    | nil => cases hk
    | cons r rs =>
      cases hk
      exact ⟨[], .failed, Nat.le_refl _⟩
  | succ k ih =>
    cases rs with
    | nil => cases hk
    | cons r rs =>
      obtain ⟨t, ln, h1, h2⟩ := hb 0 (by omega)
      cases h1
      obtain ⟨b, hb1, hb2⟩ := ih (n := n + 1) (rs := rs) (fun s hs => hn s (List.mem_cons_of_mem _ hs)) hk (by
        intro j hj
        obtain ⟨t', ln', h3, h4⟩ := hb (j + 1) (by omega)
        exact ⟨t', ln', h3, by rw [show n + 1 + j = n + (j + 1) from by omega]; exact h4⟩)
      rw [show n + 1 + k = n + (k + 1) from by omega] at hb1
      by_cases hbl : ln = .blank
      · subst hbl
        exact ⟨b, .blank h2 hb1, by omega⟩
      · exact ⟨ln :: b, .line h2 hbl hb1, by simp; omega⟩

/-- The lines before line `k + 1` can be read and are recognised. -/
def Spec.LinesBefore (rs : List (Except IoErr Str)) (k : Nat) : Prop := ∀ j, j < k → ∃ t ln, rs[j]? = some (.ok t) ∧ Classified t (j + 1) (some ln)

theorem linesBefore_before {rs : List (Except IoErr Str)} {k : Nat} (h : LinesBefore rs k) : Before 1 rs k := by
  intro j hj
  obtain ⟨t, ln, h1, h2⟩ := h j hj
  exact ⟨t, ln, h1, by rw [Nat.add_comm]; exact h2⟩

/-- **C05** If line `k + 1` is the first that cannot be read and all lines before are recognised, then the items are those of the lines before, and one
I/O error with that number. -/
theorem C05_reported {k : Nat} {x : IoErr} (hk : (rawLines (flatten stream))[k]? = some (.error x)) (hb : LinesBefore (rawLines (flatten stream)) k) :
    ∃ b : List PoLine, streamItems stream = b.map .ok ++ [.error (.io (k + 1) x)] ∧ b.length ≤ k := by
  obtain ⟨b, h1, h2⟩ := lineItems_failed (fun s hs => rawLines_no_nl hs) hk (linesBefore_before hb)
  refine ⟨b, ?_, h2⟩
  rw [← (stream_items stream _).mp h1, Nat.add_comm]

theorem lineItems_take {n k : Nat} {rs rs' : List (Except IoErr Str)} {x : IoErr} {l : List Item} (h : LineItems n rs l) (hk : rs[k]? = some (.error x))
    (ht : rs.take (k + 1) = rs'.take (k + 1)) : LineItems n rs' l := by
  induction h generalizing k rs' with
  | nil => cases hk
  | @failed n e rs =>
    cases rs' with
    | nil => cases ht
    | cons r' rs' =>
      rw [List.take_succ_cons, List.take_succ_cons] at ht
      injection ht with h1 h2
      subst h1
      exact .failed
  | @unrecognised n s rs hc =>
    cases rs' with
    | nil => cases ht
    | cons r' rs' =>
      rw [List.take_succ_cons, List.take_succ_cons] at ht
      injection ht with h1 h2
      subst h1
      exact .unrecognised hc
  | @blank n s rs l hc _ ih =>
    cases rs' with
    | nil => cases ht
    | cons r' rs' =>
      rw [List.take_succ_cons, List.take_succ_cons] at ht
      injection ht with h1 h2
      subst h1
      cases k with
      | zero => cases hk
      | succ k => exact .blank hc (ih hk h2)
  | @line n s rs ln l hc hbl _ ih =>
    cases rs' with
    | nil => cases ht
    | cons r' rs' =>
      rw [List.take_succ_cons, List.take_succ_cons] at ht
      injection ht with h1 h2
      subst h1
      cases k with
      | zero => cases hk
      | succ k => exact .line hc hbl (ih hk h2)

/-- **C05** Nothing after a line that cannot be read matters: inputs with the same lines up to it look the same to a user. -/
theorem C05_nothing_later {stream' : List Event} {k : Nat} {x : IoErr} (hk : (rawLines (flatten stream))[k]? = some (.error x))
    (ht : (rawLines (flatten stream)).take (k + 1) = (rawLines (flatten stream')).take (k + 1)) (n : Nat) :
    observe n (parse env stream) = observe n (parse env stream') := by
  have h := lineItems_take ((stream_items stream _).mpr rfl) hk ht
  rw [observe_parse, observe_parse, (stream_items stream' _).mp h]

/-- Reading that ends without error has met no line that cannot be read or is not recognised. -/
theorem none_no_error {us : List PoUnit} (h : Yields (parse env stream) hdr (results us none)) (e : Err) : .error e ∉ streamItems stream := by
  obtain ⟨forms, head, blocks, tail, h1, h2, h3, h4, _⟩ := C14_blocks h
  obtain ⟨b, rfl, _⟩ := stops_none h4
  rw [h1]
  simp

/-- **C05** The error of the line is what the user gets, unless the lines before already give an error: `parse()` fails, or the reader ends with an error, which is
the I/O error for line `k + 1` or belongs to an earlier line. -/
theorem C05_error {k : Nat} {x : IoErr} (hk : (rawLines (flatten stream))[k]? = some (.error x)) (hb : LinesBefore (rawLines (flatten stream)) k)
    {us : List PoUnit} {e : Option Err} (h : Yields (parse env stream) hdr (results us e)) :
    e = some (.io (k + 1) x) ∨
    ∃ j s ln, j ≤ k ∧ LineAt (rawLines (flatten stream)) j s ln ∧
      ((∃ exp, e = some (.parse j (shown ln) exp)) ∨ e = some (.unexpected j (c!"Source should not be empty"))) := by
  obtain ⟨b, hb1, _⟩ := C05_reported hk hb
  cases e with
  | none => exact absurd (by rw [hb1]; simp) (none_no_error h (.io (k + 1) x))
  | some e =>
    have he := C38_next h (e := e) (by simp [results])
    have hle : ∀ {j s ln}, LineAt (rawLines (flatten stream)) j s ln → j ≤ k := by
      intro j s ln hl
      apply Classical.byContradiction
      intro hj
      have hp := hl.pos
      by_cases hjk : j = k + 1
      · have := hl.text
        rw [hjk, Nat.add_sub_cancel, hk] at this
        cases this
      · obtain ⟨t, _, h1, _⟩ := hl.before k (by omega)
        rw [hk] at h1
        cases h1
    cases he with
    | @io j y h1 h2 h3 =>
      left
      have hj : j = k + 1 := by
        rcases Nat.lt_trichotomy (j - 1) k with hl | hl | hl
        · obtain ⟨t, _, h4, _⟩ := hb _ hl
          rw [h2] at h4; cases h4
        · omega
        · obtain ⟨t, _, h4, _⟩ := h3 _ hl
          rw [hk] at h4; cases h4
      subst hj
      rw [Nat.add_sub_cancel, hk] at h2
      cases h2
      rfl
    | @unrecognised j s h1 h2 h3 h4 =>
      exfalso
      rcases Nat.lt_trichotomy (j - 1) k with hl | hl | hl
      · obtain ⟨t, ln, h5, h6⟩ := hb _ hl
        rw [h2] at h5
        cases h5
        rw [show j - 1 + 1 = j from by omega] at h6
        have := classified_unique (rawLines_no_nl (List.mem_of_getElem? h2)) h3 h6
        cases this
      · rw [hl, hk] at h2; cases h2
      · obtain ⟨t, _, h5, _⟩ := h4 _ hl
        rw [hk] at h5; cases h5
    | @missing j s ln exp h1 h2 h3 => exact .inr ⟨j, s, ln, hle h1, h1, .inl ⟨exp, rfl⟩⟩
    | @noSource j s p kw t h1 => exact .inr ⟨j, s, _, hle h1, h1, .inr rfl⟩

/-! ### C39 -/

theorem lineItems_no_error {n : Nat} {rs : List (Except IoErr Str)} {l : List Item} (h : LineItems n rs l) (he : ∀ e, .error e ∉ l) :
    ∀ r ∈ rs, ∃ s m ln, r = .ok s ∧ Classified s m (some ln) := by
  induction h with
  | nil => simp
  | failed => exact absurd (List.mem_cons_self ..) (he _)
  | unrecognised => exact absurd (List.mem_cons_self ..) (he _)
  | @blank n s rs l hc _ ih =>
    intro r hr
    rcases List.mem_cons.mp hr with rfl | hr
    · exact ⟨_, _, _, rfl, hc⟩
    · exact ih he r hr
  | @line n s rs ln l hc hb _ ih =>
    intro r hr
    rcases List.mem_cons.mp hr with rfl | hr
    · exact ⟨_, _, _, rfl, hc⟩
    · exact ih (fun e hx => he e (List.mem_cons_of_mem _ hx)) r hr

/-- **C39** A reader that ends without error has read every line: each line can be read and is recognised; the line items are a header block, one block per
unit, and the beginning of an entry (comments, previous fields, context, ids), possibly empty, without any translation. -/
theorem C39_complete {us : List PoUnit} (h : Yields (parse env stream) hdr (results us none)) :
    (∀ r ∈ rawLines (flatten stream), ∃ s m ln, r = .ok s ∧ Classified s m (some ln)) ∧
    ∃ (forms : Option PluralForms) (head : List PoLine) (blocks : List (List PoLine × PoUnit)) (tail : List PoLine),
      streamItems stream = (head ++ (blocks.flatMap Prod.fst ++ tail)).map .ok ∧ us = blocks.map Prod.snd ∧
      (∀ b ∈ blocks, Entry forms b.1 b.2) ∧ ((∃ o, EntryHead o tail) ∨ ∃ o idPl, EntryIds o idPl tail) ∧
      (∀ k ∈ kws tail, ¬ IsTextKw k) := by
  refine ⟨lineItems_no_error ((stream_items stream _).mpr rfl) (none_no_error h), ?_⟩
  obtain ⟨forms, head, blocks, tail, h1, h2, h3, h4, _⟩ := C14_blocks h
  obtain ⟨b, rfl, h5⟩ := stops_none h4
  refine ⟨forms, head, blocks, b, by rw [h1]; simp, h2, fun b hb => (h3 b hb).1, h5, ?_⟩
  intro k hk ht
  rcases h5 with ⟨o, h5⟩ | ⟨o, idPl, h5⟩
  · rcases kws_head h5 hk with rfl | rfl | rfl | rfl <;> exact not_textKw (by decide) (by decide) ht
  · exact (kws_ids h5).2.2 k ht hk

/-! ### C40 -/

theorem stops_nil_none {forms : Option PluralForms} : Stops forms [] none :=
  .endsInHead (entryHead_comments false [])

theorem run_nil {forms : Option PluralForms} {us : List PoUnit} {e : Option Err} (h : Run forms [] us e) : us = [] ∧ e = none :=
  h.unique (.stop stops_nil_none)

theorem stops_error {forms : Option PluralForms} {l tl : List Item} {e0 : Option Err} {e : Err} (h : Stops forms l e0) :
    ∃ e', Stops forms (l ++ .error e :: tl) (some e') ∧ (e' = e ∨ e0 = some e') := by
  cases h with
  | endsInHead h => exact ⟨e, .unreadable (.inl ⟨_, h⟩), .inl rfl⟩
  | endsAfterIds h => exact ⟨e, .unreadable (.inr (.inl ⟨_, _, h⟩)), .inl rfl⟩
  | unreadable h => exact ⟨_, by rw [List.append_assoc]; exact .unreadable h, .inr rfl⟩
  | noId h h' => exact ⟨_, by rw [List.append_assoc]; exact .noId h h', .inr rfl⟩
  | noText h h' => exact ⟨_, by rw [List.append_assoc]; exact .noText h h', .inr rfl⟩
  | noSource h h1 h2 h3 h4 =>
    rw [List.append_assoc]
    rcases h4 with rfl | ⟨ln', tl', rfl, hp⟩
    · exact ⟨e, .unreadable (.inr (.inr ⟨_, h⟩)), .inl rfl⟩
    · exact ⟨_, .noSource h h1 h2 h3 (.inr ⟨ln', tl' ++ .error e :: tl, rfl, hp⟩), .inr rfl⟩

/-- The block of an entry does not end with a comment. -/
theorem entry_last {forms : Option PluralForms} {block : List PoLine} {u : PoUnit} (h : Entry forms block u) {b : List PoLine} {ln : PoLine}
    (hb : block = b ++ [ln]) : ¬ IsComment ln := by
  obtain ⟨o, idPl, id, m, a, b7, bh, b5, b6, rfl, h1, h2, f5, f6, f7⟩ := entry_split.mp ⟨u, h⟩
  rcases snoc_append hb.symm with ⟨rfl, _⟩ | ⟨c, rfl, _⟩
  · obtain ⟨k, hk, _⟩ := kws_text f7
    cases hk
  · rintro ⟨d, rfl⟩
    have := text_commentOf f7
    rw [List.filterMap_append] at this
    simp [commentOf, commentLine] at this

/-- A run over extended items: nothing but possibly the last unit is lost. -/
theorem run_error {forms : Option PluralForms} {l tl : List Item} {us : List PoUnit} {e0 : Option Err} {e : Err} (h : Run forms l us e0) :
    ∃ us' e', Run forms (l ++ .error e :: tl) us' (some e') ∧ (e' = e ∨ e0 = some e') ∧ (us = us' ∨ ∃ u, us = us' ++ [u]) ∧
      ((∃ l' c, l = l' ++ [.ok (commentLine c)]) → us = us') := by
  induction h with
  | stop h =>
    obtain ⟨e', h1, h2⟩ := stops_error (tl := tl) (e := e) h
    exact ⟨[], e', .stop h1, h2, .inl rfl, fun _ => rfl⟩
  | @entry block u rest us e0 h1 h2 h3 h4 ih =>
    rw [List.append_assoc]
    rcases h3 with rfl | ⟨ln', tl', rfl, hp⟩
    · obtain ⟨rfl, rfl⟩ := run_nil h4
      refine ⟨[], e, .stop (.unreadable (.inr (.inr ⟨_, h1⟩))), .inl rfl, .inr ⟨u, rfl⟩, ?_⟩
      rintro ⟨l', c, hl⟩
      exfalso
      rw [List.append_nil] at hl
      obtain ⟨x, y, rfl, _, hy⟩ := List.map_eq_append_iff.mp hl
      obtain ⟨z, rfl, hz⟩ := List.map_eq_singleton_iff.mp hy
      cases hz
      exact entry_last h1 rfl ⟨c, rfl⟩
    · obtain ⟨us', e', i1, i2, i3, i4⟩ := ih
      refine ⟨u :: us', e', .entry h1 h2 (.inr ⟨ln', tl' ++ .error e :: tl, rfl, hp⟩) i1, i2, ?_, ?_⟩
      · rcases i3 with rfl | ⟨v, rfl⟩
        · exact .inl rfl
        · exact .inr ⟨v, rfl⟩
      · rintro ⟨l', c, hl⟩
        have : us = us' := i4 (by
          rcases List.eq_nil_or_concat tl' with rfl | ⟨t0, x, rfl⟩
          · have := (List.append_inj_right' hl rfl)
            exact ⟨[], c, by rw [this]; rfl⟩
          · refine ⟨.ok ln' :: t0, c, ?_⟩
            have : (List.map .ok block ++ .ok ln' :: t0) ++ [x] = l' ++ [.ok (commentLine c)] := by rw [← hl]; simp
            have := List.append_inj_right' this rfl
            simp only [List.concat_eq_append, List.cons_append]
            rw [this])
        rw [this]

theorem items_error {n : Nat} {rs rs' : List (Except IoErr Str)} {e : Err} (h : .error e ∈ items n rs) : items n (rs ++ rs') = items n rs := by
  induction rs generalizing n with
  | nil => simp [items] at h
  | cons r rs ih =>
    cases r with
    | error x => rfl
    | ok s =>
      rw [List.cons_append]
      simp only [items] at h ⊢
      cases hp : parseLine s n with
      | none => rfl
      | some ln =>
        rw [hp] at h
        cases ln <;> first
          | exact ih h
          | (simp only at h ⊢
             rw [ih (by simpa using h)])

/-- **C40** An input is extended by a line that is not recognised and anything after it.  Then the reader of the longer input has the same header data, and
yields the same units except possibly the last one, then an error: that of the bad line, or the one that the original input has.  If no more than one unit was read, `parse()` may fail with the error
of the bad line.  If the last line before the bad line (apart from blank ones) is a comment, no unit is lost. -/
theorem C40_bad_line {stream' : List Event} {us : List PoUnit} {e0 : Option Err} {bad : Str} {more : List (Except IoErr Str)}
    (h : Yields (parse env stream) hdr (results us e0)) (hr : rawLines (flatten stream') = rawLines (flatten stream) ++ .ok bad :: more)
    (hbad : Classified bad 0 none) :
    (Fails (parse env stream') (.parse ((rawLines (flatten stream)).length + 2) bad []) ∧ us.length ≤ 1 ∧
      ((∃ l c, streamItems stream = l ++ [.ok (commentLine c)]) → us = [])) ∨
    ∃ hdr' us' e', SameHeader hdr' hdr ∧ Yields (parse env stream') hdr' (results us' (some e')) ∧
      (e' = .parse ((rawLines (flatten stream)).length + 2) bad [] ∨ e0 = some e') ∧ (us = us' ∨ ∃ u, us = us' ++ [u]) ∧
      ((∃ l c, streamItems stream = l ++ [.ok (commentLine c)]) → us = us') := by
  have hnl : '\n' ∉ bad := by
    have : .ok bad ∈ rawLines (flatten stream') := by rw [hr]; simp
    exact rawLines_no_nl this
  by_cases hne : ∃ e, .error e ∈ streamItems stream
  · obtain ⟨e, hne⟩ := hne
    have hi : streamItems stream' = streamItems stream := by
      rw [streamItems_code] at hne ⊢
      rw [streamItems_code, hr]
      exact items_error hne
    right
    obtain ⟨forms, us', e', hx, hrd⟩ := yields_reads h
    obtain ⟨rfl, rfl⟩ := results_inj hx
    rw [← hi] at hrd
    obtain ⟨hdr', hh, hy⟩ := reads_yields hrd
    cases e0 with
    | none => exact absurd hne (none_no_error h e)
    | some e0 => exact ⟨hdr', us, e0, hh, hy, .inr rfl, .inl rfl, fun _ => rfl⟩
  · have hi : streamItems stream' = streamItems stream ++ [.error (.parse ((rawLines (flatten stream)).length + 2) bad [])] := by
      rw [streamItems_code] at hne ⊢
      rw [streamItems_code, hr, items_append fun e he => hne ⟨e, he⟩]
      congr 1
      have hc : parseLine bad (1 + (rawLines (flatten stream)).length) = none :=
        (C06_line_classification _ _ hnl _).mpr (classified_renumber hbad _)
      rw [items, hc]
      simp only
      rw [show 1 + (rawLines (flatten stream)).length + 1 = (rawLines (flatten stream)).length + 2 from by omega]
    generalize Err.parse ((rawLines (flatten stream)).length + 2) bad [] = e at hi ⊢
    obtain ⟨forms, us', e', hx, hrd⟩ := yields_reads h
    obtain ⟨rfl, rfl⟩ := results_inj hx
    have hcom : ∀ {b b' : List PoLine} {r : List Item}, streamItems stream = b.map .ok ++ r → r = [] → (∃ l c, streamItems stream = l ++ [.ok (commentLine c)]) →
        ∃ b' c, b = b' ++ [commentLine c] := by
      rintro b b' r h1 rfl ⟨l, c, h2⟩
      rw [h1, List.append_nil] at h2
      obtain ⟨x, y, rfl, _, hy⟩ := List.map_eq_append_iff.mp h2
      obtain ⟨z, rfl, hz⟩ := List.map_eq_singleton_iff.mp hy
      cases hz
      exact ⟨x, c, rfl⟩
    have hsuf : ∀ {b : List PoLine} {r : List Item}, streamItems stream = b.map .ok ++ r → r ≠ [] → (∃ l c, streamItems stream = l ++ [.ok (commentLine c)]) →
        ∃ l c, r = l ++ [.ok (commentLine c)] := by
      rintro b r h1 h3 ⟨l, c, h2⟩
      rcases List.eq_nil_or_concat r with rfl | ⟨r0, x, rfl⟩
      · exact absurd rfl h3
      · rw [h1, List.concat_eq_append, ← List.append_assoc] at h2
        have := List.append_inj_right' h2 rfl
        exact ⟨r0, c, by rw [List.concat_eq_append, this]⟩
    cases hrd with
    | nothing f =>
      left
      refine ⟨(rejects_iff _ _ _).mp (.first ?_), by simp, fun _ => rfl⟩
      rw [hi]
      generalize streamItems stream = l at f
      cases f with
      | comments hc =>
        obtain ⟨ds, rfl⟩ := all_comments hc
        exact .unreadable (.inl (.inl ⟨false, entryHead_comments false ds⟩))
      | cut hc => exact .unreadable (.inl (.inr (.inl ⟨_, _, hc⟩)))
    | @plain u rest us e0 f r =>
      obtain ⟨block, hb, h1, h2, h3⟩ := first_unit f
      rcases h3 with rfl | ⟨ln', tl', rfl, hp⟩
      · left
        obtain ⟨rfl, rfl⟩ := run_nil r
        refine ⟨(rejects_iff _ _ _).mp (.first ?_), by simp, ?_⟩
        · rw [hi, hb, List.append_assoc]
          exact .unreadable (.inl (.inr (.inr ⟨_, h1⟩)))
        · intro hx
          obtain ⟨b', c, rfl⟩ := hcom (b' := []) hb rfl hx
          exact absurd ⟨c, rfl⟩ (entry_last h1 rfl)
      · right
        obtain ⟨us', e', r1, r2, r3, r4⟩ := run_error (tl := []) (e := e) r
        have hrd' : Reads env (streamItems stream') (plainHeader env) none (u :: us') (some e') := by
          refine .plain ?_ r1
          rw [hi, hb, List.append_assoc]
          exact .unit h1 h2 (.inr ⟨ln', _, rfl, hp⟩)
        obtain ⟨hdr', hh, hy⟩ := reads_yields hrd'
        refine ⟨hdr', u :: us', e', hh, hy, r2, ?_, ?_⟩
        · rcases r3 with rfl | ⟨v, rfl⟩
          · exact .inl rfl
          · exact .inr ⟨v, rfl⟩
        · intro hx; rw [r4 (hsuf hb (by simp) hx)]
    | @headed ns cs t rest hdr forms us e0 f r1 r2 r =>
      have key : (rest = [] ∧ First (streamItems stream') (.fail e)) ∨
          (First (streamItems stream') (.header ns cs t (rest ++ [.error e]))) := by
        rw [hi]
        generalize streamItems stream = l at f
        cases f with
        | header h1 h2 h3 =>
          rw [List.append_assoc]
          rcases h3 with rfl | ⟨ln', tl', rfl, hp⟩
          · exact .inl ⟨rfl, .unreadable (.inl (.inr (.inr ⟨_, h1⟩)))⟩
          · exact .inr (.header h1 h2 (.inr ⟨ln', _, rfl, hp⟩))
        | noId h1 h2 h3 =>
          rw [List.append_assoc]
          rcases h3 with rfl | ⟨ln', tl', rfl, hp⟩
          · refine .inl ⟨rfl, .unreadable ?_⟩
            rcases h1 with h1 | h1
            · exact .inl (.inl h1)
            · exact .inr h1
          · exact .inr (.noId h1 (.inl (by simp)) (.inr ⟨ln', _, rfl, hp⟩))
      rcases key with ⟨rfl, hf⟩ | hf
      · left
        obtain ⟨rfl, rfl⟩ := run_nil r
        exact ⟨(rejects_iff _ _ _).mp (.first hf), by simp, fun _ => rfl⟩
      · right
        obtain ⟨us', e', i1, i2, i3, i4⟩ := run_error (tl := []) (e := e) r
        obtain ⟨hdr', hh, hy⟩ := reads_yields (Reads.headed hf r1 r2 i1)
        refine ⟨hdr', us', e', hh, hy, i2, i3, ?_⟩
        intro hx
        obtain ⟨block, hb⟩ := first_header f
        by_cases hrn : rest = []
        · subst hrn
          obtain ⟨rfl, rfl⟩ := run_nil r
          rcases i3 with h | ⟨u, h⟩
          · exact h
          · simp at h
        · exact i4 (hsuf hb hrn hx)

/-! ### Concrete cases -/

-- **C38, witness**: the line reported for an unrecognised line is not its own number: line 5 is reported as 6.
example : Yields (parse demoEnv (textStream demoLines')) (noHeader demoEnv) (results [unitAB (c!"a") (c!"b")] (some (.parse 6 (c!"garbage") []))) ∧
    (rawLines (flatten (textStream demoLines')))[4]? = some (.ok (c!"garbage")) :=
  ⟨yields_text (res := ⟨noHeader demoEnv, none, [unitAB (c!"a") (c!"b")], some (.parse 6 (c!"garbage") [])⟩) (by decide) (by rfl),
   by rw [rawLines_text (by decide)]; rfl⟩

-- a missing field is reported at the line that comes instead; what is shown of a keyword line is its marker
example : Yields (parse demoEnv (textStream [c!"msgid \"a\"", c!"msgstr \"b\"", c!"msgid \"c\"", c!"#~ msgid \"d\""])) (noHeader demoEnv)
    (results [unitAB (c!"a") (c!"b")] (some (.parse 4 (c!"~") (c!"msgstr")))) :=
  yields_text (res := ⟨noHeader demoEnv, none, [unitAB (c!"a") (c!"b")], some (.parse 4 (c!"~") (c!"msgstr"))⟩) (by decide) (by rfl)

-- an entry with empty id after the first: the first line after its comments
example : Yields (parse demoEnv (textStream [c!"msgid \"a\"", c!"msgstr \"b\"", c!"# x", c!"msgctxt \"c\"", c!"msgid \"\"", c!"msgstr \"\""])) (noHeader demoEnv)
    (results [unitAB (c!"a") (c!"b")] (some (.unexpected 4 (c!"Source should not be empty")))) :=
  yields_text (res := ⟨noHeader demoEnv, none, [unitAB (c!"a") (c!"b")], some (.unexpected 4 (c!"Source should not be empty"))⟩) (by decide) (by rfl)

-- a bad value list in the header: line number 0
example : Fails (parse demoEnv (textStream [c!"msgid \"\"", c!"msgstr \"Plural-Forms: nplurals=2\""])) (.unexpected 0 (c!"Bad value list definition: `nplurals=2`")) :=
  fails_text (env := demoEnv) (by decide) (by rfl)

/-- The bytes of `msgid "a"`, of `msgstr "b"`, and of a line that is not UTF-8, and more. -/
def brokenStream : List Event := [.data 109 (utf8 (c!"sgid \"a\"\nmsgstr \"b\"\n#") ++ [255, 10, 35, 10])]

theorem broken_lines : rawLines (flatten brokenStream) = [.ok (c!"msgid \"a\""), .ok (c!"msgstr \"b\""), .error .invalidUtf8, .ok (c!"#")] := by
  have h : flatten brokenStream = (utf8 (c!"msgid \"a\"") ++ 10 :: (utf8 (c!"msgstr \"b\"") ++ 10 :: [35, 255, 10, 35, 10]), none) := by decide
  rw [h, rawLines_lf (by decide), rawLines_lf (by decide)]
  congr 2
  simp only [rawLines, funext lineText_code]
  rfl

-- the hypotheses of `C05_reported` are met, and its conclusion: the third line is reported
example : streamItems brokenStream = [.ok (.message 1 [] (c!"msgid") (c!"a")), .ok (.message 2 [] (c!"msgstr") (c!"b")), .error (.io 3 .invalidUtf8)] ∧
    (rawLines (flatten brokenStream))[2]? = some (.error .invalidUtf8) ∧ LinesBefore (rawLines (flatten brokenStream)) 2 := by
  refine ⟨?_, by rw [broken_lines]; rfl, ?_⟩
  · rw [streamItems_code, broken_lines]; rfl
  · intro j hj
    rw [broken_lines]
    have : j = 0 ∨ j = 1 := by omega
    rcases this with rfl | rfl
    · exact ⟨_, .message 1 [] (c!"msgid") (c!"a"), rfl, (C06_line_classification _ _ (by decide) _).mp (by rfl)⟩
    · exact ⟨_, .message 2 [] (c!"msgstr") (c!"b"), rfl, (C06_line_classification _ _ (by decide) _).mp (by rfl)⟩

-- an operating-system error after two complete lines and a piece of the third
example : rawLines (flatten [.data 35 [10, 35, 10, 35], .fail 7, .data 35 []]) = [.ok (c!"#"), .ok (c!"#"), .error (.os 7)] := by
  simp only [rawLines, funext lineText_code]
  rfl

-- **C39, witness**: an entry cut off before its `msgstr` is dropped without error
example : Yields (parse demoEnv (textStream [c!"msgid \"a\"", c!"msgstr \"b\"", c!"#. note", c!"msgctxt \"x\"", c!"msgid \"c\""])) (noHeader demoEnv)
    (results [unitAB (c!"a") (c!"b")] none) :=
  yields_text (res := ⟨noHeader demoEnv, none, [unitAB (c!"a") (c!"b")], none⟩) (by decide) (by rfl)

/-- Two units. -/
def twoLines : List Str := [c!"msgid \"a\"", c!"msgstr \"b\"", c!"msgid \"c\"", c!"msgstr \"d\""]

-- **C40**: a bad line directly after the second unit loses that unit; with a comment between, it does not.
example : Yields (parse demoEnv (textStream twoLines)) (noHeader demoEnv) (results [unitAB (c!"a") (c!"b"), unitAB (c!"c") (c!"d")] none) ∧
    Yields (parse demoEnv (textStream (twoLines ++ [c!"garbage"]))) (noHeader demoEnv) (results [unitAB (c!"a") (c!"b")] (some (.parse 6 (c!"garbage") []))) ∧
    Yields (parse demoEnv (textStream (twoLines ++ [c!"#", c!"garbage"]))) (noHeader demoEnv)
      (results [unitAB (c!"a") (c!"b"), unitAB (c!"c") (c!"d")] (some (.parse 7 (c!"garbage") []))) ∧
    Fails (parse demoEnv (textStream (twoLines.take 2 ++ [c!"garbage"]))) (.parse 4 (c!"garbage") []) :=
  ⟨yields_text (res := ⟨noHeader demoEnv, none, [unitAB (c!"a") (c!"b"), unitAB (c!"c") (c!"d")], none⟩) (by decide) (by rfl),
   yields_text (res := ⟨noHeader demoEnv, none, [unitAB (c!"a") (c!"b")], some (.parse 6 (c!"garbage") [])⟩) (by decide) (by rfl),
   yields_text (res := ⟨noHeader demoEnv, none, [unitAB (c!"a") (c!"b"), unitAB (c!"c") (c!"d")], some (.parse 7 (c!"garbage") [])⟩) (by decide) (by rfl),
   fails_text (env := demoEnv) (by decide) (by rfl)⟩

-- the hypotheses of `C40_bad_line` are met
example : rawLines (flatten (textStream (twoLines ++ [c!"garbage"]))) = rawLines (flatten (textStream twoLines)) ++ [.ok (c!"garbage")] ∧ Classified (c!"garbage") 0 none := by
  refine ⟨?_, (C06_line_classification _ _ (by decide) _).mp (by rfl)⟩
  rw [rawLines_text (by decide), rawLines_text (by decide)]
  rfl

theorem broken_before : LinesBefore (rawLines (flatten brokenStream)) 2 := by
  intro j hj
  rw [broken_lines]
  have : j = 0 ∨ j = 1 := by omega
  rcases this with rfl | rfl
  · exact ⟨_, .message 1 [] (c!"msgid") (c!"a"), rfl, (C06_line_classification _ _ (by decide) _).mp (by rfl)⟩
  · exact ⟨_, .message 2 [] (c!"msgstr") (c!"b"), rfl, (C06_line_classification _ _ (by decide) _).mp (by rfl)⟩

-- `C05_reported` and `C05_error`
example := C05_reported (by rw [broken_lines]; rfl) broken_before

/-- An entry, a comment, and a line that is not UTF-8. -/
def laterStream : List Event := textStream [c!"msgid \"a\"", c!"msgstr \"b\"", c!"#"] ++ [.data 255 [10]]

theorem later_lines : rawLines (flatten laterStream) = [.ok (c!"msgid \"a\""), .ok (c!"msgstr \"b\""), .ok (c!"#"), .error .invalidUtf8] := by
  have h : flatten laterStream = (utf8 (c!"msgid \"a\"") ++ 10 :: (utf8 (c!"msgstr \"b\"") ++ 10 :: [35, 10, 255, 10]), none) := by decide
  rw [h, rawLines_lf (by decide), rawLines_lf (by decide)]
  congr 2
  simp only [rawLines, funext lineText_code]
  rfl

theorem later_yields : Yields (parse demoEnv laterStream) (noHeader demoEnv) (results [unitAB (c!"a") (c!"b")] (some (.io 4 .invalidUtf8))) := by
  have h := parse_stream demoEnv laterStream
  rw [show readAll demoEnv (streamItems laterStream) = .ok ⟨noHeader demoEnv, none, [unitAB (c!"a") (c!"b")], some (.io 4 .invalidUtf8)⟩ by
    rw [streamItems_code, later_lines]; rfl] at h
  exact h

example := C05_error (k := 3) (x := .invalidUtf8) (by rw [later_lines]; rfl) (by
  intro j hj
  rw [later_lines]
  have : j = 0 ∨ j = 1 ∨ j = 2 := by omega
  rcases this with rfl | rfl | rfl
  · exact ⟨_, .message 1 [] (c!"msgid") (c!"a"), rfl, (C06_line_classification _ _ (by decide) _).mp (by rfl)⟩
  · exact ⟨_, .message 2 [] (c!"msgstr") (c!"b"), rfl, (C06_line_classification _ _ (by decide) _).mp (by rfl)⟩
  · exact ⟨_, .comment 3 ' ' [], rfl, (C06_line_classification _ _ (by decide) _).mp (by rfl)⟩) later_yields

-- `C40_bad_line`
example := C40_bad_line (bad := c!"garbage") (more := []) (yields_text (env := demoEnv) (ls := twoLines)
  (res := ⟨noHeader demoEnv, none, [unitAB (c!"a") (c!"b"), unitAB (c!"c") (c!"d")], none⟩) (by decide) (by rfl))
  (stream' := textStream (twoLines ++ [c!"garbage"])) (by rw [rawLines_text (by decide), rawLines_text (by decide)]; rfl)
  ((C06_line_classification _ _ (by decide) _).mp (by rfl))

end Verif
