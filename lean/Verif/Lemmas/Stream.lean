import Verif.Lemmas.Decode

/-! The crate's line source (`Peekable<LineIter>` over a chunked byte stream) behaves like the list of its items. -/

namespace Verif
open Spec

theorem byteLines_eq (bs : List UInt8) : byteLines bs =
    match splitNl bs with
    | none => ([], bs)
    | some (l, r) => (l :: (byteLines r).1, (byteLines r).2) := by
  induction bs with
  | nil => rfl
  | cons b bs ih =>
    rw [byteLines, splitNl]
    by_cases hb : b = 10
    · simp [hb]
    · simp only [hb, if_false]
      cases h : splitNl bs with
      | none => simp [ih, h]
      | some lr => obtain ⟨l, r⟩ := lr; simp [ih, h]

theorem splitNl_append_some {a l r : List UInt8} (h : splitNl a = some (l, r)) (b : List UInt8) :
    splitNl (a ++ b) = some (l, r ++ b) := by
  induction a generalizing l r with
  | nil => simp [splitNl] at h
  | cons c a ih =>
    rw [splitNl] at h
    rw [List.cons_append, splitNl]
    by_cases hc : c = 10
    · simp only [hc, if_true, Option.some.injEq, Prod.mk.injEq] at h ⊢
      obtain ⟨rfl, rfl⟩ := h
      exact ⟨rfl, rfl⟩
    · simp only [hc, if_false, Option.map_eq_some_iff] at h ⊢
      obtain ⟨⟨l', r'⟩, h1, h2⟩ := h
      obtain ⟨rfl, rfl⟩ := by simpa using h2
      exact ⟨(l', r' ++ b), ih h1, rfl⟩

theorem splitNl_append_none {a : List UInt8} (h : splitNl a = none) (b : List UInt8) :
    splitNl (a ++ b) = (splitNl b).map fun p => (a ++ p.1, p.2) := by
  induction a with
  | nil => simp
  | cons c a ih =>
    rw [splitNl] at h
    rw [List.cons_append, splitNl]
    by_cases hc : c = 10
    · simp [hc] at h
    · simp only [hc, if_false, Option.map_eq_none_iff] at h ⊢
      rw [ih h]
      cases splitNl b <;> simp

/-- The input a `BufReader` will still deliver. -/
def BufSt.flat (st : BufSt) : List UInt8 × Option Nat := (st.buf ++ (flatten st.events).1, (flatten st.events).2)

theorem readUntilAux_spec (later : List (List Event)) (acc : List UInt8) (es : List Event) (hacc : splitNl acc = none) :
    match splitNl (acc ++ (flatten es).1) with
    | some (l, r) => ∃ st', readUntilAux later acc es = (.ok l, st') ∧ st'.flat = (r, (flatten es).2) ∧ st'.later = later
    | none =>
      match (flatten es).2 with
      | none => readUntilAux later acc es = (.ok (acc ++ (flatten es).1), ⟨[], later.head?.getD [], later.tail⟩)
      | some c => ∃ st', readUntilAux later acc es = (.error c, st') := by
  induction es generalizing acc with
  | nil => simp [flatten, readUntilAux, hacc]
  | cons e es ih =>
    cases e with
    | interrupted => exact ih acc hacc
    | fail c => simp [flatten, readUntilAux, hacc]
    | data b bs =>
      simp only [flatten]
      rw [splitNl_append_none hacc]
      cases h : splitNl (b :: bs) with
      | some lr =>
        obtain ⟨l, r⟩ := lr
        have h' := splitNl_append_some h (flatten es).1
        simp only [List.cons_append] at h'
        simp [h', readUntilAux, h, BufSt.flat]
      | none =>
        have hacc' : splitNl (acc ++ b :: bs) = none := by rw [splitNl_append_none hacc, h]; rfl
        have := ih (acc ++ b :: bs) hacc'
        rw [List.append_assoc, splitNl_append_none hacc] at this
        rw [readUntilAux]
        simp only [h]
        exact this

theorem readUntil_spec (st : BufSt) :
    match splitNl st.flat.1 with
    | some (l, r) => ∃ st', readUntil st = (.ok l, st') ∧ st'.flat = (r, st.flat.2) ∧ st'.later = st.later
    | none =>
      match st.flat.2 with
      | none => readUntil st = (.ok st.flat.1, ⟨[], st.later.head?.getD [], st.later.tail⟩)
      | some c => ∃ st', readUntil st = (.error c, st') := by
  unfold readUntil
  cases h : splitNl st.buf with
  | some lr =>
    obtain ⟨l, r⟩ := lr
    have := splitNl_append_some h (flatten st.events).1
    simp only [BufSt.flat, this]
    exact ⟨_, rfl, rfl, rfl⟩
  | none => exact readUntilAux_spec st.later st.buf st.events h

theorem splitNl_ne_nil {bs l r : List UInt8} (h : splitNl bs = some (l, r)) : l ≠ [] := by
  have := (splitNl_length h).1
  intro he; simp [he] at this

theorem rawLines_eq (input : List UInt8 × Option Nat) : rawLines input =
    match splitNl input.1 with
    | some (l, r) => lineText l :: rawLines (r, input.2)
    | none =>
      match input.2 with
      | some c => [.error (.os c)]
      | none => if input.1 = [] then [] else [lineText input.1] := by
  unfold rawLines
  rw [byteLines_eq input.1]
  cases splitNl input.1 with
  | none => obtain ⟨a, f⟩ := input; cases f <;> simp
  | some lr => simp

/-- What successive calls of `Lines::next` return, if the stream goes on with `later`: `none` at an end of input where no unterminated line is left.
After these it is always `none`. -/
noncomputable def rawPolls (input : List UInt8 × Option Nat) : List (List Event) → List (Option (Except IoErr Str))
  | [] => (rawLines input).map some
  | es :: later => (rawLines input).map some ++
    if input.2.isSome then [] else (if (byteLines input.1).2 = [] then [none] else []) ++ rawPolls (flatten es) later

theorem rawPolls_some {input : List UInt8 × Option Nat} {l r : List UInt8} (h : splitNl input.1 = some (l, r)) (later : List (List Event)) :
    rawPolls input later = some (lineText l) :: rawPolls (r, input.2) later := by
  have hb := byteLines_eq input.1
  rw [h] at hb
  cases later with
  | nil => rw [rawPolls, rawPolls, rawLines_eq, h]; rfl
  | cons es later => rw [rawPolls, rawPolls, rawLines_eq, h, hb]; rfl

theorem rawPolls_none {input : List UInt8 × Option Nat} (h : splitNl input.1 = none) (hf : input.2 = none) (later : List (List Event)) :
    rawPolls input later = (if input.1 = [] then (if later = [] then [] else [none]) else [some (lineText input.1)]) ++
      (if later = [] then [] else rawPolls (flatten (later.head?.getD [])) later.tail) := by
  have hb := byteLines_eq input.1
  rw [h] at hb
  cases later with
  | nil =>
    rw [rawPolls, rawLines_eq, h, hf]
    by_cases h0 : input.1 = [] <;> simp [h0]
  | cons es later =>
    rw [rawPolls, rawLines_eq, h, hf, hb]
    by_cases h0 : input.1 = [] <;> simp [h0]

theorem rawPolls_fail {input : List UInt8 × Option Nat} {c : Nat} (h : splitNl input.1 = none) (hf : input.2 = some c) (later : List (List Event)) :
    rawPolls input later = [some (.error (.os c))] := by
  cases later with
  | nil => rw [rawPolls, rawLines_eq, h, hf]; rfl
  | cons es later => rw [rawPolls, rawLines_eq, h, hf]; rfl

theorem rawPolls_tail (later : List (List Event)) :
    rawPolls (BufSt.flat ⟨[], later.head?.getD [], later.tail⟩) later.tail = if later = [] then [] else rawPolls (flatten (later.head?.getD [])) later.tail := by
  cases later with
  | nil => rfl
  | cons es later => rw [if_neg (by simp)]; rfl

theorem linesNext_spec (st : BufSt) :
    match linesNext st with
    | (none, st') => (rawPolls st.flat st.later).head?.join = none ∧ rawPolls st'.flat st'.later = (rawPolls st.flat st.later).tail
    | (some (.ok s), st') => rawPolls st.flat st.later = some (.ok s) :: rawPolls st'.flat st'.later
    | (some (.error e), _) => ∃ tl, rawPolls st.flat st.later = some (.error e) :: tl := by
  have h := readUntil_spec st
  have decode : ∀ (l : List UInt8) (st' : BufSt), l ≠ [] → readUntil st = (.ok l, st') →
      linesNext st = (some (lineText l), st') := by
    intro l st' hne hr
    rw [lineText_code]; unfold linesNext
    cases l with
    | nil => exact absurd rfl hne
    | cons b bs =>
      rw [hr]
      cases hd : decodeUtf8 (b :: bs) <;> simp [hd]
  cases hs : splitNl st.flat.1 with
  | some lr =>
    obtain ⟨l, r⟩ := lr
    rw [hs] at h
    obtain ⟨st', hr, hf, hlat⟩ := h
    rw [decode l st' (splitNl_ne_nil hs) hr, rawPolls_some hs]
    cases hlt : lineText l with
    | ok s => simp [hf, hlat]
    | error e => simp
  | none =>
    rw [hs] at h
    cases hfail : st.flat.2 with
    | some c =>
      rw [hfail] at h
      obtain ⟨st', hr⟩ := h
      have : linesNext st = (some (.error (.os c)), st') := by unfold linesNext; rw [hr]
      rw [this, rawPolls_fail hs hfail]
      exact ⟨_, rfl⟩
    | none =>
      rw [hfail] at h
      have hr : readUntil st = (.ok st.flat.1, ⟨[], st.later.head?.getD [], st.later.tail⟩) := h
      rw [rawPolls_none hs hfail]
      by_cases hne : st.flat.1 = []
      · have : linesNext st = (none, ⟨[], st.later.head?.getD [], st.later.tail⟩) := by unfold linesNext; rw [hr, hne]
        rw [this, if_pos hne]
        simp only [rawPolls_tail]
        by_cases hl : st.later = [] <;> simp [hl]
      · rw [decode _ _ hne hr, if_neg hne]
        cases lineText st.flat.1 with
        | ok s => simp only [rawPolls_tail]; rfl
        | error e => exact ⟨_, rfl⟩

/-- The line items as the reader makes them. -/
def items (n : Nat) : List (Except IoErr Str) → List Item
  | [] => []
  | .error e :: _ => [.error (.io n e)]
  | .ok s :: rs =>
    match parseLine s n with
    | none => [.error (.parse (n + 1) s [])]
    | some .blank => items (n + 1) rs
    | some p => .ok p :: items (n + 1) rs

/-- The line items, with the reports of the end of input in between. -/
def pollItems (n : Nat) : List (Option (Except IoErr Str)) → List (Option Item)
  | [] => []
  | none :: rs => none :: pollItems n rs
  | some (.error e) :: _ => [some (.error (.io n e))]
  | some (.ok s) :: rs =>
    match parseLine s n with
    | none => [some (.error (.parse (n + 1) s []))]
    | some .blank => pollItems (n + 1) rs
    | some p => some (.ok p) :: pollItems (n + 1) rs

theorem pollItems_some (n : Nat) (rs : List (Except IoErr Str)) : pollItems n (rs.map some) = (items n rs).map some := by
  induction rs generalizing n with
  | nil => rfl
  | cons r rs ih =>
    cases r with
    | error e => rfl
    | ok s =>
      rw [List.map_cons, pollItems, items]
      cases h : parseLine s n with
      | none => rfl
      | some p => cases p <;> simp [ih]

/-- What successive calls of `next` of a `LineIter` return; after these it is always `none`. -/
noncomputable def LineIter.polls (it : LineIter) : List (Option Item) :=
  match it.inner with
  | none => []
  | some st => pollItems it.n (rawPolls st.flat st.later)

theorem LineIter.next_spec (it : LineIter) : it.next.1 = it.polls.head?.join ∧ it.next.2.polls = it.polls.tail := by
  induction it using LineIter.next.induct with
  | case1 it hi => rw [LineIter.next.eq_def]; split <;> simp_all [LineIter.polls]
  | case2 it st hi st' h =>
    have hl := linesNext_spec st
    rw [h] at hl
    have : it.next = (none, { it with inner := some st' }) := by
      rw [LineIter.next.eq_def]; split
      · simp_all
      · rename_i st2 hi2
        rw [hi] at hi2; cases hi2
        split <;> simp_all
    rw [this]
    simp only [LineIter.polls, hi]
    obtain ⟨h1, h2⟩ := hl
    rw [h2]
    rcases hr : rawPolls st.flat st.later with _ | ⟨_ | x, tl⟩
    · exact ⟨rfl, rfl⟩
    · exact ⟨rfl, rfl⟩
    · rw [hr] at h1; cases h1
  | case3 it st hi e st' h =>
    have hl := linesNext_spec st
    rw [h] at hl
    obtain ⟨tl, hl⟩ := hl
    have : it.next = (some (.error (.io it.n e)), { it with inner := none }) := by
      rw [LineIter.next.eq_def]; split
      · simp_all
      · rename_i st2 hi2
        rw [hi] at hi2; cases hi2
        split <;> simp_all
    rw [this]
    simp [LineIter.polls, hi, hl, pollItems]
  | case4 it st hi line st' h hp ih =>
    have hl := linesNext_spec st
    rw [h] at hl
    have : it.next = LineIter.next ⟨it.n + 1, some st'⟩ := by
      rw [LineIter.next.eq_def]; split
      · simp_all
      · rename_i st2 hi2
        rw [hi] at hi2; cases hi2
        split
        · simp_all
        · simp_all
        · rename_i h2; rw [h] at h2; cases h2
          rw [hp]
    rw [this]
    have hit : it.polls = LineIter.polls ⟨it.n + 1, some st'⟩ := by
      simp only [LineIter.polls, hi]
      rw [hl, pollItems, hp]
    rw [hit]
    exact ih
  | case5 it st hi line st' h p hnb hp =>
    have hl := linesNext_spec st
    rw [h] at hl
    have : it.next = (some (.ok p), ⟨it.n + 1, some st'⟩) := by
      rw [LineIter.next.eq_def]; split
      · simp_all
      · rename_i st2 hi2
        rw [hi] at hi2; cases hi2
        split
        · simp_all
        · simp_all
        · rename_i h2; rw [h] at h2; cases h2
          rw [hp]
          cases p <;> simp_all
    rw [this]
    have hit : it.polls = some (.ok p) :: LineIter.polls ⟨it.n + 1, some st'⟩ := by
      simp only [LineIter.polls, hi]
      rw [hl, pollItems, hp]
      cases p <;> simp_all
    simp [hit]
  | case6 it st hi line st' h hp =>
    have hl := linesNext_spec st
    rw [h] at hl
    have : it.next = (some (.error (.parse (it.n + 1) line [])), ⟨it.n + 1, none⟩) := by
      rw [LineIter.next.eq_def]; split
      · simp_all
      · rename_i st2 hi2
        rw [hi] at hi2; cases hi2
        split
        · simp_all
        · simp_all
        · rename_i h2; rw [h] at h2; cases h2
          rw [hp]
    rw [this]
    simp [LineIter.polls, hi, hl, pollItems, hp]

theorem LineIter.new_polls (es : List Event) (later : List (List Event)) : (LineIter.new es later).polls = pollItems 1 (rawPolls (flatten es) later) := by
  simp [LineIter.new, LineIter.polls, BufSt.flat]

end Verif
