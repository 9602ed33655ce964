import Verif.Model.Parser

/-!
Model of the input side: the byte stream given to `PoParser::parse`, `BufReader`, `BufRead::lines` (std), `LineIter`
(src/po/line_iter.rs) and `Peekable` (std).
-/

namespace Verif

/-- What one call of `Read::read` on the user's stream delivers: at least one byte, an error of kind `Interrupted`, or another
error.  `Ok(0)` (end of input) is modelled by the end of the list of events.  A stream that goes on after having reported the end of
input (a terminal, a growing file) is a list of such lists. -/
inductive Event where
  | data (b : UInt8) (bs : List UInt8)
  | interrupted
  | fail (code : Nat)

/-- State of a `BufReader<R>`: the buffered bytes not yet consumed, what the stream will still deliver before it reports the end of
input, and what it will deliver after that, up to the next report, and so on; after the last report it keeps reporting the end.
(The 8 KiB capacity only limits how much one `read` delivers; any split into `data` events is allowed.) -/
structure BufSt where
  buf : List UInt8
  events : List Event
  later : List (List Event)

/-- Size of the undelivered input (bytes, plus one per error event). -/
def Event.size : Event → Nat
  | .data _ bs => bs.length + 1
  | .interrupted => 1
  | .fail _ => 1

/-- Termination measure for reading lines. -/
def BufSt.size (st : BufSt) : Nat :=
  st.buf.length + (st.events.map Event.size).sum + (st.later.map fun es => (es.map Event.size).sum).sum

/-- Split after the first `\n` byte (`memchr` in `read_until`). -/
def splitNl : List UInt8 → Option (List UInt8 × List UInt8)
  | [] => none
  | b :: bs => if b = 10 then some ([b], bs) else (splitNl bs).map fun p => (b :: p.1, p.2)

/-- `std::io::read_until(b'\n')` once the buffer is empty: reads chunks, retries on `Interrupted`, stops after `\n`, at the end of
input or on an error. -/
def readUntilAux (later : List (List Event)) (acc : List UInt8) : List Event → Except Nat (List UInt8) × BufSt
  | [] => (.ok acc, ⟨[], later.head?.getD [], later.tail⟩)
  | .interrupted :: es => readUntilAux later acc es
  | .fail c :: es => (.error c, ⟨[], es, later⟩)
  | .data b bs :: es =>
    match splitNl (b :: bs) with
    | some (l, rest) => (.ok (acc ++ l), ⟨rest, es, later⟩)
    | none => readUntilAux later (acc ++ b :: bs) es

/-- `std::io::read_until(b'\n')`. -/
def readUntil (st : BufSt) : Except Nat (List UInt8) × BufSt :=
  match splitNl st.buf with
  | some (l, rest) => (.ok l, ⟨rest, st.events, st.later⟩)
  | none => readUntilAux st.later st.buf st.events

/-- `str::from_utf8`. -/
def decodeUtf8 (bs : List UInt8) : Option Str := (bs.toByteArray.utf8Decode?).map Array.toList

/-- `std::io::Lines::next` removes one final `\n` and then, if there was one, one final `\r`. -/
def chomp (s : Str) : Str :=
  if s.getLast? = some '\n' then
    let s := s.dropLast
    if s.getLast? = some '\r' then s.dropLast else s
  else s

/-- `Lines::next` (used at src/po/line_iter.rs:27): one line, or an error. -/
def linesNext (st : BufSt) : Option (Except IoErr Str) × BufSt :=
  match readUntil st with
  | (.error c, st') => (some (.error (.os c)), st')
  | (.ok [], st') => (none, st')
  | (.ok (b :: bs), st') =>
    match decodeUtf8 (b :: bs) with
    | none => (some (.error .invalidUtf8), st')
    | some s => (some (.ok (chomp s)), st')

/-- An element of the line stream. -/
abbrev Item := Except Err PoLine

/-- `LineIter`, src/po/line_iter.rs:5-9 (the `parser` field is constant). -/
structure LineIter where
  n : Nat
  inner : Option BufSt

/-- `LineIter::new`, src/po/line_iter.rs:12-18. -/
def LineIter.new (events : List Event) (later : List (List Event)) : LineIter := ⟨1, some ⟨[], events, later⟩⟩

theorem splitNl_length {bs l r : List UInt8} (h : splitNl bs = some (l, r)) : 0 < l.length ∧ l.length + r.length = bs.length := by
  induction bs generalizing l r with
  | nil => simp [splitNl] at h
  | cons b bs ih =>
    unfold splitNl at h
    split at h
    · obtain ⟨rfl, rfl⟩ := by simpa using h
      simp; omega
    · rw [Option.map_eq_some_iff] at h
      obtain ⟨⟨l', r'⟩, h', h''⟩ := h
      obtain ⟨rfl, rfl⟩ := by simpa using h''
      have := ih h'
      simp; omega

theorem later_size (later : List (List Event)) : ((later.head?.getD []).map Event.size).sum + (later.tail.map fun es => (es.map Event.size).sum).sum =
    (later.map fun es => (es.map Event.size).sum).sum := by
  cases later <;> simp

theorem readUntilAux_size (later : List (List Event)) (acc : List UInt8) (es : List Event) {l st'} (h : readUntilAux later acc es = (l, st')) :
    (∀ c, l = .error c → st'.size < (es.map Event.size).sum + (later.map fun es => (es.map Event.size).sum).sum) ∧
    (∀ bs, l = .ok bs → st'.size ≤ (es.map Event.size).sum + (later.map fun es => (es.map Event.size).sum).sum ∧
      (acc.length < bs.length → st'.size < (es.map Event.size).sum + (later.map fun es => (es.map Event.size).sum).sum)) := by
  have hl := later_size later
  induction es generalizing acc with
  | nil =>
    rw [readUntilAux] at h
    cases h
    refine ⟨fun c hc => (by cases hc), fun bs hb => ?_⟩
    cases hb
    simp only [BufSt.size, List.length_nil, List.map_nil, List.sum_nil]
    omega
  | cons e es ih =>
    cases e with
    | interrupted =>
      have := ih acc h
      simp only [List.map_cons, Event.size, List.sum_cons]
      refine ⟨fun c hc => ?_, fun bs hb => ?_⟩
      · have := this.1 c hc; omega
      · have := this.2 bs hb; omega
    | fail c =>
      obtain ⟨rfl, rfl⟩ := by simpa [readUntilAux] using h
      simp [BufSt.size, Event.size]
    | data b bs =>
      unfold readUntilAux at h
      split at h
      · rename_i l' r' hs
        obtain ⟨rfl, rfl⟩ := by simpa using h
        have := splitNl_length hs
        simp only [List.length_cons] at this
        simp [BufSt.size, Event.size]; omega
      · have := ih _ h
        simp only [List.map_cons, Event.size, List.sum_cons]
        refine ⟨fun c hc => ?_, fun bs hb => ?_⟩
        · have := this.1 c hc; omega
        · have := this.2 bs hb; omega

theorem linesNext_size {st st' : BufSt} {x} (h : linesNext st = (some x, st')) : st'.size < st.size := by
  have key : ∀ r st'', readUntil st = (r, st'') → (r ≠ .ok []) → st''.size < st.size := by
    intro r st'' hr hne
    unfold readUntil at hr
    split at hr
    · rename_i l r' hs
      obtain ⟨rfl, rfl⟩ := by simpa using hr
      have := splitNl_length hs
      simp [BufSt.size]; omega
    · have := readUntilAux_size _ _ _ hr
      cases r with
      | error c => have := this.1 c rfl; simp only [BufSt.size] at *; omega
      | ok bs =>
        have := this.2 bs rfl
        simp only [BufSt.size] at *
        by_cases hb : st.buf = []
        · have : 0 < bs.length := by
            cases bs with
            | nil => exact absurd rfl hne
            | cons => simp
          simp [hb] at *; omega
        · have : 0 < st.buf.length := List.length_pos_iff.mpr hb
          omega
  unfold linesNext at h
  split at h
  · rename_i hr; obtain ⟨_, rfl⟩ := by simpa using h
    exact key _ _ hr (by simp)
  · simp at h
  · rename_i hr
    have := key _ _ hr (by simp)
    split at h <;> (obtain ⟨_, rfl⟩ := by simpa using h) <;> exact this

/-- `LineIter::next`, src/po/line_iter.rs:24-55. -/
def LineIter.next (it : LineIter) : Option Item × LineIter :=
  match _hi : it.inner with
  | none => (none, it)
  | some st =>
    match _h : linesNext st with
    | (none, st') => (none, { it with inner := some st' })
    | (some (.error e), _) => (some (.error (.io it.n e)), { it with inner := none })
    | (some (.ok line), st') =>
      match parseLine line it.n with
      | some .blank => LineIter.next ⟨it.n + 1, some st'⟩
      | some p => (some (.ok p), ⟨it.n + 1, some st'⟩)
      | none => (some (.error (.parse (it.n + 1) line [])), ⟨it.n + 1, none⟩)
termination_by (it.inner.map BufSt.size).getD 0
decreasing_by
  rw [_hi]; exact linesNext_size _h

/-- `std::iter::Peekable<LineIter>`: the iterator and the remembered result of a `peek`. -/
structure Peekable where
  iter : LineIter
  peeked : Option (Option Item)

/-- `Peekable::peek`. -/
def Peekable.peek (p : Peekable) : Option Item × Peekable :=
  match p.peeked with
  | some v => (v, p)
  | none => ((p.iter.next).1, ⟨(p.iter.next).2, some (p.iter.next).1⟩)

/-- `Peekable::next`. -/
def Peekable.next (p : Peekable) : Option Item × Peekable :=
  match p.peeked with
  | some v => (v, ⟨p.iter, none⟩)
  | none => ((p.iter.next).1, ⟨(p.iter.next).2, none⟩)

/-- A source of line items, as used by the reader: `peek` and `next`, and a bound on the number of items left (used only as fuel
for the `while` loops of the reader; running out of fuel is a `panic` of the model, which is proved never to happen). -/
class Src (σ : Type) where
  peek : σ → Option Item × σ
  next : σ → Option Item × σ
  bound : σ → Nat

/-- The source the crate uses: `Peekable<LineIter>`. -/
instance : Src Peekable where
  peek := Peekable.peek
  next := Peekable.next
  bound p := (p.iter.inner.map BufSt.size).getD 0 + (match p.peeked with | some (some _) => 1 | _ => 0)

/-- A list of items as a source; `Verif.Lemmas.Sim` proves that the crate's source behaves like the list of its items (as long as the
stream keeps reporting the end of input). -/
instance : Src (List Item) where
  peek l := (l.head?, l)
  next l := (l.head?, l.tail)
  bound l := l.length

end Verif
