import Verif.Lemmas.SimF
import Verif.Model.Counter
import Verif.Spec.Counter

/-! The line source with a counter of `w` bits. -/

namespace Verif
open Spec

theorem LineIter.next_some (n : Nat) (st : BufSt) : LineIter.next ⟨n, some st⟩ =
    match linesNext st with
    | (none, st') => (none, ⟨n, some st'⟩)
    | (some (.error e), _) => (some (.error (.io n e)), ⟨n, none⟩)
    | (some (.ok line), st') =>
      match parseLine line n with
      | some .blank => LineIter.next ⟨n + 1, some st'⟩
      | some p => (some (.ok p), ⟨n + 1, some st'⟩)
      | none => (some (.error (.parse (n + 1) line [])), ⟨n + 1, none⟩) := by
  rw [LineIter.next.eq_def]
  simp only
  split <;> rename_i h <;> simp only [h]
  generalize parseLine _ n = x
  rcases x with _ | _ | _ | _ | _ <;> rfl

theorem CountIter.next_some {w : Nat} (n : Nat) (st : BufSt) (o : Bool) : CountIter.next (⟨n, some st, o⟩ : CountIter w) =
    match linesNext st with
    | (none, st') => (none, ⟨n, some st', o⟩)
    | (some (.error e), _) => (some (.error (.io n e)), ⟨n, none, o⟩)
    | (some (.ok line), st') =>
      match parseLine line n with
      | some .blank => CountIter.next ⟨(n + 1) % 2 ^ w, some st', o || decide (n + 1 = 2 ^ w)⟩
      | some p => (some (.ok p), ⟨(n + 1) % 2 ^ w, some st', o || decide (n + 1 = 2 ^ w)⟩)
      | none => (some (.error (.parse ((n + 1) % 2 ^ w) line [])), ⟨(n + 1) % 2 ^ w, none, o || decide (n + 1 = 2 ^ w)⟩) := by
  rw [CountIter.next.eq_def]
  simp only
  split <;> rename_i h <;> simp only [h]
  generalize parseLine _ n = x
  rcases x with _ | _ | _ | _ | _ <;> rfl

theorem parseLine_map (f : Nat → Nat) (line : Str) (n : Nat) : parseLine line (f n) = (parseLine line n).map (renumLine f) := by
  unfold parseLine
  split
  · rfl
  · split
    · split <;> rfl
    · split <;> rfl

/-- The iterator with the narrow counter does what the iterator with the unbounded counter does. -/
structure NarrowRel (w : Nat) (it : LineIter) (c : CountIter w) : Prop where
  inner : c.inner = it.inner
  n : c.n = it.n % 2 ^ w
  over : c.over = decide (2 ^ w ≤ it.n)

theorem mod_succ (m n : Nat) : (n % m + 1) % m = (n + 1) % m := by simp

theorem over_succ {w n : Nat} : (decide (2 ^ w ≤ n) || decide (n % 2 ^ w + 1 = 2 ^ w)) = decide (2 ^ w ≤ n + 1) := by
  have : 0 < 2 ^ w := Nat.two_pow_pos w
  by_cases h : 2 ^ w ≤ n
  · simp [h, Nat.le_succ_of_le h]
  · have h' : n % 2 ^ w = n := Nat.mod_eq_of_lt (by omega)
    rw [h']
    simp only [h, decide_false, Bool.false_or, decide_eq_decide]
    omega

theorem count_next {w : Nat} (k : Nat) : ∀ (st : BufSt), st.size ≤ k → ∀ n,
    let it := LineIter.next ⟨n, some st⟩
    let c := CountIter.next (⟨n % 2 ^ w, some st, decide (2 ^ w ≤ n)⟩ : CountIter w)
    c.1 = it.1.map (renumItem (· % 2 ^ w)) ∧ NarrowRel w it.2 c.2 := by
  induction k with
  | zero =>
    intro st hs n
    simp only
    rw [LineIter.next_some, CountIter.next_some]
    rcases hl : linesNext st with ⟨_ | e, st'⟩
    · exact ⟨rfl, rfl, rfl, rfl⟩
    · have := linesNext_size hl
      omega
  | succ k ih =>
    intro st hs n
    simp only
    rw [LineIter.next_some, CountIter.next_some]
    rcases hl : linesNext st with ⟨_ | e | line, st'⟩
    · exact ⟨rfl, rfl, rfl, rfl⟩
    · exact ⟨rfl, rfl, rfl, rfl⟩
    · have := linesNext_size hl
      simp only
      rw [parseLine_map (· % 2 ^ w) line n, mod_succ, over_succ]
      rcases parseLine line n with _ | _ | _ | _ | _
      · exact ⟨rfl, rfl, rfl, rfl⟩
      · exact ih st' (by omega) (n + 1)
      all_goals exact ⟨rfl, rfl, rfl, rfl⟩

theorem countRel_next {w : Nat} {it : LineIter} {c : CountIter w} (h : NarrowRel w it c) :
    c.next.1 = it.next.1.map (renumItem (· % 2 ^ w)) ∧ NarrowRel w it.next.2 c.next.2 := by
  obtain ⟨n, inner⟩ := it
  obtain ⟨m, inner', o⟩ := c
  obtain ⟨h1, h2, h3⟩ := h
  simp only at h1 h2 h3
  subst h1 h2 h3
  cases inner' with
  | none =>
    rw [LineIter.next.eq_def, CountIter.next.eq_def]
    exact ⟨rfl, rfl, rfl, rfl⟩
  | some st => exact count_next st.size st (Nat.le_refl _) n

/-- The peeked sources. -/
structure CountPeekRel (w : Nat) (p : Peekable) (q : CountPeekable w) : Prop where
  iter : NarrowRel w p.iter q.iter
  peeked : q.peeked = p.peeked.map (Option.map (renumItem (· % 2 ^ w)))

theorem count_srcF {w : Nat} : SrcF (· % 2 ^ w) (CountPeekRel w) where
  peek p q h := by
    show q.peek.1 = p.peek.1.map (renumItem (· % 2 ^ w)) ∧ CountPeekRel w p.peek.2 q.peek.2
    obtain ⟨it, pk⟩ := p
    obtain ⟨c, pk'⟩ := q
    obtain ⟨h1, h2⟩ := h
    simp only at h1 h2
    subst h2
    obtain ⟨h3, h4⟩ := countRel_next h1
    cases pk with
    | none => exact ⟨h3, h4, congrArg some h3⟩
    | some v => exact ⟨rfl, h1, rfl⟩
  next p q h := by
    show q.next.1 = p.next.1.map (renumItem (· % 2 ^ w)) ∧ CountPeekRel w p.next.2 q.next.2
    obtain ⟨it, pk⟩ := p
    obtain ⟨c, pk'⟩ := q
    obtain ⟨h1, h2⟩ := h
    simp only at h1 h2
    subst h2
    obtain ⟨h3, h4⟩ := countRel_next h1
    cases pk with
    | none => exact ⟨h3, h4, rfl⟩
    | some v => exact ⟨rfl, h1, rfl⟩

theorem CountIter.next_size {w : Nat} (k : Nat) : ∀ (st : BufSt), st.size ≤ k → ∀ n o,
    let c := CountIter.next (⟨n, some st, o⟩ : CountIter w)
    (c.2.inner.map BufSt.size).getD 0 ≤ st.size ∧ (c.1 ≠ none → (c.2.inner.map BufSt.size).getD 0 < st.size) := by
  induction k with
  | zero =>
    intro st hs n o
    simp only
    rw [CountIter.next_some]
    rcases hl : linesNext st with ⟨_ | e, st'⟩
    · exact ⟨linesNext_le hl, fun h => absurd rfl h⟩
    · have := linesNext_size hl
      omega
  | succ k ih =>
    intro st hs n o
    simp only
    rw [CountIter.next_some]
    rcases hl : linesNext st with ⟨_ | e | line, st'⟩
    · exact ⟨linesNext_le hl, fun h => absurd rfl h⟩
    · have := linesNext_size hl
      exact ⟨Nat.zero_le _, fun _ => Nat.lt_of_le_of_lt (Nat.zero_le _) this⟩
    · have := linesNext_size hl
      simp only
      rcases parseLine line n with _ | _ | _ | _ | _
      · exact ⟨Nat.zero_le _, fun _ => Nat.lt_of_le_of_lt (Nat.zero_le _) this⟩
      · have := ih st' (by omega) ((n + 1) % 2 ^ w) (o || decide (n + 1 = 2 ^ w))
        exact ⟨Nat.le_trans this.1 (by omega), fun h => Nat.lt_trans (this.2 h) (by omega)⟩
      all_goals exact ⟨Nat.le_of_lt this, fun _ => this⟩

theorem CountIter.next_bound {w : Nat} (c : CountIter w) : (c.next.2.inner.map BufSt.size).getD 0 ≤ (c.inner.map BufSt.size).getD 0 ∧
    (c.next.1 ≠ none → (c.next.2.inner.map BufSt.size).getD 0 < (c.inner.map BufSt.size).getD 0) := by
  obtain ⟨n, inner, o⟩ := c
  cases inner with
  | none =>
    rw [CountIter.next.eq_def]
    exact ⟨Nat.le_refl _, fun h => absurd rfl h⟩
  | some st => exact CountIter.next_size st.size st (Nat.le_refl _) n o

instance {w : Nat} : LawfulSrc (CountPeekable w) where
  next_peek p := by
    show (CountPeekable.next (CountPeekable.peek p).2).1 = (CountPeekable.peek p).1
    obtain ⟨it, pk⟩ := p
    cases pk <;> rfl
  peek_peek p := by
    show (CountPeekable.peek (CountPeekable.peek p).2).1 = (CountPeekable.peek p).1
    obtain ⟨it, pk⟩ := p
    cases pk <;> rfl
  bound_peek p := by
    obtain ⟨it, pk⟩ := p
    cases pk with
    | some v => exact Nat.le_refl _
    | none =>
      show (it.next.2.inner.map BufSt.size).getD 0 + (match (some it.next.1 : Option (Option Item)) with | some (some _) => 1 | _ => 0) ≤ (it.inner.map BufSt.size).getD 0 + 0
      have h := it.next_bound
      rcases hn : it.next.1 with _ | x
      · exact h.1
      · have := h.2 (by rw [hn]; simp)
        simp only
        omega
  bound_next p h := by
    obtain ⟨it, pk⟩ := p
    cases pk with
    | some v =>
      cases v with
      | none => exact absurd rfl h
      | some x => exact Nat.lt_succ_self _
    | none => exact it.next_bound.2 h
  bound_next_le p := by
    obtain ⟨it, pk⟩ := p
    cases pk with
    | some v => exact Nat.le_add_right _ _
    | none => exact it.next_bound.1

/-! ### No overflow on short inputs -/

/-- The bytes that are still to come. -/
def BufSt.bytes (st : BufSt) : Nat := st.buf.length + Spec.byteCount st.events + (st.later.map Spec.byteCount).sum

theorem later_bytes (later : List (List Event)) : Spec.byteCount (later.head?.getD []) + (later.tail.map Spec.byteCount).sum = (later.map Spec.byteCount).sum := by
  cases later <;> simp [Spec.byteCount]

theorem readUntilAux_bytes (later : List (List Event)) (es : List Event) : ∀ (acc : List UInt8) {l st'}, readUntilAux later acc es = (l, st') →
    st'.bytes + (match l with | .ok bs => bs.length | .error _ => acc.length) ≤ acc.length + Spec.byteCount es + (later.map Spec.byteCount).sum := by
  induction es with
  | nil =>
    intro acc l st' h
    rw [readUntilAux] at h
    cases h
    have := later_bytes later
    simp only [BufSt.bytes, List.length_nil, Spec.byteCount]
    omega
  | cons e es ih =>
    intro acc l st' h
    cases e with
    | interrupted => exact ih acc h
    | fail c =>
      rw [readUntilAux] at h
      cases h
      simp only [BufSt.bytes, List.length_nil, Spec.byteCount]
      omega
    | data b bs =>
      rw [readUntilAux] at h
      split at h
      · rename_i l' r' hs
        cases h
        have := splitNl_length hs
        simp only [List.length_cons] at this
        simp only [BufSt.bytes, Spec.byteCount, List.length_append]
        omega
      · have := ih _ h
        simp only [Spec.byteCount, List.length_append, List.length_cons] at *
        cases l <;> simp only at * <;> omega

theorem linesNext_bytes {st st' : BufSt} {x : Option (Except IoErr Str)} (h : linesNext st = (x, st')) :
    st'.bytes ≤ st.bytes ∧ (∀ line, x = some (.ok line) → st'.bytes < st.bytes) := by
  have key : ∀ l st'', readUntil st = (l, st'') → st''.bytes + (match l with | .ok bs => bs.length | .error _ => 0) ≤ st.bytes := by
    intro l st'' hr
    unfold readUntil at hr
    split at hr
    · rename_i l' r' hs
      cases hr
      have := splitNl_length hs
      simp only [BufSt.bytes]
      omega
    · have := readUntilAux_bytes _ _ _ hr
      simp only [BufSt.bytes] at *
      cases l <;> simp only at * <;> omega
  unfold linesNext at h
  rcases hr : readUntil st with ⟨_ | _ | ⟨b, bs⟩, st''⟩
  · rw [hr] at h
    cases h
    have := key _ _ hr
    exact ⟨by simpa using this, fun _ h => by cases h⟩
  · rw [hr] at h
    cases h
    have := key _ _ hr
    exact ⟨by simpa using this, fun _ h => by cases h⟩
  · rw [hr] at h
    have hk := key _ _ hr
    simp only [List.length_cons] at h hk
    split at h <;> cases h <;> exact ⟨by omega, fun _ _ => by omega⟩

/-- The line number and the bytes still to come. -/
def LineIter.room (it : LineIter) : Nat := it.n + (it.inner.map BufSt.bytes).getD 0

theorem LineIter.next_room (k : Nat) : ∀ (st : BufSt), st.size ≤ k → ∀ n, (LineIter.next ⟨n, some st⟩).2.room ≤ n + st.bytes := by
  have base : ∀ (st : BufSt) n, (∀ line st', linesNext st = (some (.ok line), st') → (LineIter.next ⟨n + 1, some st'⟩).2.room ≤ n + 1 + st'.bytes) →
      (LineIter.next ⟨n, some st⟩).2.room ≤ n + st.bytes := by
    intro st n hi
    rw [LineIter.next_some]
    rcases hl : linesNext st with ⟨_ | e | line, st'⟩
    · exact Nat.add_le_add_left (linesNext_bytes hl).1 n
    · exact Nat.le_add_right _ _
    · have hb := (linesNext_bytes hl).2 line rfl
      simp only
      rcases parseLine line n with _ | _ | _ | _ | _
      · show n + 1 + 0 ≤ n + st.bytes
        omega
      · exact Nat.le_trans (hi line st' hl) (by omega)
      all_goals
        show n + 1 + st'.bytes ≤ n + st.bytes
        omega
  induction k with
  | zero =>
    intro st hs n
    refine base st n fun line st' hl => ?_
    have := linesNext_size hl
    omega
  | succ k ih =>
    intro st hs n
    refine base st n fun line st' hl => ?_
    have := linesNext_size hl
    exact ih st' (by omega) (n + 1)

theorem LineIter.room_le (it : LineIter) : it.next.2.room ≤ it.room := by
  obtain ⟨n, inner⟩ := it
  cases inner with
  | none =>
    rw [LineIter.next.eq_def]
    exact Nat.le_refl _
  | some st => exact LineIter.next_room st.size st (Nat.le_refl _) n

theorem count_reached {w : Nat} {p0 : Peekable} {q0 : CountPeekable w} (h0 : CountPeekRel w p0 q0) {q : CountPeekable w} (h : Reached q0 q) :
    ∃ p, CountPeekRel w p q ∧ p.iter.room ≤ p0.iter.room := by
  induction h with
  | start => exact ⟨p0, h0, Nat.le_refl _⟩
  | @peek q _ ih =>
    obtain ⟨p, h1, h2⟩ := ih
    refine ⟨p.peek.2, (count_srcF.peek p q h1).2, Nat.le_trans ?_ h2⟩
    obtain ⟨it, pk⟩ := p
    cases pk with
    | none => exact it.room_le
    | some v => exact Nat.le_refl _
  | @next q _ ih =>
    obtain ⟨p, h1, h2⟩ := ih
    refine ⟨p.next.2, (count_srcF.next p q h1).2, Nat.le_trans ?_ h2⟩
    obtain ⟨it, pk⟩ := p
    cases pk with
    | none => exact it.room_le
    | some v => exact Nat.le_refl _

/-! ### The bound is sharp -/

theorem next_feeds (k n : Nat) : (LineIter.next ⟨n, some ⟨[], List.replicate k (.data 10 []), []⟩⟩).2.n = n + k := by
  induction k generalizing n with
  | zero =>
    rw [LineIter.next_some]
    rfl
  | succ k ih =>
    rw [LineIter.next_some]
    have : linesNext ⟨[], List.replicate (k + 1) (.data 10 []), []⟩ = (some (.ok []), ⟨[], List.replicate k (.data 10 []), []⟩) := by
      have hd : decodeUtf8 [10] = some ['\n'] := by decide +kernel
      rw [List.replicate_succ, linesNext]
      simp only [readUntil, splitNl, readUntilAux, if_true, List.nil_append, hd]
      rfl
    rw [this]
    have hb : parseLine [] n = some .blank := rfl
    simp only [hb]
    rw [ih]
    omega

/-! ### Readers -/

theorem newIn_id {σ : Type} [Src σ] (env : Env) (s : σ) : Reader.newIn id env s = Reader.new env s := rfl

/-- Equal states that are reached from `s0`. -/
def Both {σ : Type} [Src σ] (s0 s t : σ) : Prop := s = t ∧ Reached s0 s

theorem renumLine_id (x : PoLine) : renumLine (fun n => n) x = x := by cases x <;> rfl
theorem renumbered_id (e : Err) : renumbered (fun n => n) e = e := by cases e <;> rfl
theorem renumItem_id (x : Item) : renumItem (fun n => n) x = x := by cases x <;> simp [renumItem, renumLine_id, renumbered_id]

theorem both_srcF {σ : Type} [Src σ] (s0 : σ) : SrcF (fun n => n) (Both s0) where
  peek s t h := by
    obtain ⟨rfl, h⟩ := h
    refine ⟨?_, rfl, .peek h⟩
    cases (Src.peek s).1 <;> simp [renumItem_id]
  next s t h := by
    obtain ⟨rfl, h⟩ := h
    refine ⟨?_, rfl, .next h⟩
    cases (Src.next s).1 <;> simp [renumItem_id]

theorem renumUnit_id (x : Except Err PoUnit) : renumUnit (fun n => n) x = x := by cases x <;> simp [renumUnit, renumbered_id]

theorem reader_reached {σ : Type} [Src σ] [LawfulSrc σ] {env : Env} {s0 : σ} {r0 r : Reader σ env.Lang} (hn : Reader.new env s0 = .ok r0) (h : Called r0 r) :
    Reached s0 r.lines := by
  induction h with
  | start =>
    have h := simF_new (both_srcF s0) rfl (order := id) (fun _ => .refl _) env s0 s0 ⟨rfl, .start⟩
    rw [newIn_id, hn] at h
    cases h with
    | ok _ hr => exact hr.lines.2
  | @next r _ ih =>
    have hr : ReaderF (fun n => n) (Both s0) r.headerProperties r.headerProperties r r := by
      refine ⟨⟨rfl, ih⟩, ?_, rfl, rfl, rfl, rfl, rfl, rfl⟩
      cases r.nextUnit <;> simp [renumUnit_id]
    exact (simF_next (both_srcF s0) rfl r r hr).2.lines.2


end Verif
