import Verif.Spec.Lazy
import Verif.Props.Prefix

/-! The reader does not ask for more of the stream than it needs. -/

namespace Verif
open Spec

/-- The bytes at hand: those buffered and those of some events. -/
def hand (st : BufSt) (es : List Event) : List UInt8 := st.buf ++ (flatten es).1

theorem readUntilAux_lazy (later : List (List Event)) (post : List Event) (acc : List UInt8) (es : List Event) (hacc : splitNl acc = none) {l r : List UInt8}
    (h : splitNl (acc ++ (flatten es).1) = some (l, r)) :
    ∃ st' es', readUntilAux later acc (es ++ post) = (.ok l, st') ∧ st'.events = es' ++ post ∧ hand st' es' = r := by
  induction es generalizing acc with
  | nil => simp [flatten, hacc] at h
  | cons e es ih =>
    cases e with
    | interrupted => exact ih acc hacc h
    | fail c => simp [flatten, hacc] at h
    | data b bs =>
      simp only [flatten] at h
      rw [List.cons_append, readUntilAux]
      cases hs : splitNl (b :: bs) with
      | some lr =>
        obtain ⟨l', r'⟩ := lr
        rw [splitNl_append_none hacc, splitNl_append_some hs] at h
        simp only [Option.map_some, Option.some.injEq, Prod.mk.injEq] at h
        obtain ⟨rfl, rfl⟩ := h
        exact ⟨_, es, rfl, rfl, rfl⟩
      | none =>
        refine ih (acc ++ b :: bs) (by rw [splitNl_append_none hacc, hs]; rfl) ?_
        rw [List.append_assoc]
        exact h

theorem readUntil_lazy (st : BufSt) (post es : List Event) (he : st.events = es ++ post) {l r : List UInt8} (h : splitNl (hand st es) = some (l, r)) :
    ∃ st' es', readUntil st = (.ok l, st') ∧ st'.events = es' ++ post ∧ hand st' es' = r := by
  unfold readUntil
  cases hs : splitNl st.buf with
  | some lr =>
    obtain ⟨l', r'⟩ := lr
    rw [hand, splitNl_append_some hs] at h
    simp only [Option.some.injEq, Prod.mk.injEq] at h
    obtain ⟨rfl, rfl⟩ := h
    exact ⟨_, es, rfl, he, rfl⟩
  | none =>
    simp only
    rw [he]
    exact readUntilAux_lazy _ _ _ _ hs h

theorem linesNext_lazy (st : BufSt) (post es : List Event) (he : st.events = es ++ post) {l : List UInt8} {ls : List (List UInt8)}
    (h : (byteLines (hand st es)).1 = l :: ls) :
    ∃ st' es', linesNext st = (some (lineText l), st') ∧ st'.events = es' ++ post ∧ (byteLines (hand st' es')).1 = ls := by
  rw [byteLines_eq] at h
  cases hs : splitNl (hand st es) with
  | none => rw [hs] at h; simp at h
  | some lr =>
    obtain ⟨l', r⟩ := lr
    rw [hs] at h
    simp only [List.cons.injEq] at h
    obtain ⟨rfl, rfl⟩ := h
    obtain ⟨st', es', h1, h2, h3⟩ := readUntil_lazy st post es he hs
    refine ⟨st', es', ?_, h2, by rw [h3]⟩
    rw [lineText_code]
    unfold linesNext
    have hne := splitNl_ne_nil hs
    cases l' with
    | nil => exact absurd rfl hne
    | cons b bs =>
      rw [h1]
      cases hd : decodeUtf8 (b :: bs) <;> simp [hd]

/-- The items of the complete lines at hand. -/
noncomputable def handItems (n : Nat) (st : BufSt) (es : List Event) : List Item := items n ((byteLines (hand st es)).1.map lineText)

theorem next_lazy (post : List Event) (it : LineIter) : ∀ (st : BufSt) (es : List Event) (x : Item) (xs : List Item), it.inner = some st →
    st.events = es ++ post → handItems it.n st es = x :: xs →
    it.next.1 = some x ∧ (∀ st', it.next.2.inner = some st' → ∃ es', st'.events = es' ++ post ∧ handItems it.next.2.n st' es' = xs) ∧
    (it.next.2.inner = none → ∃ e, x = .error e) := by
  induction it using LineIter.next.induct with
  | case1 it hi => intro st es x xs h; rw [hi] at h; cases h
  | case2 it st hi st' h =>
    intro st0 es x xs h0 he hx
    rw [hi] at h0; cases h0
    unfold handItems at hx
    cases hb : (byteLines (hand st es)).1 with
    | nil => rw [hb] at hx; simp [items] at hx
    | cons l ls =>
      obtain ⟨st'', es', h1, _⟩ := linesNext_lazy st post es he hb
      rw [h] at h1; simp at h1
  | case3 it st hi e st' h =>
    intro st0 es x xs h0 he hx
    rw [hi] at h0; cases h0
    have hnext : it.next = (some (.error (.io it.n e)), { it with inner := none }) := by
      rw [LineIter.next.eq_def]; split
      · simp_all
      · rename_i st2 hi2
        rw [hi] at hi2; cases hi2
        split <;> simp_all
    rw [hnext]
    unfold handItems at hx
    cases hb : (byteLines (hand st es)).1 with
    | nil => rw [hb] at hx; simp [items] at hx
    | cons l ls =>
      obtain ⟨st'', es', h1, _⟩ := linesNext_lazy st post es he hb
      rw [h] at h1
      simp only [Prod.mk.injEq, Option.some.injEq] at h1
      rw [hb, List.map_cons, ← h1.1] at hx
      simp only [items, List.cons.injEq] at hx
      exact ⟨by rw [hx.1], by simp, fun _ => ⟨_, hx.1.symm⟩⟩
  | case4 it st hi line st' h hp ih =>
    intro st0 es x xs h0 he hx
    rw [hi] at h0; cases h0
    have hnext : it.next = LineIter.next ⟨it.n + 1, some st'⟩ := by
      rw [LineIter.next.eq_def]; split
      · simp_all
      · rename_i st2 hi2
        rw [hi] at hi2; cases hi2
        split
        · simp_all
        · simp_all
        · rename_i h2; rw [h] at h2; cases h2
          rw [hp]
    rw [hnext]
    unfold handItems at hx
    cases hb : (byteLines (hand st es)).1 with
    | nil => rw [hb] at hx; simp [items] at hx
    | cons l ls =>
      obtain ⟨st'', es', h1, h2, h3⟩ := linesNext_lazy st post es he hb
      rw [h] at h1
      simp only [Prod.mk.injEq, Option.some.injEq] at h1
      obtain ⟨h1, rfl⟩ := h1
      rw [hb, List.map_cons, ← h1] at hx
      simp only [items, hp] at hx
      exact ih st' es' x xs rfl h2 (by unfold handItems; rw [h3]; exact hx)
  | case5 it st hi line st' h p hnb hp =>
    intro st0 es x xs h0 he hx
    rw [hi] at h0; cases h0
    have hnext : it.next = (some (.ok p), ⟨it.n + 1, some st'⟩) := by
      rw [LineIter.next.eq_def]; split
      · simp_all
      · rename_i st2 hi2
        rw [hi] at hi2; cases hi2
        split
        · simp_all
        · simp_all
        · rename_i h2; rw [h] at h2; cases h2
          rw [hp]
          cases p <;> simp_all
    rw [hnext]
    unfold handItems at hx
    cases hb : (byteLines (hand st es)).1 with
    | nil => rw [hb] at hx; simp [items] at hx
    | cons l ls =>
      obtain ⟨st'', es', h1, h2, h3⟩ := linesNext_lazy st post es he hb
      rw [h] at h1
      simp only [Prod.mk.injEq, Option.some.injEq] at h1
      obtain ⟨h1, rfl⟩ := h1
      rw [hb, List.map_cons, ← h1] at hx
      have hx : .ok p :: items (it.n + 1) (ls.map lineText) = x :: xs := by
        rw [← hx]
        simp only [items, hp]
      simp only [List.cons.injEq] at hx
      refine ⟨by rw [hx.1], ?_, by simp⟩
      intro st3 h4
      cases h4
      exact ⟨es', h2, by unfold handItems; rw [h3]; exact hx.2⟩
  | case6 it st hi line st' h hp =>
    intro st0 es x xs h0 he hx
    rw [hi] at h0; cases h0
    have hnext : it.next = (some (.error (.parse (it.n + 1) line [])), ⟨it.n + 1, none⟩) := by
      rw [LineIter.next.eq_def]; split
      · simp_all
      · rename_i st2 hi2
        rw [hi] at hi2; cases hi2
        split
        · simp_all
        · simp_all
        · rename_i h2; rw [h] at h2; cases h2
          rw [hp]
    rw [hnext]
    unfold handItems at hx
    cases hb : (byteLines (hand st es)).1 with
    | nil => rw [hb] at hx; simp [items] at hx
    | cons l ls =>
      obtain ⟨st'', es', h1, h2, h3⟩ := linesNext_lazy st post es he hb
      rw [h] at h1
      simp only [Prod.mk.injEq, Option.some.injEq] at h1
      obtain ⟨h1, rfl⟩ := h1
      rw [hb, List.map_cons, ← h1] at hx
      simp only [items, hp, List.cons.injEq] at hx
      exact ⟨by rw [hx.1], by simp, fun _ => ⟨_, hx.1.symm⟩⟩

/-- One if an item is remembered. -/
def peekCount (p : Peekable) : Nat := match p.peeked with | some (some _) => 1 | _ => 0

/-- The line source and the items it will still deliver; while more than `t` of these are left, nothing of `post` has been asked for, and all but `t` of
them are at hand.  `b` are the items that were at hand at the beginning; if these can all be read, the stream is not given up. -/
def LazyRel (post : List Event) (b : List Item) (t : Nat) (p : Peekable) (l : List Item) : Prop :=
  p.Rel (l.map some) ∧ (t < l.length →
    (∀ st, p.iter.inner = some st →
      ∃ es, st.events = es ++ post ∧ l.length ≤ t + (peekCount p + (handItems p.iter.n st es).length) ∧ handItems p.iter.n st es <:+ b) ∧
    (p.iter.inner = none → ∃ e, .error e ∈ b))

theorem LineIter.next_none (it : LineIter) (h : it.inner = none) : it.next.2.inner = none := by
  rw [LineIter.next.eq_def]
  split
  · exact h
  · simp_all

theorem lazy_step {post : List Event} {b : List Item} {t m : Nat} {it : LineIter} (hm : t < m)
    (h2 : (∀ st, it.inner = some st → ∃ es, st.events = es ++ post ∧ m ≤ t + (0 + (handItems it.n st es).length) ∧ handItems it.n st es <:+ b) ∧
      (it.inner = none → ∃ e, .error e ∈ b)) :
    (∀ st, it.next.2.inner = some st → it.next.1 ≠ none ∧
      ∃ es, st.events = es ++ post ∧ m ≤ t + (1 + (handItems it.next.2.n st es).length) ∧ handItems it.next.2.n st es <:+ b) ∧
    (it.next.2.inner = none → ∃ e, .error e ∈ b) := by
  obtain ⟨h2, h3⟩ := h2
  cases hi : it.inner with
  | none =>
    have := LineIter.next_none it hi
    exact ⟨fun st h => (by rw [this] at h; cases h), fun _ => h3 hi⟩
  | some st0 =>
    obtain ⟨es, he, hlen, hsuf⟩ := h2 st0 hi
    cases hx : handItems it.n st0 es with
    | nil => rw [hx] at hlen; simp at hlen; omega
    | cons x xs =>
      obtain ⟨h5, h6, h7⟩ := next_lazy post it st0 es x xs hi he hx
      rw [hx] at hlen hsuf
      simp only [List.length_cons] at hlen
      constructor
      · intro st hst
        obtain ⟨es', h8, h9⟩ := h6 st hst
        refine ⟨by rw [h5]; simp, es', h8, ?_, ?_⟩
        · rw [h9]; omega
        · rw [h9]; exact (List.suffix_cons _ _).trans hsuf
      · intro hn
        obtain ⟨e, rfl⟩ := h7 hn
        exact ⟨e, hsuf.mem List.mem_cons_self⟩

theorem lazy_srcRel (post : List Event) (b : List Item) (t : Nat) : SrcRel (LazyRel post b t) where
  peek p l h := by
    obtain ⟨h1, h2⟩ := h
    obtain ⟨h3, h4⟩ := peekable_srcRel.peek p _ h1
    refine ⟨?_, h4, ?_⟩
    · rw [h3]; cases l <;> rfl
    · obtain ⟨it, pk⟩ := p
      cases pk with
      | some v => exact h2
      | none =>
        intro hl
        obtain ⟨h5, h6⟩ := lazy_step hl (h2 hl)
        refine ⟨?_, h6⟩
        intro st hst
        obtain ⟨h7, es, h8, h9, h10⟩ := h5 st hst
        refine ⟨es, h8, ?_, h10⟩
        show l.length ≤ t + ((match (some it.next.1 : Option (Option Item)) with | some (some _) => 1 | _ => 0) + (handItems it.next.2.n st es).length)
        cases hn : it.next.1 with
        | none => exact absurd hn h7
        | some x => exact h9
  next p l h := by
    obtain ⟨h1, h2⟩ := h
    obtain ⟨h3, h4⟩ := peekable_srcRel.next p _ h1
    have e : (Src.next (l.map some : List (Option Item))).2 = (Src.next l).2.map some := by cases l <;> rfl
    rw [e] at h4
    refine ⟨?_, h4, ?_⟩
    · rw [h3]; cases l <;> rfl
    · show t < l.tail.length → _
      intro hl
      have hl' : l.tail.length + 1 = l.length := by cases l with | nil => simp at hl | cons => simp
      have h2 := h2 (by omega)
      obtain ⟨it, pk⟩ := p
      cases pk with
      | some v =>
        refine ⟨?_, h2.2⟩
        intro st hst
        obtain ⟨es, he, hlen, hsuf⟩ := h2.1 st hst
        refine ⟨es, he, ?_, hsuf⟩
        have hlen : l.length ≤ t + (peekCount ⟨it, some v⟩ + (handItems it.n st es).length) := hlen
        have hle : peekCount ⟨it, some v⟩ ≤ 1 := by cases v <;> simp [peekCount]
        show l.tail.length ≤ t + (0 + (handItems it.n st es).length)
        omega
      | none =>
        obtain ⟨h5, h6⟩ := lazy_step (m := l.length) (by omega) h2
        refine ⟨?_, h6⟩
        intro st hst
        obtain ⟨h7, es, h8, h9, h10⟩ := h5 st hst
        refine ⟨es, h8, ?_, h10⟩
        have h9 : l.length ≤ t + (1 + (handItems it.next.2.n st es).length) := h9
        show l.tail.length ≤ t + (0 + (handItems it.next.2.n st es).length)
        omega

end Verif
