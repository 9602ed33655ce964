import Verif.Spec.Places
import Verif.Spec.Catalogue
import Verif.Lemmas.Header

/-! Runs over the same lines with other numbers. -/

namespace Verif
open Spec

/-- A line with the number 0. -/
def unnum : PoLine → PoLine
  | .blank => .blank
  | .comment _ c s => .comment 0 c s
  | .message _ p t s => .message 0 p t s
  | .continuation _ p s => .continuation 0 p s

/-- The same lines apart from numbers. -/
def Alike (b b' : List PoLine) : Prop := b.map unnum = b'.map unnum

theorem Alike.symm {b b' : List PoLine} (h : Alike b b') : Alike b' b := Eq.symm h

theorem Alike.nil {b' : List PoLine} (h : Alike [] b') : b' = [] := by
  simpa [Alike] using h.symm

theorem Alike.append {a b b' : List PoLine} (h : Alike (a ++ b) b') : ∃ a' c', b' = a' ++ c' ∧ Alike a a' ∧ Alike b c' := by
  unfold Alike at h
  rw [List.map_append] at h
  obtain ⟨a', c', h1, h2, h3⟩ := List.map_eq_append_iff.mp h.symm
  exact ⟨a', c', h1, h2.symm, h3.symm⟩

theorem Alike.append_both {a b a' b' : List PoLine} (h : Alike a a') (h' : Alike b b') : Alike (a ++ b) (a' ++ b') := by
  unfold Alike at *
  rw [List.map_append, List.map_append, h, h']

theorem alike_comments {cs : List (Nat × Char × Str)} : ∀ {b' : List PoLine}, Alike (cs.map commentLine) b' →
    ∃ cs' : List (Nat × Char × Str), b' = cs'.map commentLine ∧ cs'.map Prod.snd = cs.map Prod.snd := by
  induction cs with
  | nil => intro b' h; exact ⟨[], h.nil, rfl⟩
  | cons c cs ih =>
    intro b' h
    cases b' with
    | nil => simp [Alike] at h
    | cons x b' =>
      simp only [Alike, List.map_cons, List.cons.injEq] at h
      obtain ⟨cs', rfl, h2⟩ := ih (b' := b') h.2
      obtain ⟨n, k, s⟩ := c
      cases x with
      | comment n' k' s' =>
        have := h.1
        simp only [commentLine, unnum, PoLine.comment.injEq, true_and] at this
        obtain ⟨rfl, rfl⟩ := this
        exact ⟨(n', k, s) :: cs', rfl, by simp [h2]⟩
      | _ => simp [commentLine, unnum] at h

theorem alike_conts {p : Str} {cs : List (Nat × Str)} : ∀ {b' : List PoLine}, Alike (cs.map fun c => .continuation c.1 p c.2) b' →
    ∃ cs' : List (Nat × Str), b' = cs'.map (fun c => .continuation c.1 p c.2) ∧ cs'.map Prod.snd = cs.map Prod.snd := by
  induction cs with
  | nil => intro b' h; exact ⟨[], h.nil, rfl⟩
  | cons c cs ih =>
    intro b' h
    cases b' with
    | nil => simp [Alike] at h
    | cons x b' =>
      simp only [Alike, List.map_cons, List.cons.injEq] at h
      obtain ⟨cs', rfl, h2⟩ := ih (b' := b') h.2
      obtain ⟨n, s⟩ := c
      cases x with
      | continuation n' p' s' =>
        have := h.1
        simp only [unnum, PoLine.continuation.injEq, true_and] at this
        obtain ⟨rfl, rfl⟩ := this
        exact ⟨(n', s) :: cs', rfl, by simp [h2]⟩
      | _ => simp [unnum] at h

theorem field_alike {kw : Str} {o : Bool} {b b' : List PoLine} {v : Str} (h : Field kw o b v) (ha : Alike b b') : Field kw o b' v := by
  obtain ⟨p, ⟨n, s, cs, rfl, rfl⟩, h2⟩ := h
  refine ⟨p, ?_, h2⟩
  cases b' with
  | nil => simp [Alike] at ha
  | cons x b' =>
    simp only [Alike, List.map_cons, List.cons.injEq] at ha
    obtain ⟨cs', rfl, h3⟩ := alike_conts (b' := b') ha.2
    cases x with
    | message n' p' t' s' =>
      have := ha.1
      simp only [unnum, PoLine.message.injEq, true_and] at this
      obtain ⟨rfl, rfl, rfl⟩ := this
      exact ⟨n', s, cs', rfl, by rw [h3]⟩
    | _ => simp [unnum] at ha

theorem optField_alike {kw : Str} {o : Bool} {b b' : List PoLine} {v : Option Str} (h : OptField kw o b v) (ha : Alike b b') : OptField kw o b' v := by
  cases h with
  | none => rw [ha.nil]; exact .none
  | some h => exact .some (field_alike h ha)

theorem values_alike {o : Bool} {hi lo : Nat} {b b' : List PoLine} {vs : List Str} (h : ValueFields o hi lo b vs) (ha : Alike b b') : ValueFields o hi lo b' vs := by
  induction h generalizing b' with
  | nil => rw [ha.nil]; exact .nil
  | cons h1 h2 h3 _ ih =>
    obtain ⟨a', c', rfl, ha1, ha2⟩ := ha.append
    exact .cons h1 h2 (field_alike h3 ha1) (ih ha2)

theorem texts_alike {forms : Option PluralForms} {o : Bool} {id : Str} {pl : Option Str} {b b' : List PoLine} {m : Message}
    (h : TextFields forms o id pl b m) (ha : Alike b b') : TextFields forms o id pl b' m := by
  cases h with
  | simple h => exact .simple (field_alike h ha)
  | plural h h' => exact .plural (values_alike h ha) h'

theorem head_alike {o : Bool} {b b' : List PoLine} (h : EntryHead o b) (ha : Alike b b') : EntryHead o b' := by
  obtain ⟨cs, b1, b2, b3, b4, v1, v2, v3, v4, rfl, f1, f2, f3, f4, f5⟩ := h
  obtain ⟨c', d, rfl, a0, ha⟩ := ha.append
  obtain ⟨d1, d, rfl, a1, ha⟩ := ha.append
  obtain ⟨d2, d, rfl, a2, ha⟩ := ha.append
  obtain ⟨d3, d4, rfl, a3, a4⟩ := ha.append
  obtain ⟨cs', rfl, _⟩ := alike_comments a0
  exact ⟨cs', d1, d2, d3, d4, v1, v2, v3, v4, rfl, optField_alike f1 a1, optField_alike f2 a2, optField_alike f3 a3, f4, optField_alike f5 a4⟩

theorem ids_alike {o : Bool} {pl : Option Str} {b b' : List PoLine} (h : EntryIds o pl b) (ha : Alike b b') : EntryIds o pl b' := by
  obtain ⟨b0, b5, b6, id, rfl, f1, f2, f3⟩ := h
  obtain ⟨d0, d, rfl, a0, ha⟩ := ha.append
  obtain ⟨d5, d6, rfl, a5, a6⟩ := ha.append
  exact ⟨d0, d5, d6, id, rfl, head_alike f1 a0, field_alike f2 a5, optField_alike f3 a6⟩

theorem stray_alike {b b' : List PoLine} (h : StrayPlural b) (ha : Alike b b') : StrayPlural b' := by
  obtain ⟨o, b0, b6, pl, rfl, f1, f2⟩ := h
  obtain ⟨d0, d6, rfl, a0, a6⟩ := ha.append
  exact ⟨o, d0, d6, pl, rfl, head_alike f1 a0, field_alike f2 a6⟩

theorem entry_alike {forms : Option PluralForms} {b b' : List PoLine} {u : PoUnit} (h : Entry forms b u) (ha : Alike b b') : Entry forms b' u := by
  obtain ⟨cs, b1, b2, b3, b4, b5, b6, b7, v1, v2, v3, v4, rfl, f1, f2, f3, f4, f5, f6, f7, f8, f9, f10, f11⟩ := h
  obtain ⟨c', d, rfl, a0, ha⟩ := ha.append
  obtain ⟨d1, d, rfl, a1, ha⟩ := ha.append
  obtain ⟨d2, d, rfl, a2, ha⟩ := ha.append
  obtain ⟨d3, d, rfl, a3, ha⟩ := ha.append
  obtain ⟨d4, d, rfl, a4, ha⟩ := ha.append
  obtain ⟨d5, d, rfl, a5, ha⟩ := ha.append
  obtain ⟨d6, d7, rfl, a6, a7⟩ := ha.append
  obtain ⟨cs', rfl, hc⟩ := alike_comments a0
  exact ⟨cs', d1, d2, d3, d4, d5, d6, d7, v1, v2, v3, v4, rfl, optField_alike f1 a1, optField_alike f2 a2, optField_alike f3 a3, f4,
    optField_alike f5 a4, field_alike f6 a5, optField_alike f7 a6, texts_alike f8 a7, f9, hc ▸ f10, f11⟩

theorem prefix_alike {forms : Option PluralForms} {b b' : List PoLine} (h : EntryPrefix forms b) (ha : Alike b b') : EntryPrefix forms b' := by
  rcases h with ⟨o, h⟩ | ⟨o, pl, h⟩ | ⟨u, h⟩
  · exact .inl ⟨o, head_alike h ha⟩
  · exact .inr (.inl ⟨o, pl, ids_alike h ha⟩)
  · exact .inr (.inr ⟨u, entry_alike h ha⟩)

theorem firstPrefix_alike {b b' : List PoLine} (h : FirstPrefix b) (ha : Alike b b') : FirstPrefix b' := by
  rcases h with h | h
  · exact .inl (prefix_alike h ha)
  · exact .inr (stray_alike h ha)

theorem isComment_alike {x y : PoLine} (h : unnum x = unnum y) (hx : IsComment x) : IsComment y := by
  obtain ⟨c, rfl⟩ := hx
  cases y with
  | comment n k s => exact ⟨(n, k, s), rfl⟩
  | _ => simp [commentLine, unnum] at h

theorem shown_alike {x y : PoLine} (h : unnum x = unnum y) : shown x = shown y := by
  cases x <;> cases y <;> simp [unnum] at h <;> simp [shown, h]

theorem commentOf_alike {b b' : List PoLine} (h : Alike b b') : b.filterMap commentOf = b'.filterMap commentOf := by
  have key : ∀ b : List PoLine, b.filterMap commentOf = (b.map unnum).filterMap commentOf := by
    intro b
    rw [List.filterMap_map]
    congr 1
    funext x
    cases x <;> rfl
  rw [key b, key b', h]

/-! ### Items at corresponding places -/

/-- The same items at places that correspond. -/
inductive ItemsAt (P : Nat → Nat → Prop) : List Item → List Item → Prop
  | nil : ItemsAt P [] []
  | line {x y l l'} : unnum x = unnum y → P (lineNumber x) (lineNumber y) → ItemsAt P l l' → ItemsAt P (.ok x :: l) (.ok y :: l')
  | error {e e' l l'} : Moved P e e' → ItemsAt P l l' → ItemsAt P (.error e :: l) (.error e' :: l')

theorem ItemsAt.block {P : Nat → Nat → Prop} {b : List PoLine} {rest l' : List Item} (h : ItemsAt P (b.map .ok ++ rest) l') :
    ∃ b' rest', l' = b'.map .ok ++ rest' ∧ Alike b b' ∧ ItemsAt P (b.map .ok) (b'.map .ok) ∧ ItemsAt P rest rest' := by
  induction b generalizing l' with
  | nil => exact ⟨[], l', rfl, rfl, .nil, h⟩
  | cons x b ih =>
    rw [List.map_cons, List.cons_append] at h
    cases h with
    | line h1 h2 h3 =>
      obtain ⟨b', rest', rfl, h4, h5, h6⟩ := ih h3
      exact ⟨_ :: b', rest', rfl, by simp only [Alike, List.map_cons, h1]; rw [show b.map unnum = _ from h4], .line h1 h2 h5, h6⟩

theorem ends_alike {P : Nat → Nat → Prop} {forms : Option PluralForms} {b b' : List PoLine} {rest rest' : List Item} (ha : Alike b b')
    (hr : ItemsAt P rest rest') (h : EndsHere forms b rest) : EndsHere forms b' rest' := by
  rcases h with rfl | ⟨ln, tl, rfl, h⟩
  · cases hr; exact .inl rfl
  · cases hr with
    | line h1 h2 h3 =>
      refine .inr ⟨_, _, rfl, fun hp => h (prefix_alike hp (Alike.append_both ha.symm ?_))⟩
      simp [Alike, h1]

theorem firstEnds_alike {P : Nat → Nat → Prop} {b b' : List PoLine} {rest rest' : List Item} (ha : Alike b b')
    (hr : ItemsAt P rest rest') (h : FirstEnds b rest) : FirstEnds b' rest' := by
  rcases h with rfl | ⟨ln, tl, rfl, h⟩
  · cases hr; exact .inl rfl
  · cases hr with
    | line h1 h2 h3 =>
      refine .inr ⟨_, _, rfl, fun hp => h (firstPrefix_alike hp (Alike.append_both ha.symm ?_))⟩
      simp [Alike, h1]

variable {P : Nat → Nat → Prop} (hP : ∀ {k k'}, P k k' → 1 ≤ k ∧ 1 ≤ k')
include hP

theorem moved_missing {x y : PoLine} (h : unnum x = unnum y) (hp : P (lineNumber x) (lineNumber y)) {kw : Str} (hk : kw ≠ []) :
    Moved P (missing kw x) (missing kw y) :=
  ⟨by simp [SameErr, missing, unnumbered, shown_alike h], _, _, .missing (hP hp).1 hk, .missing (hP hp).2 hk, hp⟩

theorem stops_moved {forms : Option PluralForms} {l l' : List Item} {e : Option Err} (h : Stops forms l e) (hi : ItemsAt P l l') :
    ∃ e', Stops forms l' e' ∧ MovedEnd P e e' := by
  cases h with
  | @endsInHead o block h =>
    rw [← List.append_nil (block.map _)] at hi
    obtain ⟨b', r', rfl, h1, _, h2⟩ := hi.block
    cases h2
    rw [List.append_nil]
    exact ⟨_, .endsInHead (head_alike h h1), .none⟩
  | @endsAfterIds o pl block h =>
    rw [← List.append_nil (block.map _)] at hi
    obtain ⟨b', r', rfl, h1, _, h2⟩ := hi.block
    cases h2
    rw [List.append_nil]
    exact ⟨_, .endsAfterIds (ids_alike h h1), .none⟩
  | unreadable h =>
    obtain ⟨b', r', rfl, h1, _, h2⟩ := hi.block
    cases h2 with
    | error h3 h4 => exact ⟨_, .unreadable (prefix_alike h h1), .some h3⟩
  | noId h h' =>
    obtain ⟨b', r', rfl, h1, _, h2⟩ := hi.block
    cases h2 with
    | line h3 h4 h5 =>
      refine ⟨_, .noId (head_alike h h1) fun hp => h' (prefix_alike hp (Alike.append_both h1.symm (by simp [Alike, h3]))), .some ?_⟩
      exact moved_missing hP h3 h4 (by simp)
  | noText h h' =>
    obtain ⟨b', r', rfl, h1, _, h2⟩ := hi.block
    cases h2 with
    | line h3 h4 h5 =>
      refine ⟨_, .noText (ids_alike h h1) fun hp => h' (prefix_alike hp (Alike.append_both h1.symm (by simp [Alike, h3]))), .some ?_⟩
      exact moved_missing hP h3 h4 (by cases ‹Option Str› <;> simp [textKeyword])
  | @noSource cs ln block u rest t h h1 h2 h3 h4 =>
    obtain ⟨b', r', rfl, h5, h6, h7⟩ := hi.block
    rw [List.map_append, List.map_cons] at h6
    obtain ⟨c', d', he, h8, _, h10⟩ := h6.block
    cases h10 with
    | @line _ y _ l' i1 i2 i3 =>
      obtain ⟨e0, e1, rfl, j1, j2⟩ := List.map_eq_append_iff.mp he
      have : ∃ e2, e1 = y :: e2 := by
        cases e1 with
        | nil => simp at j2
        | cons z e1 => simp only [List.map_cons, List.cons.injEq, Except.ok.injEq] at j2; exact ⟨e1, by rw [j2.1]⟩
      obtain ⟨e2, rfl⟩ := this
      have hc : e0 = c' := (List.map_inj_right (fun a b => Except.ok.inj)).mp j1
      subst hc
      refine ⟨_, .noSource (entry_alike h h5) ?_ (fun hy => h2 (isComment_alike i1.symm hy)) h3 (ends_alike h5 h7 h4), .some ?_⟩
      · obtain ⟨ds, rfl⟩ := all_comments h1
        obtain ⟨ds', rfl, _⟩ := alike_comments h8
        intro c hc
        obtain ⟨d, _, rfl⟩ := List.mem_map.mp hc
        exact ⟨d, rfl⟩
      · exact ⟨by simp [SameErr, unnumbered], _, _, .noSource (hP i2).1, .noSource (hP i2).2, i2⟩

theorem run_moved {forms : Option PluralForms} {l l' : List Item} {us : List PoUnit} {e : Option Err} (h : Run forms l us e) (hi : ItemsAt P l l') :
    ∃ e', Run forms l' us e' ∧ MovedEnd P e e' := by
  induction h generalizing l' with
  | stop h =>
    obtain ⟨e', h1, h2⟩ := stops_moved hP h hi
    exact ⟨e', .stop h1, h2⟩
  | entry h1 h2 h3 _ ih =>
    obtain ⟨b', r', rfl, h5, _, h6⟩ := hi.block
    obtain ⟨e', h7, h8⟩ := ih h6
    exact ⟨e', .entry (entry_alike h1 h5) h2 (ends_alike h5 h6 h3) h7, h8⟩

/-- The same first entry, with the rest at corresponding places. -/
inductive FirstMoved (P : Nat → Nat → Prop) : FirstOut → FirstOut → Prop
  | unit {u l l'} : ItemsAt P l l' → FirstMoved P (.unit u l) (.unit u l')
  | header {ns cs t l l'} : ItemsAt P l l' → FirstMoved P (.header ns cs t l) (.header ns cs t l')
  | nothing : FirstMoved P .nothing .nothing
  | fail {e e'} : Moved P e e' → FirstMoved P (.fail e) (.fail e')

theorem first_moved {l l' : List Item} {o : FirstOut} (h : First l o) (hi : ItemsAt P l l') : ∃ o', First l' o' ∧ FirstMoved P o o' := by
  cases h with
  | unit h1 h2 h3 =>
    obtain ⟨b', r', rfl, h5, _, h6⟩ := hi.block
    exact ⟨_, .unit (entry_alike h1 h5) h2 (ends_alike h5 h6 h3), .unit h6⟩
  | header h1 h2 h3 =>
    obtain ⟨b', r', rfl, h5, _, h6⟩ := hi.block
    exact ⟨_, .header (entry_alike h1 h5) h2 (ends_alike h5 h6 h3), .header h6⟩
  | @noId block rest h1 h2 h3 =>
    obtain ⟨b', r', rfl, h5, _, h6⟩ := hi.block
    refine ⟨_, .noId ?_ ?_ (firstEnds_alike h5 h6 h3), ?_⟩
    · rcases h1 with ⟨o, h1⟩ | h1
      · exact .inl ⟨o, head_alike h1 h5⟩
      · exact .inr (stray_alike h1 h5)
    · rcases h2 with h2 | ⟨x, hx, hn⟩
      · refine .inl fun hr => h2 ?_
        subst hr
        cases h6
        rfl
      · right
        have : unnum x ∈ b'.map unnum := by rw [← show block.map unnum = _ from h5]; exact List.mem_map_of_mem hx
        obtain ⟨y, hy, he⟩ := List.mem_map.mp this
        exact ⟨y, hy, fun hc => hn (isComment_alike he hc)⟩
    · rw [show notesOf b' = notesOf block by rw [notesOf, notesOf, commentOf_alike h5],
        show commentsOf b' = commentsOf block by rw [commentsOf, commentsOf, commentOf_alike h5]]
      exact .header h6
  | @comments block h =>
    rw [← List.append_nil (block.map _)] at hi
    obtain ⟨b', r', rfl, h1, _, h2⟩ := hi.block
    cases h2
    rw [List.append_nil]
    refine ⟨_, .comments ?_, .nothing⟩
    obtain ⟨ds, rfl⟩ := all_comments h
    obtain ⟨ds', rfl, _⟩ := alike_comments h1
    intro c hc
    obtain ⟨d, _, rfl⟩ := List.mem_map.mp hc
    exact ⟨d, rfl⟩
  | @cut o pl block h =>
    rw [← List.append_nil (block.map _)] at hi
    obtain ⟨b', r', rfl, h1, _, h2⟩ := hi.block
    cases h2
    rw [List.append_nil]
    exact ⟨_, .cut (ids_alike h h1), .nothing⟩
  | unreadable h =>
    obtain ⟨b', r', rfl, h1, _, h2⟩ := hi.block
    cases h2 with
    | error h3 h4 => exact ⟨_, .unreadable (firstPrefix_alike h h1), .fail h3⟩
  | noText h h' =>
    obtain ⟨b', r', rfl, h1, _, h2⟩ := hi.block
    cases h2 with
    | line h3 h4 h5 =>
      refine ⟨_, .noText (ids_alike h h1) fun hp => h' (prefix_alike hp (Alike.append_both h1.symm (by simp [Alike, h3]))), .fail ?_⟩
      exact moved_missing hP h3 h4 (by cases ‹Option Str› <;> simp [textKeyword])

theorem reads_moved {env : Env} {l l' : List Item} {hdr : Header env.Lang} {forms : Option PluralForms} {us : List PoUnit} {e : Option Err}
    (h : Reads env l hdr forms us e) (hi : ItemsAt P l l') : ∃ e', Reads env l' hdr forms us e' ∧ MovedEnd P e e' := by
  cases h with
  | nothing h =>
    obtain ⟨o', h1, h2⟩ := first_moved hP h hi
    cases h2
    exact ⟨_, .nothing h1, .none⟩
  | plain h h' =>
    obtain ⟨o', h1, h2⟩ := first_moved hP h hi
    cases h2 with
    | unit h2 =>
      obtain ⟨e', h3, h4⟩ := run_moved hP h' h2
      exact ⟨_, .plain h1 h3, h4⟩
  | headed h r1 r2 h' =>
    obtain ⟨o', h1, h2⟩ := first_moved hP h hi
    cases h2 with
    | header h2 =>
      obtain ⟨e', h3, h4⟩ := run_moved hP h' h2
      exact ⟨_, .headed h1 r1 r2 h3, h4⟩

theorem rejects_moved {env : Env} {l l' : List Item} {e : Err} (h : Rejects env l e) (hi : ItemsAt P l l') :
    ∃ e', Rejects env l' e' ∧ (Moved P e e' ∨ e' = e ∧ ∃ s, FormsError env s e) := by
  cases h with
  | first h =>
    obtain ⟨o', h1, h2⟩ := first_moved hP h hi
    cases h2 with
    | fail h2 => exact ⟨_, .first h1, .inl h2⟩
  | badForms h r1 r2 =>
    obtain ⟨o', h1, h2⟩ := first_moved hP h hi
    cases h2 with
    | header h2 =>
      refine ⟨e, .badForms h1 r1 r2, .inr ⟨rfl, ?_⟩⟩
      generalize List.lookup (c!"Plural-Forms") _ = p at r2
      cases r2 with
      | bad _ h => exact ⟨_, h⟩

omit hP

/-! ### The items of lines -/

theorem parseLine_number (s : Str) (n m : Nat) :
    (parseLine s n = none ∧ parseLine s m = none) ∨ (parseLine s n = some .blank ∧ parseLine s m = some .blank) ∨
    ∃ x y, parseLine s n = some x ∧ parseLine s m = some y ∧ x ≠ .blank ∧ y ≠ .blank ∧ unnum x = unnum y ∧ lineNumber x = n ∧ lineNumber y = m := by
  unfold parseLine
  split
  · exact .inr (.inl ⟨rfl, rfl⟩)
  · split
    · dsimp only
      split <;> exact .inr (.inr ⟨_, _, rfl, rfl, by simp, by simp, rfl, rfl, rfl⟩)
    · split
      · exact .inl ⟨rfl, rfl⟩
      · exact .inr (.inr ⟨_, _, rfl, rfl, by simp, by simp, rfl, rfl, rfl⟩)

theorem items_line {s : Str} {n : Nat} {x : PoLine} (h : parseLine s n = some x) (hx : x ≠ .blank) (rs : List (Except IoErr Str)) :
    items n (.ok s :: rs) = .ok x :: items (n + 1) rs := by
  rw [items, h]
  cases x with
  | blank => exact absurd rfl hx
  | _ => rfl

theorem items_shift (rs : List (Except IoErr Str)) (n d : Nat) (hn : 1 ≤ n) : ItemsAt (fun k k' => 1 ≤ k ∧ k' = k + d) (items n rs) (items (n + d) rs) := by
  induction rs generalizing n with
  | nil => exact .nil
  | cons r rs ih =>
    have ih := ih (n + 1) (by omega)
    rw [show n + 1 + d = n + d + 1 by omega] at ih
    cases r with
    | error e => exact .error ⟨rfl, n, n + d, .io hn, .io (by omega), hn, rfl⟩ .nil
    | ok s =>
      rcases parseLine_number s n (n + d) with ⟨h1, h2⟩ | ⟨h1, h2⟩ | ⟨x, y, h1, h2, h3, h4, h5, h6, h7⟩
      · rw [items, items, h1, h2]
        exact .error ⟨rfl, n, n + d, .unrecognised hn, .unrecognised (by omega), hn, rfl⟩ .nil
      · rw [items, items, h1, h2]
        exact ih
      · rw [items_line h1 h3, items_line h2 h4]
        exact .line h5 (by rw [h6, h7]; exact ⟨hn, rfl⟩) ih

theorem parseLine_blank_iff (s : Str) (n : Nat) : parseLine s n = some .blank ↔ White s := by
  unfold parseLine
  constructor
  · intro h
    split at h
    · rename_i hb
      intro c hc
      simp only [Bool.not_eq_true', List.any_eq_false] at hb
      simpa using hb c hc
    · split at h
      · dsimp only at h
        split at h <;> simp at h
      · split at h <;> simp at h
  · intro h
    rw [if_pos]
    simp only [Bool.not_eq_true', List.any_eq_false]
    intro c hc
    simp [h c hc]

theorem samePlace_here {pre pre' rs rs' : List (Except IoErr Str)} {r : Except IoErr Str} (hp : pre.filter notBlank = pre'.filter notBlank) (hr : notBlank r = true) :
    SamePlace (pre ++ r :: rs) (pre' ++ r :: rs') (pre.length + 1) (pre'.length + 1) :=
  ⟨by omega, by omega, by simpa using hp, r, hr, by simp, by simp⟩

theorem items_blank (rs : List (Except IoErr Str)) : ∀ (rs' pre pre' : List (Except IoErr Str)), pre.filter notBlank = pre'.filter notBlank →
    rs.filter notBlank = rs'.filter notBlank →
    ItemsAt (SamePlace (pre ++ rs) (pre' ++ rs')) (items (pre.length + 1) rs) (items (pre'.length + 1) rs') := by
  -- blank lines at the beginning of the first input
  have left : ∀ (s : Str) (rs rs' pre pre' : List (Except IoErr Str)), White s →
      (∀ pre : List (Except IoErr Str), pre.filter notBlank = pre'.filter notBlank →
        ItemsAt (SamePlace (pre ++ rs) (pre' ++ rs')) (items (pre.length + 1) rs) (items (pre'.length + 1) rs')) →
      pre.filter notBlank = pre'.filter notBlank →
      ItemsAt (SamePlace (pre ++ .ok s :: rs) (pre' ++ rs')) (items (pre.length + 1) (.ok s :: rs)) (items (pre'.length + 1) rs') := by
    intro s rs rs' pre pre' hs ih hp
    have := ih (pre ++ [.ok s]) (by simp [hp, notBlank, hs])
    rw [items, (parseLine_blank_iff s _).mpr hs]
    simpa using this
  have right : ∀ (s : Str) (rs rs' pre pre' : List (Except IoErr Str)), White s →
      (∀ pre' : List (Except IoErr Str), pre.filter notBlank = pre'.filter notBlank →
        ItemsAt (SamePlace (pre ++ rs) (pre' ++ rs')) (items (pre.length + 1) rs) (items (pre'.length + 1) rs')) →
      pre.filter notBlank = pre'.filter notBlank →
      ItemsAt (SamePlace (pre ++ rs) (pre' ++ .ok s :: rs')) (items (pre.length + 1) rs) (items (pre'.length + 1) (.ok s :: rs')) := by
    intro s rs rs' pre pre' hs ih hp
    have := ih (pre' ++ [.ok s]) (by simp [hp, notBlank, hs])
    rw [items.eq_3 (pre'.length + 1), (parseLine_blank_iff s _).mpr hs]
    simpa using this
  have white_of : ∀ {r : Except IoErr Str}, notBlank r = false → ∃ s, r = .ok s ∧ White s := by
    intro r h
    cases r with
    | error e => simp [notBlank] at h
    | ok s => exact ⟨s, rfl, by simpa [notBlank] using h⟩
  induction rs with
  | nil =>
    intro rs'
    induction rs' with
    | nil => intro pre pre' _ _; exact .nil
    | cons r rs' ih =>
      intro pre pre' hp h
      rw [List.filter_cons] at h
      split at h
      · simp at h
      · rename_i hr
        obtain ⟨s, rfl, hs⟩ := white_of (by simpa using hr)
        exact right s [] rs' pre pre' hs (fun pre' hp' => ih pre pre' hp' h) hp
  | cons r rs ih =>
    intro rs' pre pre' hp h
    by_cases hr : notBlank r = true
    · induction rs' generalizing pre' with
      | nil => rw [List.filter_cons, if_pos hr] at h; simp at h
      | cons r' rs' ih' =>
        by_cases hr' : notBlank r' = true
        · rw [List.filter_cons, if_pos hr, List.filter_cons, if_pos hr', List.cons.injEq] at h
          obtain ⟨rfl, h⟩ := h
          have hpl := samePlace_here (rs := rs) (rs' := rs') hp hr
          have ih := ih rs' (pre ++ [r]) (pre' ++ [r]) (by simp [hp]) h
          simp only [List.append_assoc, List.singleton_append, List.length_append, List.length_singleton] at ih
          cases r with
          | error e => exact .error ⟨rfl, _, _, .io (by omega), .io (by omega), hpl⟩ .nil
          | ok s =>
            rcases parseLine_number s (pre.length + 1) (pre'.length + 1) with ⟨h1, h2⟩ | ⟨h1, h2⟩ | ⟨x, y, h1, h2, h3, h4, h5, h6, h7⟩
            · rw [items, items, h1, h2]
              exact .error ⟨rfl, _, _, .unrecognised (by omega), .unrecognised (by omega), hpl⟩ .nil
            · rw [parseLine_blank_iff] at h1
              simp [notBlank, h1] at hr
            · rw [items_line h1 h3, items_line h2 h4]
              exact .line h5 (by rw [h6, h7]; exact hpl) ih
        · obtain ⟨s, rfl, hs⟩ := white_of (by simpa using hr')
          rw [List.filter_cons (x := Except.ok s), if_neg hr'] at h
          exact right s (r :: rs) rs' pre pre' hs (fun pre' hp' => ih' pre' hp' h) hp
    · obtain ⟨s, rfl, hs⟩ := white_of (by simpa using hr)
      rw [List.filter_cons, if_neg hr] at h
      exact left s rs rs' pre pre' hs (fun pre hp' => ih rs' pre pre' hp' h) hp

theorem fails_rejects {env : Env} {stream : List Event} {e : Err} (h : Fails (parse env stream) e) : Rejects env (streamItems stream) e := by
  exact (rejects_iff env stream e).mpr h

/-! ### Runs with other numbers -/

theorem moved_later {d : Nat} {e e' : Err} (h : Moved (fun k k' => 1 ≤ k ∧ k' = k + d) e e') : e' = later d e := by
  obtain ⟨h1, k, k', h2, h3, _, rfl⟩ := h
  unfold SameErr at h1
  cases h2 <;> cases h3 <;> simp_all [unnumbered, later] <;> omega

theorem movedEnd_later {d : Nat} {e e' : Option Err} (h : MovedEnd (fun k k' => 1 ≤ k ∧ k' = k + d) e e') : e' = e.map (later d) := by
  cases h with
  | none => rfl
  | some h => rw [moved_later h]; rfl

/-- Runs over the same lines with numbers that are larger by `d`. -/
theorem run_later {forms : Option PluralForms} {rs : List (Except IoErr Str)} {n d : Nat} (hn : 1 ≤ n) {us : List PoUnit} {e : Option Err}
    (h : Run forms (items n rs) us e) : Run forms (items (n + d) rs) us (e.map (later d)) := by
  obtain ⟨e', h1, h2⟩ := run_moved (fun h => by omega) h (items_shift rs n d hn)
  rw [← movedEnd_later h2]
  exact h1

theorem sameEndAfter_same {n m : Nat} {e e' : Option Err} (h : SameEndAfter n m e e') : SameEnd e e' := by
  obtain ⟨e0, rfl, rfl⟩ := h
  cases e0 with
  | none => rfl
  | some e => cases e <;> rfl

theorem sameEndAfter_none {n m : Nat} {e' : Option Err} (h : SameEndAfter n m none e') : e' = none := by
  obtain ⟨e0, h, rfl⟩ := h
  cases e0 with
  | none => rfl
  | some e => cases h

theorem later_zero (e : Err) : later 0 e = e := by cases e <;> rfl

theorem later_add (n m : Nat) (e : Err) : later m (later n e) = later (n + m) e := by cases e <;> simp [later, Nat.add_assoc]

theorem map_later_zero (e : Option Err) : e.map (later 0) = e := by cases e <;> simp [later_zero]

theorem sameEndAfter_drop {n : Nat} {e e' : Option Err} (h : SameEndAfter n 0 e e') : e = e'.map (later n) := by
  obtain ⟨e0, rfl, rfl⟩ := h
  rw [map_later_zero]

/-- Runs over the same lines with other numbers. -/
theorem run_renumber {forms : Option PluralForms} {rs : List (Except IoErr Str)} {n m : Nat} {us : List PoUnit} {e : Option Err}
    (h : Run forms (items (1 + n) rs) us e) : ∃ e', Run forms (items (1 + m) rs) us e' ∧ SameEndAfter n m e e' := by
  have h0 : Run forms (items 1 rs) (drain forms (items 1 rs)).1 (drain forms (items 1 rs)).2 := (run_iff (items_noBlank 1 rs)).mpr rfl
  obtain ⟨h1, h2⟩ := (run_later (d := n) (Nat.le_refl 1) h0).unique h
  rw [h1] at h0
  exact ⟨_, run_later (d := m) (Nat.le_refl 1) h0, _, h2.symm, rfl⟩

end Verif
