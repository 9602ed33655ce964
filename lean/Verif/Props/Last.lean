import Verif.Props.TwoChanges

/-! C103: how reading goes on depends on the last line that is neither blank nor a continuation. -/

namespace Verif
open Spec

/-- How reading ends after a place, whatever the lines before. -/
theorem stop_at {forms : Option PluralForms} (d : Place) (R : List Item) :
    (∃ e, ∀ B, EachFollows (nplurals forms) .fresh B d → ∃ us, Run forms (B.map .ok ++ R) us e) ∨
    ∀ B, EachFollows (nplurals forms) .fresh B d → ∃ us k, Run forms (B.map .ok ++ R) us (some (.unexpected k (c!"Source should not be empty"))) := by
  obtain ⟨b, c, rest, rfl, h2, h3⟩ := first_break (nplurals forms) R d
  rcases h3 with rfl | ⟨x, tl, rfl⟩ | ⟨ln, tl, rfl, hn⟩
  · refine .inl ⟨none, fun B hB => ?_⟩
    obtain ⟨us, h⟩ := run_follows (block := []) (hB.append h2) ⟨[], rfl⟩
    exact ⟨us, by simpa using h⟩
  · refine .inl ⟨some x, fun B hB => ?_⟩
    obtain ⟨us, _, h, _⟩ := run_unreadable (x := x) (tl := tl) (hB.append h2)
    exact ⟨us, by simpa using h⟩
  · by_cases hs : EmptySource c ln
    · obtain ⟨p, m, q, t, rfl, rfl, hpq⟩ := hs
      obtain ⟨cs, rest, rfl, h5⟩ := continuations q tl
      have source : (rest = [] ∨ ∃ y tl, rest = .ok y :: tl ∧ ∀ m t, y ≠ .continuation m q t) →
          ∀ B, EachFollows (nplurals forms) .fresh B d → ∃ us k, Run forms (B.map .ok ++ (b.map .ok ++ .ok (.message m q (c!"msgstr") t) ::
            ((cs.map fun c => PoLine.continuation c.1 q c.2).map .ok ++ rest))) us (some (.unexpected k (c!"Source should not be empty"))) := by
        intro h5 B hB
        obtain ⟨us, y, _, _, h⟩ := run_noSource (n := m) (s := t) (cs := cs) (rest := rest) (hB.append h2) hpq h5
        exact ⟨us, _, by simpa using h⟩
      rcases h5 with h5 | ⟨x, tl, rfl⟩ | h5
      · exact .inr (source (.inl h5))
      · refine .inl ⟨some x, fun B hB => ?_⟩
        obtain ⟨us, _, h⟩ := run_noSource_unreadable (n := m) (s := t) (cs := cs) (x := x) (tl := tl) (hB.append h2) hpq
        exact ⟨us, by simpa using h⟩
      · exact .inr (source (.inr h5))
    · refine .inl ⟨some (missing c.expected ln), fun B hB => ?_⟩
      obtain ⟨us, _, h⟩ := run_breaks (tl := tl) (hB.append h2) hn hs
      exact ⟨us, by simpa using h⟩

/-- Two inputs whose first parts are read without error and end with the same line, neither blank nor a continuation, and whose second parts are the same:
they end in the same way. -/
theorem C103_last {env : Env} {stream stream' stream1 stream1' : List Event} {hdr hdr' hdr1 hdr1' : Header env.Lang} {f f' r : List (Except IoErr Str)} {t : Str}
    {n n' n1 n1' : Nat} {forms : Option PluralForms} {us us' us1 us1' : List PoUnit} {e e' : Option Err} {j : Nat} {x : PoLine}
    (h1 : BodyAt env stream1 hdr1 (f ++ [.ok t]) n1 forms) (hy1 : Yields (parse env stream1) hdr1 (results us1 none))
    (h1' : BodyAt env stream1' hdr1' (f' ++ [.ok t]) n1' forms) (hy1' : Yields (parse env stream1') hdr1' (results us1' none))
    (ht : Classified t j (some x)) (hb : x ≠ .blank) (hc : ∀ i q v, x ≠ .continuation i q v)
    (h : BodyAt env stream hdr (f ++ [.ok t] ++ r) n forms) (hy : Yields (parse env stream) hdr (results us e))
    (h' : BodyAt env stream' hdr' (f' ++ [.ok t] ++ r) n' forms) (hy' : Yields (parse env stream') hdr' (results us' e')) :
    (e = none ↔ e' = none) ∧
    (∀ k sh kw, e = some (.parse k sh kw) → ∃ k', e' = some (.parse k' sh kw) ∧ k + (n' + f'.length) = k' + (n + f.length)) ∧
    (∀ k i, e = some (.io k i) → ∃ k', e' = some (.io k' i) ∧ k + (n' + f'.length) = k' + (n + f.length)) ∧
    (∀ k msg, e = some (.unexpected k msg) → ∃ k', e' = some (.unexpected k' msg)) ∧
    (e = none → ∃ a a' y y' b, us = a ++ (y ++ b) ∧ us' = a' ++ (y' ++ b) ∧ y.length ≤ 1 ∧ y'.length ≤ 1) := by
  obtain ⟨d, w⟩ := body_passes h1 hy1
  obtain ⟨d', w'⟩ := body_passes h1' hy1'
  have hnl := (body_forms h1 hy1).1
  obtain ⟨_, _, v⟩ := passes_split w
  obtain ⟨_, _, v'⟩ := passes_split w'
  cases passes_meet (fun s hs => hnl s (by simp at hs; simp [hs])) v v' ⟨t, j, x, List.mem_singleton.mpr rfl, ht, hb, hc⟩
  have num : ∀ {stream : List Event} {hdr : Header env.Lang} {rs n}, BodyAt env stream hdr rs n forms → ∃ k, n = 1 + k := by
    intro stream hdr rs n h
    cases h with
    | headed => exact ⟨_, rfl⟩
    | plain => exact ⟨0, rfl⟩
  obtain ⟨k0, rfl⟩ := num h
  obtain ⟨k0', rfl⟩ := num h'
  obtain ⟨e2, r1, s1⟩ := run_renumber (m := f'.length) (body_forms h hy).2
  obtain ⟨e2', r1', s1'⟩ := run_renumber (m := f.length) (body_forms h' hy').2
  obtain ⟨B, q1, q2⟩ := (passes_at (n := 1 + f'.length) (by omega)).mp w
  obtain ⟨B', q1', q2'⟩ := (passes_at (n := 1 + f.length) (by omega)).mp w'
  rw [items_append (by intro e he; rw [q1] at he; simp at he), q1] at r1
  rw [items_append (by intro e he; rw [q1'] at he; simp at he), q1'] at r1'
  have hlen : 1 + f'.length + (f ++ [Except.ok t]).length = 1 + f.length + (f' ++ [Except.ok t]).length := by
    simp only [List.length_append, List.length_cons, List.length_nil]
    omega
  rw [hlen] at r1
  have same : e2 = e2' ∨ ∃ k k', e2 = some (.unexpected k (c!"Source should not be empty")) ∧ e2' = some (.unexpected k' (c!"Source should not be empty")) := by
    rcases stop_at (forms := forms) d (items (1 + f.length + (f' ++ [Except.ok t]).length) r) with ⟨e3, hs⟩ | hs
    · obtain ⟨_, z⟩ := hs _ q2
      obtain ⟨_, z'⟩ := hs _ q2'
      exact .inl ((r1.unique z).2.trans (r1'.unique z').2.symm)
    · obtain ⟨_, k, z⟩ := hs _ q2
      obtain ⟨_, k', z'⟩ := hs _ q2'
      exact .inr ⟨k, k', (r1.unique z).2, (r1'.unique z').2⟩
  obtain ⟨E, rfl, rfl⟩ := s1
  obtain ⟨E', rfl, rfl⟩ := s1'
  refine ⟨?_, ?_, ?_, ?_, ?_⟩
  · cases E <;> cases E' <;> simp at same ⊢
  · intro k sh kw he
    cases E with
    | none => cases he
    | some E =>
      cases E' with
      | none => simp at same
      | some E' =>
        cases E <;> cases E' <;> simp [later] at he same ⊢
        obtain ⟨g1, rfl, rfl⟩ := he
        obtain ⟨g2, rfl, rfl⟩ := same
        exact ⟨_, ⟨rfl, rfl, rfl⟩, by omega⟩
  · intro k i he
    cases E with
    | none => cases he
    | some E =>
      cases E' with
      | none => simp at same
      | some E' =>
        cases E <;> cases E' <;> simp [later] at he same ⊢
        obtain ⟨g1, rfl⟩ := he
        obtain ⟨g2, rfl⟩ := same
        exact ⟨_, ⟨rfl, rfl⟩, by omega⟩
  · intro k msg he
    cases E with
    | none => cases he
    | some E =>
      cases E' with
      | none => simp at same
      | some E' =>
        cases E <;> cases E' <;> simp_all [later]
        rcases same with h | h
        · exact h.2.symm
        · rw [h.1, h.2]
  · intro he
    have he' : E'.map (later k0') = none := by
      cases E <;> cases E' <;> simp at he same ⊢
    rw [he] at hy
    rw [he'] at hy'
    obtain ⟨z, wz⟩ := body_passes h hy
    obtain ⟨y0, w1, w2⟩ := passes_split wz
    cases passes_unique w w1
    obtain ⟨a, a', hu⟩ := passes_units w w'
    obtain ⟨y, y', b, z1, z2, z3, z4⟩ := hu w2
    exact ⟨a, a', y, y', b, ((body_count h hy).unique z1).1, ((body_count h' hy').unique z2).1, z3, z4⟩

/-! ### Examples -/

theorem lastly_body (ls : List Str) (h : ∀ l ∈ headLines (c!"X: y") ++ c!"# x" :: ls, CleanLine l) :
    BodyAt demoEnv (textStream (headLines (c!"X: y") ++ c!"# x" :: ls)) ⟨[], [], [(c!"X", c!"y")], []⟩ ((c!"# x" :: ls).map .ok) 3 none :=
  .headed (hd := (headLines (c!"X: y")).map .ok) (forms := none) (by rw [rawLines_text h]; simp) (headerLines_demo _)
    (noContinuation_head (by decide) rfl) .absent

-- `C103_last`: after the line `msgid "c"`, with an entry before it and without, a comment is the same error, two lines later
example {us us' : List PoUnit} {e' : Option Err}
    (hy : Yields (parse demoEnv (textStream (headLines (c!"X: y") ++ c!"# x" :: [c!"msgid \"c\"", c!"# y"]))) ⟨[], [], [(c!"X", c!"y")], []⟩
      (results us (some (.parse 5 (c!"# ") (c!"msgstr")))))
    (hy' : Yields (parse demoEnv (textStream (headLines (c!"X: y") ++ c!"# x" :: [c!"msgid \"a\"", c!"msgstr \"b\"", c!"msgid \"c\"", c!"# y"])))
      ⟨[], [], [(c!"X", c!"y")], []⟩ (results us' e')) : e' = some (.parse 7 (c!"# ") (c!"msgstr")) := by
  obtain ⟨k', h1, h2⟩ := (C103_last (f := [.ok (c!"# x")]) (f' := [c!"# x", c!"msgid \"a\"", c!"msgstr \"b\""].map .ok) (t := c!"msgid \"c\"") (r := [.ok (c!"# y")])
    (lastly_body [c!"msgid \"c\""] (by decide))
    (yields_text (env := demoEnv) (res := ⟨⟨[], [], [(c!"X", c!"y")], []⟩, none, [], none⟩) (by decide) (by rfl))
    (lastly_body [c!"msgid \"a\"", c!"msgstr \"b\"", c!"msgid \"c\""] (by decide))
    (yields_text (env := demoEnv) (res := ⟨⟨[], [], [(c!"X", c!"y")], []⟩, none, [noted (c!"a") (c!"b")], none⟩) (by decide) (by rfl))
    (j := 1) (x := .message 1 [] (c!"msgid") (c!"c")) ((C06_line_classification _ _ (by decide) _).mp rfl) (by rintro ⟨⟩) (by rintro _ _ _ ⟨⟩)
    (lastly_body [c!"msgid \"c\"", c!"# y"] (by decide)) hy
    (lastly_body [c!"msgid \"a\"", c!"msgstr \"b\"", c!"msgid \"c\"", c!"# y"] (by decide)) hy').2.1 _ _ _ rfl
  simp only [List.map_cons, List.map_nil, List.length_cons, List.length_nil] at h2
  obtain rfl : k' = 7 := by omega
  exact h1

-- these inputs are read so
example : Yields (parse demoEnv (textStream (headLines (c!"X: y") ++ c!"# x" :: [c!"msgid \"c\"", c!"# y"]))) ⟨[], [], [(c!"X", c!"y")], []⟩
    (results [] (some (.parse 5 (c!"# ") (c!"msgstr")))) :=
  yields_text (env := demoEnv) (res := ⟨⟨[], [], [(c!"X", c!"y")], []⟩, none, [], some _⟩) (by decide) (by rfl)

end Verif
