import Verif.Props.Broken
import Verif.Props.Hint

/-!
# Where a change makes reading fail (C100)

If a change of some lines makes reading fail at a line that is out of place, that line is one of the changed ones or the first line after them that is neither blank nor a continuation.
-/

namespace Verif
open Spec

theorem lineItems_bounds {n : Nat} {rs : List (Except IoErr Str)} {l : List Item} {ln : PoLine} (h : LineItems n rs l) (hm : .ok ln ∈ l) :
    n ≤ lineNumber ln ∧ lineNumber ln < n + rs.length := by
  induction h with
  | nil => cases hm
  | failed => simp at hm
  | unrecognised => simp at hm
  | blank _ _ ih =>
    have := ih hm
    rw [List.length_cons]
    omega
  | line hc hb _ ih =>
    rw [List.length_cons]
    rcases List.mem_cons.mp hm with h | h
    · cases h
      rw [classified_line hc hb]
      omega
    · have := ih h
      omega

/-- The lines before one of the items. -/
theorem lineItems_cut {n : Nat} {rs : List (Except IoErr Str)} {l tl : List Item} {b : List PoLine} {ln : PoLine} (h : LineItems n rs l)
    (hl : l = b.map .ok ++ .ok ln :: tl) :
    ∃ r1 r2, rs = r1 ++ r2 ∧ lineNumber ln = n + r1.length ∧
      ∀ r ∈ r1, ∃ t j x, r = .ok t ∧ Classified t j (some x) ∧ (x = .blank ∨ x ∈ b) := by
  induction h generalizing b with
  | nil => simp at hl
  | failed => cases b <;> cases hl
  | unrecognised => cases b <;> cases hl
  | @blank n s rs l hc _ ih =>
    obtain ⟨r1, r2, rfl, h2, h3⟩ := ih hl
    refine ⟨.ok s :: r1, r2, rfl, by rw [List.length_cons]; omega, ?_⟩
    intro r hr
    rcases List.mem_cons.mp hr with rfl | hr
    · exact ⟨s, n, .blank, rfl, hc, .inl rfl⟩
    · exact h3 r hr
  | @line n s rs x l hc hb _ ih =>
    cases b with
    | nil =>
      cases hl
      exact ⟨[], _, rfl, by rw [classified_line hc hb]; rfl, by simp⟩
    | cons y b =>
      simp only [List.map_cons, List.cons_append, List.cons.injEq, Except.ok.injEq] at hl
      obtain ⟨rfl, hl⟩ := hl
      obtain ⟨r1, r2, rfl, h2, h3⟩ := ih hl
      refine ⟨.ok s :: r1, r2, rfl, by rw [List.length_cons]; omega, ?_⟩
      intro r hr
      rcases List.mem_cons.mp hr with rfl | hr
      · exact ⟨s, n, x, rfl, hc, .inr (List.mem_cons_self ..)⟩
      · obtain ⟨t, j, z, g1, g2, g3⟩ := h3 r hr
        exact ⟨t, j, z, g1, g2, g3.imp id (List.mem_cons_of_mem _)⟩

/-- Two ways to cut items into lines and a rest. -/
theorem cut_either {a b : List PoLine} {ln : PoLine} {tl rest : List Item} (h : a.map .ok ++ rest = b.map .ok ++ .ok ln :: tl) :
    (∃ c, a = b ++ ln :: c) ∨ ∃ c, b = a ++ c ∧ rest = c.map .ok ++ .ok ln :: tl := by
  induction a generalizing b with
  | nil => exact .inr ⟨b, rfl, h⟩
  | cons x a ih =>
    cases b with
    | nil =>
      simp only [List.map_cons, List.cons_append, List.map_nil, List.nil_append, List.cons.injEq, Except.ok.injEq] at h
      exact .inl ⟨a, by rw [h.1]; rfl⟩
    | cons y b =>
      simp only [List.map_cons, List.cons_append, List.cons.injEq, Except.ok.injEq] at h
      obtain ⟨rfl, h⟩ := h
      rcases ih h with ⟨c, rfl⟩ | ⟨c, rfl, h2⟩
      · exact .inl ⟨c, rfl⟩
      · exact .inr ⟨c, rfl, h2⟩

theorem all_read : ∀ l : List Item, (¬ ∃ e, .error e ∈ l) → ∃ b : List PoLine, l = b.map .ok := by
  intro l
  induction l with
  | nil => exact fun _ => ⟨[], rfl⟩
  | cons i l ih =>
    intro hx
    cases i with
    | error e => exact absurd ⟨e, List.mem_cons_self ..⟩ hx
    | ok y =>
      obtain ⟨b, hb⟩ := ih (fun ⟨e, he⟩ => hx ⟨e, List.mem_cons_of_mem _ he⟩)
      exact ⟨y :: b, by rw [hb]; rfl⟩

/-- The first line that fails the check after a change. -/
theorem break_where {env : Env} {stream stream' : List Event} {hdr hdr' : Header env.Lang} {p m m' s : List (Except IoErr Str)} {n n' : Nat}
    {forms : Option PluralForms} {us us' : List PoUnit} {e' : Option Err} (h : BodyAt env stream hdr (p ++ (m ++ s)) n forms)
    (h' : BodyAt env stream' hdr' (p ++ (m' ++ s)) n' forms) (hy : Yields (parse env stream) hdr (results us none))
    (hy' : Yields (parse env stream') hdr' (results us' e')) {b : List PoLine} {c : Place} {ln : PoLine} {tl : List Item}
    (q1 : LineItems n' (p ++ (m' ++ s)) (b.map .ok ++ .ok ln :: tl)) (q2 : EachFollows (nplurals forms) .fresh b c)
    (q3 : ∀ c', ¬ MayFollow (nplurals forms) c ln c') :
    (n' + p.length ≤ lineNumber ln ∧ lineNumber ln < n' + p.length + m'.length) ∨
    ∃ s1 s2, s = s1 ++ s2 ∧ lineNumber ln = n' + p.length + m'.length + s1.length ∧
      ∀ r ∈ s1, ∃ t j x, r = .ok t ∧ Classified t j (some x) ∧ (x = .blank ∨ ∃ q v, x = .continuation j q v) := by
  have h1 := body_count h hy
  have hnl := (body_forms h' hy').1
  have num : ∀ {stream : List Event} {hdr : Header env.Lang} {rs n}, BodyAt env stream hdr rs n forms → 1 ≤ n := by
    intro stream hdr rs n h
    cases h with
    | headed => omega
    | plain => omega
  have hn' := num h'
  have q1 := LineItems.unique hnl (items_lineItems hnl n') q1
  obtain ⟨bo, c3, e1, f1⟩ := follows_run h1 rfl .fresh
  obtain ⟨bp0, b1, rfl, e2, e3⟩ := items_front e1
  obtain ⟨bm, bs, rfl, e4, e5⟩ := items_front e3
  obtain ⟨c1, f2, f3⟩ := follows_split f1
  obtain ⟨c2, f4, f5⟩ := follows_split f3
  obtain ⟨bp, e6, hp⟩ := items_other (n' := n') (by omega) hn' e2
  have f2 := follows_alike f2 hp
  have hne : ∀ e, .error e ∉ items n' p := by
    intro e he
    rw [e6] at he
    simp at he
  rw [items_append hne, e6] at q1
  have nlm : ∀ t, .ok t ∈ m' → '\n' ∉ t := fun t ht => hnl t (by simp [ht])
  have nls : ∀ t, .ok t ∈ s → '\n' ∉ t := fun t ht => hnl t (by simp [ht])
  obtain ⟨b2, rfl, q4⟩ : ∃ b2, b = bp ++ b2 ∧ items (n' + p.length) (m' ++ s) = b2.map .ok ++ .ok ln :: tl := by
    rcases cut_either q1 with ⟨x, rfl⟩ | h
    · exfalso
      obtain ⟨d, g1, g2⟩ := follows_split f2
      cases g1.unique q2
      cases g2 with
      | cons g _ => exact q3 _ g
    · exact h
  obtain ⟨d, g1, g2⟩ := follows_split q2
  cases g1.unique f2
  have inside : .ok ln ∈ items (n' + p.length) m' → n' + p.length ≤ lineNumber ln ∧ lineNumber ln < n' + p.length + m'.length :=
    fun hm => lineItems_bounds (items_lineItems nlm _) hm
  by_cases hx : ∃ e, .error e ∈ items (n' + p.length) m'
  · obtain ⟨e, hx⟩ := hx
    rw [items_halted hx] at q4
    exact .inl (inside (by rw [q4]; simp))
  · have happ := items_append (rs' := s) (fun e he => hx ⟨e, he⟩)
    obtain ⟨bm', hbm⟩ := all_read _ hx
    rw [happ, hbm] at q4
    rcases cut_either q4 with ⟨x, rfl⟩ | ⟨s1, rfl, q5⟩
    · exact .inl (inside (by rw [hbm]; simp))
    · right
      obtain ⟨bs', hbs, hat⟩ := items_other (n' := n' + p.length + m'.length) (by omega) (by omega) e5
      obtain ⟨d2, j1, j2⟩ := follows_split g2
      obtain ⟨a, last, w1, _, _⟩ := follows_count (block := []) f2 ⟨[], rfl⟩
      obtain ⟨_, l1, w2, _, _⟩ := follows_count j1 w1
      obtain ⟨t1, rfl⟩ : ∃ t1, bs' = s1 ++ ln :: t1 := by
        rw [hbs, ← List.append_nil (bs'.map _)] at q5
        rcases cut_either q5 with ⟨c, h⟩ | ⟨c, _, h⟩
        · exact ⟨c, h⟩
        · simp at h
      have hcont := (fails_early f5 j2 q3 hat w2).2
      obtain ⟨r1, r2, z1, z2, z3⟩ := lineItems_cut (items_lineItems nls (n' + p.length + m'.length)) q5
      refine ⟨r1, r2, z1, z2, ?_⟩
      intro r hr
      obtain ⟨t, j, x, y1, y2, y3⟩ := z3 r hr
      refine ⟨t, j, x, y1, y2, y3.imp id ?_⟩
      intro hxm
      obtain ⟨i, q, v, rfl⟩ := hcont x hxm
      have := classified_line y2 (by intro h; cases h)
      exact ⟨q, v, by rw [← this]; rfl⟩

/-- A change that makes reading fail at a line that is out of place: that line is one of the changed ones, or the first one after them that is neither blank
nor a continuation. -/
theorem C100_where {env : Env} {stream stream' : List Event} {hdr hdr' : Header env.Lang} {p m m' s : List (Except IoErr Str)} {n n' : Nat}
    {forms : Option PluralForms} {us us' : List PoUnit} {k : Nat} {sh kw : Str} (h : BodyAt env stream hdr (p ++ (m ++ s)) n forms)
    (h' : BodyAt env stream' hdr' (p ++ (m' ++ s)) n' forms) (hy : Yields (parse env stream) hdr (results us none))
    (hy' : Yields (parse env stream') hdr' (results us' (some (.parse k sh kw)))) (hkw : kw ≠ []) :
    (n' + p.length ≤ k ∧ k < n' + p.length + m'.length) ∨
    ∃ s1 s2, s = s1 ++ s2 ∧ k = n' + p.length + m'.length + s1.length ∧
      ∀ r ∈ s1, ∃ t j x, r = .ok t ∧ Classified t j (some x) ∧ (x = .blank ∨ ∃ q v, x = .continuation j q v) := by
  obtain ⟨b, c, ln, tl, q1, q2, q3, rfl, -, -⟩ := C101_named h' hy' hkw
  exact break_where h h' hy hy' q1 q2 q3

/-- A change that makes reading fail for an empty source: the error is that of an entry whose line of the translation is one of the changed ones, or the first
one after them that is neither blank nor a continuation. -/
theorem C100_source {env : Env} {stream stream' : List Event} {hdr hdr' : Header env.Lang} {p m m' s : List (Except IoErr Str)} {n n' : Nat}
    {forms : Option PluralForms} {us us' : List PoUnit} {k : Nat} {msg : Str} (h : BodyAt env stream hdr (p ++ (m ++ s)) n forms)
    (h' : BodyAt env stream' hdr' (p ++ (m' ++ s)) n' forms) (hy : Yields (parse env stream) hdr (results us none))
    (hy' : Yields (parse env stream') hdr' (results us' (some (.unexpected k msg)))) :
    msg = c!"Source should not be empty" ∧
    ∃ b x l q v tl, LineItems n' (p ++ (m' ++ s)) (b.map .ok ++ .ok (.message l q (c!"msgstr") v) :: tl) ∧ BeginsLast (nplurals forms) b x ∧ lineNumber x = k ∧
      ((n' + p.length ≤ l ∧ l < n' + p.length + m'.length) ∨
       ∃ s1 s2, s = s1 ++ s2 ∧ l = n' + p.length + m'.length + s1.length ∧
        ∀ r ∈ s1, ∃ t j x, r = .ok t ∧ Classified t j (some x) ∧ (x = .blank ∨ ∃ q v, x = .continuation j q v)) := by
  have hnl := (body_forms h' hy').1
  have noErr : ∀ {l : List Item} {k : Nat} {msg : Str}, LineItems n' (p ++ (m' ++ s)) l → .error (.unexpected k msg) ∉ l := by
    intro l k msg hl hm
    generalize p ++ (m' ++ s) = rs at hl
    clear h' hnl
    induction hl with
    | nil => cases hm
    | failed => simp at hm
    | unrecognised => simp at hm
    | blank _ _ ih => exact ih hm
    | line _ _ _ ih => exact ih (by simpa using hm)
  obtain ⟨b, c, hb, g1 | ⟨x, tl, g1⟩ | ⟨ln, tl, g1, g2, g3⟩ | ⟨ln, q, cs, rest, g1, g2, g3, g4 | ⟨x, tl, rfl⟩⟩⟩ := C93_complete h' hy'
  · cases body_none h' hy' g1 hb
  · cases (C93_unreadable h' hy' g1 hb).1
    exact absurd (by simp) (noErr g1 (k := k) (msg := msg))
  · cases (C93_line h' hy' g1 hb g2 g3).1
  · obtain ⟨⟨x, hx1, hx⟩, _⟩ := C93_source h' hy' hb g1 g2 g3 g4
    cases hx
    obtain ⟨l, v, rfl⟩ := g2
    have g3 : LineItems n' (p ++ (m' ++ s)) (b.map .ok ++ .ok (.message l q (c!"msgstr") v) :: ((cs.map fun c => PoLine.continuation c.1 q c.2).map .ok ++ rest)) := by
      simpa using g3
    refine ⟨rfl, b, x, l, q, v, _, g3, hx1, rfl, break_where h h' hy hy' g3 hb ?_⟩
    intro c' hf
    obtain ⟨p0, l0, q0, v0, rfl, _, _⟩ := g1
    generalize hm : PoLine.message l q (c!"msgstr") v = y at hf
    cases hf with
    | comment => cases hm
    | begins ha => cases ha
    | continues => cases hm
    | goesOn hk =>
      simp only [PoLine.message.injEq] at hm
      cases word_inj (k := .text) hm.2.2.1
      cases hk with
      | text h => exact h rfl
  · cases (C93_source_unreadable h' hy' hb g1 g2 g3).1
    exact absurd (by simp) (noErr g3 (k := k) (msg := msg))

/-- The number in the error of a line that cannot be read or is not recognised. -/
theorem lineItems_unread {n : Nat} {rs : List (Except IoErr Str)} {l : List Item} {e : Err} (h : LineItems n rs l) (hm : .error e ∈ l) :
    ∃ i, i < rs.length ∧ ((∃ x, rs[i]? = some (.error x) ∧ e = .io (n + i) x) ∨ ∃ t, rs[i]? = some (.ok t) ∧ e = .parse (n + i + 1) t []) := by
  induction h with
  | nil => cases hm
  | failed =>
    simp only [List.mem_cons, List.not_mem_nil, or_false, Except.error.injEq] at hm
    exact ⟨0, by simp, .inl ⟨_, rfl, hm⟩⟩
  | unrecognised =>
    simp only [List.mem_cons, List.not_mem_nil, or_false, Except.error.injEq] at hm
    exact ⟨0, by simp, .inr ⟨_, rfl, hm⟩⟩
  | @blank n _ _ _ _ _ ih =>
    obtain ⟨i, h1, h2⟩ := ih hm
    refine ⟨i + 1, by simpa using h1, ?_⟩
    rw [show n + (i + 1) = n + 1 + i by omega]
    simpa using h2
  | @line n _ _ _ _ _ _ _ ih =>
    obtain ⟨i, h1, h2⟩ := ih (by simpa using hm)
    refine ⟨i + 1, by simpa using h1, ?_⟩
    rw [show n + (i + 1) = n + 1 + i by omega]
    simpa using h2

/-- A change that makes reading fail at a line that cannot be read or is not recognised: it is one of the changed lines. -/
theorem C100_unreadable {env : Env} {stream stream' : List Event} {hdr hdr' : Header env.Lang} {p m m' s : List (Except IoErr Str)} {n n' : Nat}
    {forms : Option PluralForms} {us us' : List PoUnit} {e' : Err} (h : BodyAt env stream hdr (p ++ (m ++ s)) n forms)
    (h' : BodyAt env stream' hdr' (p ++ (m' ++ s)) n' forms) (hy : Yields (parse env stream) hdr (results us none))
    (hy' : Yields (parse env stream') hdr' (results us' (some e'))) (hu : (∃ k x, e' = .io k x) ∨ ∃ k t, e' = .parse k t []) :
    ∃ i, i < m'.length ∧ ((∃ x, m'[i]? = some (.error x) ∧ e' = .io (n' + p.length + i) x) ∨
      ∃ t, m'[i]? = some (.ok t) ∧ e' = .parse (n' + p.length + i + 1) t []) := by
  have h1 := body_count h hy
  have hnl := (body_forms h' hy').1
  have num : ∀ {stream : List Event} {hdr : Header env.Lang} {rs n}, BodyAt env stream hdr rs n forms → 1 ≤ n := by
    intro stream hdr rs n h
    cases h with
    | headed => omega
    | plain => omega
  have hn' := num h'
  obtain ⟨bo, c3, e1, f1⟩ := follows_run h1 rfl .fresh
  obtain ⟨bp0, b1, rfl, e2, e3⟩ := items_front e1
  obtain ⟨bm, bs, rfl, e4, e5⟩ := items_front e3
  obtain ⟨bp, e6, hp⟩ := items_other (n' := n') (by omega) hn' e2
  obtain ⟨bs', hbs, -⟩ := items_other (n' := n' + p.length + m'.length) (by omega) (by omega) e5
  have hne : ∀ e, .error e ∉ items n' p := by
    intro e he
    rw [e6] at he
    simp at he
  have nlm : ∀ t, .ok t ∈ m' → '\n' ∉ t := fun t ht => hnl t (by simp [ht])
  have hmem : .error e' ∈ items n' (p ++ (m' ++ s)) := by
    obtain ⟨b, c, hb, g1 | ⟨x, tl, g1⟩ | ⟨ln, tl, g1, g2, g3⟩ | ⟨ln, q, cs, rest, g1, g2, g3, g4 | ⟨x, tl, rfl⟩⟩⟩ := C93_complete h' hy'
    · cases body_none h' hy' g1 hb
    · cases (C93_unreadable h' hy' g1 hb).1
      rw [← LineItems.unique hnl g1 (items_lineItems hnl n')]
      simp
    · exfalso
      cases (C93_line h' hy' g1 hb g2 g3).1
      rcases hu with ⟨k, x, hu⟩ | ⟨k, t, hu⟩
      · cases hu
      · simp only [missing, Err.parse.injEq] at hu
        have := hu.2.2
        cases c with
        | fresh => cases this
        | field p k v => cases k <;> simp [Place.expected] at this
    · exfalso
      obtain ⟨⟨_, _, hx⟩, _⟩ := C93_source h' hy' hb g1 g2 g3 g4
      cases hx
      rcases hu with ⟨k, x, hu⟩ | ⟨k, t, hu⟩ <;> cases hu
    · cases (C93_source_unreadable h' hy' hb g1 g2 g3).1
      rw [← LineItems.unique hnl g3 (items_lineItems hnl n')]
      simp
  rw [items_append hne] at hmem
  have hmem := (List.mem_append.mp hmem).resolve_left (hne e')
  by_cases hx : ∃ e, .error e ∈ items (n' + p.length) m'
  · obtain ⟨e, hx⟩ := hx
    rw [items_halted hx] at hmem
    exact lineItems_unread (items_lineItems nlm _) hmem
  · exfalso
    rw [items_append (fun e he => hx ⟨e, he⟩), hbs] at hmem
    rcases List.mem_append.mp hmem with h | h
    · exact hx ⟨_, h⟩
    · simp at h

-- the change of `contLines` that cuts the second entry short: the error is at the changed line, or at the line after it
example {us us' : List PoUnit} {k : Nat} {sh kw : Str}
    (hy : Yields (parse demoEnv (textStream (headLines (c!"X: y") ++ contLines (c!"\"x\"")))) ⟨[], [], [(c!"X", c!"y")], []⟩ (results us none))
    (hy' : Yields (parse demoEnv (textStream (headLines (c!"X: y") ++ contLines (c!"msgid \"z\"")))) ⟨[], [], [(c!"X", c!"y")], []⟩
      (results us' (some (.parse k sh kw)))) (hkw : kw ≠ []) : k = 6 ∨ k = 7 := by
  rcases C100_where (p := [c!"# x", c!"msgid \"a\"", c!"msgstr \"b\""].map .ok) (m := [.ok (c!"\"x\"")])
    (m' := [.ok (c!"msgid \"z\"")]) (s := [c!"msgid \"c\"", c!"msgstr \"d\"", c!"msgid \"e\"", c!"msgstr \"f\""].map .ok)
    (.headed (hd := (headLines (c!"X: y")).map .ok) (forms := none) (by rw [rawLines_text (by decide)]; rfl) (headerLines_demo _)
      (noContinuation_head (by decide) rfl) .absent)
    (.headed (hd := (headLines (c!"X: y")).map .ok) (forms := none) (by rw [rawLines_text (by decide)]; rfl) (headerLines_demo _)
      (noContinuation_head (by decide) rfl) .absent) hy hy' hkw with ⟨h1, h2⟩ | ⟨s1, s2, h1, h2, h3⟩
  · simp [headLines] at h1 h2
    omega
  · cases s1 with
    | nil => simp [headLines] at h2; omega
    | cons r s1 =>
      exfalso
      simp only [List.map_cons, List.cons_append, List.cons.injEq] at h1
      obtain ⟨rfl, -⟩ := h1
      obtain ⟨t, j, x, ht, hc, hx⟩ := h3 _ (List.mem_cons_self ..)
      cases ht
      have := (C06_line_classification _ _ (by decide) _).mpr hc
      rcases hx with rfl | ⟨q, v, rfl⟩
      · cases this
      · cases this

-- a changed line that is not recognised: the error is that line's
example {us us' : List PoUnit} {k : Nat} {t : Str}
    (hy : Yields (parse demoEnv (textStream (headLines (c!"X: y") ++ contLines (c!"\"x\"")))) ⟨[], [], [(c!"X", c!"y")], []⟩ (results us none))
    (hy' : Yields (parse demoEnv (textStream (headLines (c!"X: y") ++ contLines (c!"junk")))) ⟨[], [], [(c!"X", c!"y")], []⟩
      (results us' (some (.parse k t [])))) : k = 7 ∧ t = c!"junk" := by
  obtain ⟨i, h1, ⟨x, h2, h3⟩ | ⟨t, h2, h3⟩⟩ := C100_unreadable (p := [c!"# x", c!"msgid \"a\"", c!"msgstr \"b\""].map .ok) (m := [.ok (c!"\"x\"")])
    (m' := [.ok (c!"junk")]) (s := [c!"msgid \"c\"", c!"msgstr \"d\"", c!"msgid \"e\"", c!"msgstr \"f\""].map .ok)
    (.headed (hd := (headLines (c!"X: y")).map .ok) (forms := none) (by rw [rawLines_text (by decide)]; rfl) (headerLines_demo _)
      (noContinuation_head (by decide) rfl) .absent)
    (.headed (hd := (headLines (c!"X: y")).map .ok) (forms := none) (by rw [rawLines_text (by decide)]; rfl) (headerLines_demo _)
      (noContinuation_head (by decide) rfl) .absent) hy hy' (.inr ⟨_, _, rfl⟩)
  · cases h3
  · obtain rfl : i = 0 := by simpa using h1
    cases h2
    cases h3
    exact ⟨rfl, rfl⟩

-- it is read with that error
example : Yields (parse demoEnv (textStream (headLines (c!"X: y") ++ contLines (c!"junk")))) ⟨[], [], [(c!"X", c!"y")], []⟩
    (results [] (some (.parse 7 (c!"junk") []))) :=
  yields_text (env := demoEnv) (res := ⟨⟨[], [], [(c!"X", c!"y")], []⟩, none, _, _⟩) (by decide) (by rfl)

/-- An entry whose id is the changed line. -/
def idLines (x : Str) : List Str := [c!"# x", c!"msgid \"a\"", c!"msgstr \"b\""] ++ ([x] ++ [c!"msgstr \"d\"", c!"msgid \"e\"", c!"msgstr \"f\""])

-- `C100_source`: the id of the second entry is made empty
example {us us' : List PoUnit} {k : Nat} {msg : Str}
    (hy : Yields (parse demoEnv (textStream (headLines (c!"X: y") ++ idLines (c!"msgid \"c\"")))) ⟨[], [], [(c!"X", c!"y")], []⟩ (results us none))
    (hy' : Yields (parse demoEnv (textStream (headLines (c!"X: y") ++ idLines (c!"msgid \"\"")))) ⟨[], [], [(c!"X", c!"y")], []⟩
      (results us' (some (.unexpected k msg)))) :=
  C100_source (p := [c!"# x", c!"msgid \"a\"", c!"msgstr \"b\""].map .ok) (m := [.ok (c!"msgid \"c\"")]) (m' := [.ok (c!"msgid \"\"")])
    (s := [c!"msgstr \"d\"", c!"msgid \"e\"", c!"msgstr \"f\""].map .ok)
    (.headed (hd := (headLines (c!"X: y")).map .ok) (forms := none) (by rw [rawLines_text (by decide)]; rfl) (headerLines_demo _)
      (noContinuation_head (by decide) rfl) .absent)
    (.headed (hd := (headLines (c!"X: y")).map .ok) (forms := none) (by rw [rawLines_text (by decide)]; rfl) (headerLines_demo _)
      (noContinuation_head (by decide) rfl) .absent) hy hy'

-- these inputs are read so
example : Yields (parse demoEnv (textStream (headLines (c!"X: y") ++ idLines (c!"msgid \"c\"")))) ⟨[], [], [(c!"X", c!"y")], []⟩
    (results [noted (c!"a") (c!"b"), unitAB (c!"c") (c!"d"), unitAB (c!"e") (c!"f")] none) :=
  yields_text (env := demoEnv) (res := ⟨⟨[], [], [(c!"X", c!"y")], []⟩, none, _, none⟩) (by decide) (by rfl)

example : Yields (parse demoEnv (textStream (headLines (c!"X: y") ++ idLines (c!"msgid \"\"")))) ⟨[], [], [(c!"X", c!"y")], []⟩
    (results [noted (c!"a") (c!"b")] (some (.unexpected 6 (c!"Source should not be empty")))) :=
  yields_text (env := demoEnv) (res := ⟨⟨[], [], [(c!"X", c!"y")], []⟩, none, _, some _⟩) (by decide) (by rfl)

end Verif
