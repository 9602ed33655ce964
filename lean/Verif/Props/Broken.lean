import Verif.Props.Local

/-! C100: a change of some lines that makes an input fail. -/

namespace Verif
open Spec

theorem comment_lines {hi : Nat} (cs : List (Nat × Char × Str)) : EachFollows hi .fresh (cs.map commentLine) .fresh := by
  induction cs with
  | nil => exact .nil
  | cons c cs ih => exact .cons (.comment .fresh) ih

theorem field_lines {hi : Nat} {a : Place} {p : Str} {k : FieldKind} {b : List PoLine} {v : Str} (f : FieldLines k.word p b v)
    (h : ∀ n s, MayFollow hi a (.message n p k.word s) (.field p k s)) : EachFollows hi a b (.field p k v) := by
  obtain ⟨n, s, cs, rfl, rfl⟩ := f
  exact .cons (h n s) (follows_continuations cs s)

/-- The lines of the last entry pass the check. -/
theorem leads_follows {hi : Nat} {block : List PoLine} {a : Place} (h : LeadsTo hi block a) : EachFollows hi .fresh block a := by
  cases a with
  | fresh =>
    obtain ⟨cs, rfl⟩ := h
    exact comment_lines cs
  | field p k v =>
    obtain ⟨o, pre, b, hp, rfl, f, hl⟩ := h
    induction hl generalizing p b v with
    | begins cs hk => exact (comment_lines cs).append (field_lines f fun n s => .begins .fresh hk)
    | next hl f' hk ih =>
      obtain ⟨q, f', hq⟩ := f'
      exact (ih q _ _ hq f').append (field_lines f fun n s => .goesOn hk (hq.symm.trans hp))

/-- What follows does not go on with the check. -/
def Breaks (hi : Nat) (c : Place) (rest : List Item) : Prop :=
  (∃ x tl, rest = .error x :: tl) ∨ ∃ ln tl, rest = .ok ln :: tl ∧ ∀ c', ¬ MayFollow hi c ln c'

theorem place_one {forms : Option PluralForms} {block : List PoLine} {a : Place} (h : LeadsTo (nplurals forms) block a) {us : List PoUnit}
    (hr : Run forms (block.map .ok) us none) : us.length ≤ 1 := by
  obtain ⟨us', h1, h2, h3⟩ := place_units h
  rw [(hr.unique h1).1]
  by_cases hc : AtBorder a ∧ a ≠ .fresh
  · obtain ⟨u, rfl⟩ := h2 hc
    exact Nat.le_refl _
  · rw [h3 hc]
    exact Nat.zero_le _

/-- Reading stops there, with at most one more unit. -/
theorem place_stop {forms : Option PluralForms} {block : List PoLine} {a : Place} {rest : List Item} (h : LeadsTo (nplurals forms) block a)
    (hr : Breaks (nplurals forms) a rest) : ∃ us e, Run forms (block.map .ok ++ rest) us (some e) ∧ us.length ≤ 1 := by
  rcases hr with ⟨x, tl, rfl⟩ | ⟨ln, tl, rfl, hn⟩
  · exact ⟨[], x, .stop (.unreadable (place_prefix h)), by simp⟩
  · by_cases hs : EmptySource a ln
    · obtain ⟨p, m, q, t, rfl, rfl, hpq⟩ := hs
      obtain ⟨cs, rest, rfl, h5⟩ := continuations q tl
      have hw := leads_follows h
      rcases h5 with h5 | ⟨x, tl, rfl⟩ | h5
      · obtain ⟨us, y, _, h1, h2⟩ := run_noSource (n := m) (s := t) (cs := cs) (rest := rest) hw hpq (.inl h5)
        exact ⟨us, _, by simpa using h2, place_one h h1⟩
      · obtain ⟨us, h1, h2⟩ := run_noSource_unreadable (n := m) (s := t) (cs := cs) (x := x) (tl := tl) hw hpq
        exact ⟨us, _, by simpa using h2, place_one h h1⟩
      · obtain ⟨us, y, _, h1, h2⟩ := run_noSource (n := m) (s := t) (cs := cs) (rest := rest) hw hpq (.inr h5)
        exact ⟨us, _, by simpa using h2, place_one h h1⟩
    · obtain ⟨us, h1, h2⟩ := place_breaks (tl := tl) h (leads_follows h) hn hs
      exact ⟨us, _, h2, place_one h h1⟩

/-- A line that is no continuation determines the place. -/
theorem same_next {hi : Nat} {a a' b b' : Place} {x y : PoLine} (he : unnum x = unnum y) (h : MayFollow hi a x b) (h' : MayFollow hi a' y b')
    (hc : ∀ n p s, x ≠ .continuation n p s) : b = b' := by
  have hm : ∀ {n p s m q t} {k k' : FieldKind}, unnum (.message n p k.word s) = unnum (.message m q k'.word t) → Place.field p k s = .field q k' t := by
    intro n p s m q t k k' h
    simp only [unnum, PoLine.message.injEq] at h
    cases word_inj h.2.2.1
    rw [h.2.1, h.2.2.2]
  cases h with
  | comment => cases h' <;> first | rfl | cases he
  | begins => cases h' <;> first | exact hm he | cases he
  | goesOn => cases h' <;> first | exact hm he | cases he
  | continues => exact absurd rfl (hc _ _ _)

theorem follow_alike {hi : Nat} {a b : Place} {x y : PoLine} (he : unnum x = unnum y) (h : MayFollow hi a x b) : MayFollow hi a y b := by
  cases h <;> cases y <;> simp only [unnum, PoLine.comment.injEq, PoLine.message.injEq, PoLine.continuation.injEq, true_and, reduceCtorEq] at he
  · exact .comment ‹_›
  · obtain ⟨rfl, rfl, rfl⟩ := he
    exact .begins ‹_› ‹_›
  · obtain ⟨rfl, rfl⟩ := he
    exact .continues
  · obtain ⟨rfl, rfl, rfl⟩ := he
    exact .goesOn ‹_› ‹_›

theorem follows_alike {hi : Nat} {a c : Place} {l l' : List PoLine} (h : EachFollows hi a l c) (hi' : ItemsAt Counted (l.map .ok) (l'.map .ok)) :
    EachFollows hi a l' c := by
  induction h generalizing l' with
  | nil =>
    cases l' with
    | nil => exact .nil
    | cons => cases hi'
  | cons hf _ ih =>
    cases l' with
    | nil => cases hi'
    | cons y l' =>
      cases hi' with
      | line he _ hi' => exact .cons (follow_alike he hf) (ih hi')

/-- If lines pass the check from one place and not from another one, they fail at the first line that is no continuation. -/
theorem fails_early {forms : Option PluralForms} {a c a' c' : Place} {l s1 block : List PoLine} {ln : PoLine} {tl : List PoLine}
    (h : EachFollows (nplurals forms) a l c) (h' : EachFollows (nplurals forms) a' s1 c') (hn : ∀ d, ¬ MayFollow (nplurals forms) c' ln d)
    (hi : ItemsAt Counted (l.map .ok) ((s1 ++ ln :: tl).map .ok)) (hl : LeadsTo (nplurals forms) block a') :
    (∃ us e, Run forms ((block ++ (s1 ++ ln :: tl)).map .ok) us (some e) ∧ us.length ≤ 1) ∧ ∀ x ∈ s1, ∃ n p s, x = .continuation n p s := by
  induction h' generalizing a l block with
  | nil =>
    refine ⟨?_, by simp⟩
    obtain ⟨us, e, h1, h2⟩ := place_stop (rest := .ok ln :: tl.map .ok) hl (.inr ⟨ln, _, rfl, hn⟩)
    exact ⟨us, e, by simpa using h1, h2⟩
  | @cons a' b' c' ln1 ls hf' hfs' ih =>
    cases h with
    | nil => cases hi
    | @cons _ b _ y l hf hfs =>
      cases hi with
      | line he _ hi =>
        by_cases hc : ∃ n p s, ln1 = .continuation n p s
        · obtain ⟨n, p, s, rfl⟩ := hc
          have hw : placeWeight b' = placeWeight a' := by
            cases hf'
            exact weight_kind ..
          rcases step_weight hl hf' with ⟨h1, _⟩ | ⟨u, _, _, _, _, h5, h6⟩
          · obtain ⟨⟨us, e, g1, g2⟩, g3⟩ := ih hfs hn hi h1
            refine ⟨⟨us, e, by simpa using g1, g2⟩, ?_⟩
            intro x hx
            rcases List.mem_cons.mp hx with rfl | hx
            · exact ⟨_, _, _, rfl⟩
            · exact g3 x hx
          · omega
        · exfalso
          have hb := same_next he hf hf' (fun n p s h => by
            subst h
            cases ln1 with
            | continuation n' p' s' => exact hc ⟨_, _, _, rfl⟩
            | _ => cases he)
          subst hb
          obtain ⟨d, h1, h2⟩ := follows_split (follows_alike hfs hi)
          cases h1.unique hfs'
          cases h2 with
          | cons hd _ => exact hn _ hd

/-- Reading stops after a part of the lines, with few units behind those of the lines before. -/
theorem stops_near {forms : Option PluralForms} {c1 c2 : Place} {m last : List PoLine} {rest : List Item} (hm : EachFollows (nplurals forms) c1 m c2)
    (hl : LeadsTo (nplurals forms) last c1)
    (hr : ∀ block, LeadsTo (nplurals forms) block c2 → ∃ us e, Run forms (block.map .ok ++ rest) us (some e) ∧ us.length ≤ 1) :
    ∃ y e, Run forms (last.map .ok ++ (m.map .ok ++ rest)) y (some e) ∧ y.length ≤ m.length / 2 + 2 := by
  obtain ⟨x, l1, k1, k2, k3⟩ := follows_count hm hl
  obtain ⟨us, e, h1, h2⟩ := hr l1 k1
  have := weight_le c1
  refine ⟨x ++ us, e, by simpa using k3 _ _ _ h1, ?_⟩
  rw [List.length_append]
  omega

theorem items_halted {n : Nat} {rs rs' : List (Except IoErr Str)} {e : Err} (h : .error e ∈ items n rs) : items n (rs ++ rs') = items n rs := by
  induction rs generalizing n with
  | nil => cases h
  | cons r rs ih =>
    cases r with
    | error x => simp [items]
    | ok s =>
      simp only [List.cons_append, items] at h ⊢
      split at h
      · rfl
      · exact ih h
      · rename_i q hb hx
        have := ih (n := n + 1) (by simpa using h)
        rw [this]

theorem itemsAt_back {P : Nat → Nat → Prop} (hP : ∀ k k', P k k' → 1 ≤ k ∧ 1 ≤ k') {l : List Item} {b : List PoLine} (h : ItemsAt P l (b.map .ok)) :
    ∃ b' : List PoLine, l = b'.map .ok ∧ ItemsAt Counted (b.map .ok) (b'.map .ok) := by
  induction b generalizing l with
  | nil =>
    cases h
    exact ⟨[], rfl, .nil⟩
  | cons y b ih =>
    cases h with
    | @line x _ l _ he hp h =>
      obtain ⟨b', rfl, h2⟩ := ih h
      exact ⟨x :: b', rfl, .line he.symm ⟨(hP _ _ hp).2, (hP _ _ hp).1⟩ h2⟩

theorem itemsAt_forth {P : Nat → Nat → Prop} (hP : ∀ k k', P k k' → 1 ≤ k ∧ 1 ≤ k') {l : List Item} {b : List PoLine} (h : ItemsAt P (b.map .ok) l) :
    ∃ b' : List PoLine, l = b'.map .ok ∧ ItemsAt Counted (b.map .ok) (b'.map .ok) := by
  induction b generalizing l with
  | nil =>
    cases h
    exact ⟨[], rfl, .nil⟩
  | cons y b ih =>
    cases h with
    | @line _ x _ l he hp h =>
      obtain ⟨b', rfl, h2⟩ := ih h
      exact ⟨x :: b', rfl, .line he (hP _ _ hp) h2⟩

/-- The same lines with other numbers. -/
theorem items_other {n n' : Nat} (hn : 1 ≤ n) (hn' : 1 ≤ n') {rs : List (Except IoErr Str)} {b : List PoLine} (h : items n rs = b.map .ok) :
    ∃ b' : List PoLine, items n' rs = b'.map .ok ∧ ItemsAt Counted (b.map .ok) (b'.map .ok) := by
  rcases Nat.le_total n n' with hle | hle
  · have hs := items_shift rs n (n' - n) hn
    rw [show n + (n' - n) = n' by omega, h] at hs
    exact itemsAt_forth (fun k k' h => ⟨h.1, by omega⟩) hs
  · have hs := items_shift rs n' (n - n') hn'
    rw [show n' + (n - n') = n by omega, h] at hs
    exact itemsAt_back (fun k k' h => ⟨h.1, by omega⟩) hs

/-- Two inputs with the same lines before and after; the second one fails. -/
theorem run_broken {forms : Option PluralForms} {N : Nat} {p m m' s : List (Except IoErr Str)} {us us' : List PoUnit} {e' : Err}
    (h : Run forms (items (1 + N) (p ++ (m ++ s))) us none) (h' : Run forms (items (1 + N) (p ++ (m' ++ s))) us' (some e')) :
    ∃ a y b z, us = a ++ b ∧ us' = a ++ y ∧ y.length ≤ m'.length / 2 + 2 ∧ Run forms (items (1 + N) p) (a ++ z) none ∧ z.length ≤ 1 := by
  obtain ⟨b, c3, e1, f1⟩ := follows_run h rfl .fresh
  obtain ⟨bp, b1, rfl, e2, e3⟩ := items_front e1
  obtain ⟨bm, bs, rfl, e4, e5⟩ := items_front e3
  obtain ⟨c1, f2, f3⟩ := follows_split f1
  obtain ⟨c2, f4, f5⟩ := follows_split f3
  have hne : ∀ e, .error e ∉ items (1 + N) p := by
    intro e he
    rw [e2] at he
    simp at he
  rw [items_append hne, e2] at h'
  obtain ⟨a, last, g1, _, g3⟩ := follows_count (block := []) f2 ⟨[], rfl⟩
  obtain ⟨ub, hb⟩ := run_follows f3 g1
  have hus : us = a ++ ub := by
    have := g3 ((bm ++ bs).map .ok) ub none (by simpa using hb)
    rw [e1] at h
    exact (h.unique (by simpa using this)).1
  obtain ⟨z, hz, _⟩ := place_units g1
  have hp : Run forms (items (1 + N) p) (a ++ z) none := by
    rw [e2]
    simpa using g3 [] z none (by simpa using hz)
  suffices hy : ∃ y e, Run forms (last.map .ok ++ items (1 + N + p.length) (m' ++ s)) y (some e) ∧ y.length ≤ m'.length / 2 + 2 by
    obtain ⟨y, e, h1, h2⟩ := hy
    have := g3 _ _ _ h1
    exact ⟨a, y, ub, z, hus, (h'.unique (by simpa using this)).1, h2, hp, place_one g1 hz⟩
  obtain ⟨b2, c, rest, k1, k2, k3⟩ := first_break (nplurals forms) (items (1 + N + p.length) (m' ++ s)) c1
  rcases k3 with rfl | k3
  · exfalso
    rw [k1] at h'
    obtain ⟨uz, hz⟩ := run_follows (block := []) (f2.append k2) ⟨[], rfl⟩
    cases (h'.unique (by simpa using hz)).2
  have k3 : Breaks (nplurals forms) c rest := k3
  have near : b2.length ≤ m'.length → ∃ y e, Run forms (last.map .ok ++ items (1 + N + p.length) (m' ++ s)) y (some e) ∧ y.length ≤ m'.length / 2 + 2 := by
    intro hle
    rw [k1]
    obtain ⟨y, e, h1, h2⟩ := stops_near k2 g1 (fun block hl => place_stop hl k3)
    exact ⟨y, e, h1, by omega⟩
  have hlen := items_length (1 + N + p.length) m'
  by_cases hx : ∃ e, .error e ∈ items (1 + N + p.length) m'
  · obtain ⟨e, hx⟩ := hx
    apply near
    have := congrArg List.length k1
    rw [items_halted hx, List.length_append, List.length_map] at this
    omega
  · have happ := items_append (rs' := s) (fun e he => hx ⟨e, he⟩)
    obtain ⟨bm', hbm⟩ : ∃ bm' : List PoLine, items (1 + N + p.length) m' = bm'.map .ok := by
      have : ∀ l : List Item, (¬ ∃ e, .error e ∈ l) → ∃ b : List PoLine, l = b.map .ok := by
        intro l
        induction l with
        | nil => exact fun _ => ⟨[], rfl⟩
        | cons i l ih =>
          intro hx
          cases i with
          | error e => exact absurd ⟨e, List.mem_cons_self ..⟩ hx
          | ok y =>
            obtain ⟨b, hb⟩ := ih (fun ⟨e, he⟩ => hx ⟨e, List.mem_cons_of_mem _ he⟩)
            exact ⟨y :: b, by rw [hb]; rfl⟩
      exact this _ hx
    obtain ⟨bs', hbs, hat⟩ := items_other (n' := 1 + N + p.length + m'.length) (by omega) (by omega) e5
    rw [hbm, List.length_map] at hlen
    rw [happ, hbm, hbs] at k1
    by_cases hle : b2.length ≤ bm'.length
    · exact near (by omega)
    · rcases List.append_eq_append_iff.mp k1 with ⟨s1, h1, h2⟩ | ⟨s1, h1, _⟩
      · obtain ⟨s1, t1, rfl, rfl, rfl⟩ := List.map_eq_append_iff.mp h2
        have : b2 = bm' ++ s1 := List.map_inj_right (fun _ _ h => Except.ok.inj h) |>.mp (h1.trans (List.map_append ..).symm)
        subst this
        obtain ⟨d, j1, j2⟩ := follows_split k2
        rcases k3 with ⟨x, tl, h3⟩ | ⟨ln, tl, h3, hn⟩
        · cases t1 <;> cases h3
        · cases t1 with
          | nil => cases h3
          | cons t t1 =>
            cases h3
            rw [happ, hbm, hbs]
            obtain ⟨y, e, q1, q2⟩ := stops_near j1 g1 (rest := (s1 ++ ln :: t1).map .ok) (fun block hl => by
              obtain ⟨us, e, q1, q2⟩ := (fails_early f5 j2 hn hat hl).1
              exact ⟨us, e, by simpa using q1, q2⟩)
            exact ⟨y, e, q1, by omega⟩
      · exfalso
        have := congrArg List.length h1
        simp only [List.length_map, List.length_append] at this
        omega

/-- **C100** If the changed input is not read without error, reading stops close to the change: the units are units of the lines before it, all but at most the
last of them, and a few more. -/
theorem C100_broken {env : Env} {stream stream' : List Event} {hdr hdr' : Header env.Lang} {p m m' s : List (Except IoErr Str)} {n n' : Nat}
    {forms : Option PluralForms} {us us' : List PoUnit} {e' : Err} (h : BodyAt env stream hdr (p ++ (m ++ s)) n forms)
    (h' : BodyAt env stream' hdr' (p ++ (m' ++ s)) n' forms) (hy : Yields (parse env stream) hdr (results us none))
    (hy' : Yields (parse env stream') hdr' (results us' (some e'))) :
    ∃ a y b, us = a ++ b ∧ us' = a ++ y ∧ y.length ≤ m'.length / 2 + 2 ∧
      ∀ {stream0 : List Event} {hdr0 : Header env.Lang} {n0 : Nat} {us0 : List PoUnit} {e0 : Option Err}, BodyAt env stream0 hdr0 p n0 forms →
        Yields (parse env stream0) hdr0 (results us0 e0) → e0 = none ∧ ∃ z, us0 = a ++ z ∧ z.length ≤ 1 := by
  have h1 := body_count h hy
  have h2 := (body_forms h' hy').2
  have num : ∀ {stream : List Event} {hdr : Header env.Lang} {rs n}, BodyAt env stream hdr rs n forms → ∃ k, n = 1 + k := by
    intro stream hdr rs n h
    cases h with
    | headed => exact ⟨_, rfl⟩
    | plain => exact ⟨0, rfl⟩
  obtain ⟨k, rfl⟩ := num h'
  obtain ⟨e, h3, h4⟩ := run_renumber (n := 0) (m := k) h1
  rw [sameEndAfter_none h4] at h3
  obtain ⟨a, y, b, z, r1, r2, r3, r4, r5⟩ := run_broken h3 h2
  refine ⟨a, y, b, r1, r2, r3, fun {stream0 hdr0 n0 us0 e0} h0 hy0 => ?_⟩
  have h5 := (body_forms h0 hy0).2
  obtain ⟨k0, rfl⟩ := num h0
  obtain ⟨e6, h6, h7⟩ := run_renumber (m := k0) r4
  rw [sameEndAfter_none h7] at h6
  obtain ⟨rfl, rfl⟩ := h5.unique h6
  exact ⟨rfl, z, rfl, r5⟩

/-- The continuation line of `contLines` replaced by a line `msgid`: that entry is cut short, and the units before the error are a beginning of those of the original but for at most two. -/
example {us us' : List PoUnit} {e' : Err}
    (hy : Yields (parse demoEnv (textStream (headLines (c!"X: y") ++ contLines (c!"\"x\"")))) ⟨[], [], [(c!"X", c!"y")], []⟩ (results us none))
    (hy' : Yields (parse demoEnv (textStream (headLines (c!"X: y") ++ contLines (c!"msgid \"z\"")))) ⟨[], [], [(c!"X", c!"y")], []⟩
      (results us' (some e'))) :
    ∃ a y b, us = a ++ b ∧ us' = a ++ y ∧ y.length ≤ 2 := by
  obtain ⟨a, y, b, h1, h2, h3, -⟩ := C100_broken (p := [c!"# x", c!"msgid \"a\"", c!"msgstr \"b\""].map .ok) (m := [.ok (c!"\"x\"")])
    (m' := [.ok (c!"msgid \"z\"")]) (s := [c!"msgid \"c\"", c!"msgstr \"d\"", c!"msgid \"e\"", c!"msgstr \"f\""].map .ok)
    (.headed (hd := (headLines (c!"X: y")).map .ok) (forms := none) (by rw [rawLines_text (by decide)]; rfl) (headerLines_demo _)
      (noContinuation_head (by decide) rfl) .absent)
    (.headed (hd := (headLines (c!"X: y")).map .ok) (forms := none) (by rw [rawLines_text (by decide)]; rfl) (headerLines_demo _)
      (noContinuation_head (by decide) rfl) .absent) hy hy'
  exact ⟨a, y, b, h1, h2, h3⟩

/-- That replacement is read with an error: one unit, then the error of the line after the changed one. -/
theorem cont_broken : Yields (parse demoEnv (textStream (headLines (c!"X: y") ++ contLines (c!"msgid \"z\"")))) ⟨[], [], [(c!"X", c!"y")], []⟩
    (results [noted (c!"a") (c!"b")] (some (.parse 7 [] (c!"msgstr")))) :=
  yields_text (env := demoEnv) (res := ⟨⟨[], [], [(c!"X", c!"y")], []⟩, none, _, _⟩) (by decide) (by rfl)

end Verif
