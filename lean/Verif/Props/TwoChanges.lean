import Verif.Props.Where

/-! C102: two changes that are harmless each are harmless together. -/

namespace Verif
open Spec

/-- The lines pass the check from one place to another one. -/
def Passes (hi : Nat) (rs : List (Except IoErr Str)) (a c : Place) : Prop := ∃ b : List PoLine, items 1 rs = b.map .ok ∧ EachFollows hi a b c

theorem itemsAt_join {P : Nat → Nat → Prop} {a a' b b' : List Item} (h : ItemsAt P a a') (h' : ItemsAt P b b') : ItemsAt P (a ++ b) (a' ++ b') := by
  induction h with
  | nil => exact h'
  | line he hp _ ih => exact .line he hp ih
  | error hm _ ih => exact .error hm ih

theorem itemsAt_self {n : Nat} (hn : 1 ≤ n) {rs : List (Except IoErr Str)} {b : List PoLine} (h : items n rs = b.map .ok) :
    ItemsAt Counted (b.map .ok) (b.map .ok) := by
  obtain ⟨b', h1, h2⟩ := items_other hn hn h
  rw [h] at h1
  rwa [← h1] at h2

theorem passes_at {hi : Nat} {rs : List (Except IoErr Str)} {a c : Place} {n : Nat} (hn : 1 ≤ n) :
    Passes hi rs a c ↔ ∃ b : List PoLine, items n rs = b.map .ok ∧ EachFollows hi a b c := by
  constructor
  · rintro ⟨b, h1, h2⟩
    obtain ⟨b', h3, h4⟩ := items_other (Nat.le_refl 1) hn h1
    exact ⟨b', h3, follows_alike h2 h4⟩
  · rintro ⟨b, h1, h2⟩
    obtain ⟨b', h3, h4⟩ := items_other hn (Nat.le_refl 1) h1
    exact ⟨b', h3, follows_alike h2 h4⟩

theorem passes_split {hi : Nat} {rs rs' : List (Except IoErr Str)} {a c : Place} (h : Passes hi (rs ++ rs') a c) :
    ∃ d, Passes hi rs a d ∧ Passes hi rs' d c := by
  obtain ⟨b, h1, h2⟩ := h
  obtain ⟨b1, b2, rfl, h3, h4⟩ := items_front h1
  obtain ⟨d, h5, h6⟩ := follows_split h2
  exact ⟨d, ⟨b1, h3, h5⟩, (passes_at (by omega)).mpr ⟨b2, h4, h6⟩⟩

theorem passes_join {hi : Nat} {rs rs' : List (Except IoErr Str)} {a c d : Place} (h : Passes hi rs a d) (h' : Passes hi rs' d c) :
    Passes hi (rs ++ rs') a c := by
  obtain ⟨b, h1, h2⟩ := h
  obtain ⟨b', h3, h4⟩ := (passes_at (n := 1 + rs.length) (by omega)).mp h'
  refine ⟨b ++ b', ?_, h2.append h4⟩
  rw [items_append (by intro e he; rw [h1] at he; simp at he), h1, h3, List.map_append]

theorem passes_unique {hi : Nat} {rs : List (Except IoErr Str)} {a c c' : Place} (h : Passes hi rs a c) (h' : Passes hi rs a c') : c = c' := by
  obtain ⟨b, h1, h2⟩ := h
  obtain ⟨b', h3, h4⟩ := h'
  rw [h1] at h3
  cases List.map_inj_right (fun _ _ h => Except.ok.inj h) |>.mp h3
  exact h2.unique h4

/-- A line that is neither blank nor a continuation. -/
def Anchors (rs : List (Except IoErr Str)) : Prop :=
  ∃ t j x, .ok t ∈ rs ∧ Classified t j (some x) ∧ x ≠ .blank ∧ ∀ i q v, x ≠ .continuation i q v

theorem follows_meet {hi : Nat} {a a' c c' : Place} {b : List PoLine} (h : EachFollows hi a b c) (h' : EachFollows hi a' b c')
    (hx : ∃ x ∈ b, ∀ i q v, x ≠ .continuation i q v) : c = c' := by
  induction h generalizing a' with
  | nil =>
    obtain ⟨_, hx, _⟩ := hx
    cases hx
  | @cons a b c y ls hf hfs ih =>
    cases h' with
    | @cons _ b' _ _ _ hf' hfs' =>
      by_cases hy : ∀ i q v, y ≠ .continuation i q v
      · cases same_next rfl hf hf' hy
        exact hfs.unique hfs'
      · obtain ⟨x, hx, hxc⟩ := hx
        rcases List.mem_cons.mp hx with rfl | hx
        · exact absurd hxc hy
        · exact ih hfs' ⟨x, hx, hxc⟩

theorem lineItems_member {n : Nat} {rs : List (Except IoErr Str)} {l : List Item} (h : LineItems n rs l) (he : ∀ e, .error e ∉ l) {t : Str}
    (ht : .ok t ∈ rs) : ∃ i y, Classified t i (some y) ∧ (y = .blank ∨ .ok y ∈ l) := by
  induction h with
  | nil => cases ht
  | failed => exact absurd (List.mem_cons_self ..) (he _)
  | unrecognised => exact absurd (List.mem_cons_self ..) (he _)
  | blank hc _ ih =>
    rcases List.mem_cons.mp ht with h | h
    · cases h
      exact ⟨_, _, hc, .inl rfl⟩
    · exact ih he h
  | line hc _ _ ih =>
    rcases List.mem_cons.mp ht with h | h
    · cases h
      exact ⟨_, _, hc, .inr (List.mem_cons_self ..)⟩
    · obtain ⟨i, y, h1, h2⟩ := ih (fun e h => he e (List.mem_cons_of_mem _ h)) h
      exact ⟨i, y, h1, h2.imp id (List.mem_cons_of_mem _)⟩

theorem passes_meet {hi : Nat} {rs : List (Except IoErr Str)} (hnl : ∀ s, .ok s ∈ rs → '\n' ∉ s) {a a' c c' : Place} (h : Passes hi rs a c)
    (h' : Passes hi rs a' c') (hq : Anchors rs) : c = c' := by
  obtain ⟨b, h1, h2⟩ := h
  obtain ⟨b', h3, h4⟩ := h'
  rw [h1] at h3
  cases List.map_inj_right (fun _ _ h => Except.ok.inj h) |>.mp h3
  refine follows_meet h2 h4 ?_
  obtain ⟨t, j, x, ht, hc, hb, hx⟩ := hq
  obtain ⟨i, y, g1, g2⟩ := lineItems_member (items_lineItems hnl 1) (by intro e he; rw [h1] at he; simp at he) ht
  have p1 := (C06_line_classification _ _ (hnl t ht) _).mpr hc
  have p2 := (C06_line_classification _ _ (hnl t ht) _).mpr g1
  rcases parseLine_number t j i with ⟨r1, r2⟩ | ⟨r1, r2⟩ | ⟨x', y', r1, r2, r3, r4, r5, -, -⟩
  · rw [p1] at r1; cases r1
  · rw [p1] at r1; cases r1; exact absurd rfl hb
  · rw [p1] at r1
    rw [p2] at r2
    cases r1
    cases r2
    refine ⟨y, ?_, ?_⟩
    · have := g2.resolve_left r4
      rw [h1] at this
      simpa using this
    · rintro k q v rfl
      cases x with
      | continuation k' q' v' => exact hx _ _ _ rfl
      | _ => cases r5

theorem body_passes {env : Env} {stream : List Event} {rs : List (Except IoErr Str)} {n : Nat} {forms : Option PluralForms} {hdr : Header env.Lang}
    {us : List PoUnit} (h : BodyAt env stream hdr rs n forms) (hy : Yields (parse env stream) hdr (results us none)) :
    ∃ c, Passes (nplurals forms) rs .fresh c := by
  obtain ⟨b, c, h1, h2⟩ := follows_run (body_count h hy) rfl .fresh
  exact ⟨c, b, h1, h2⟩

theorem passes_run {forms : Option PluralForms} {rs : List (Except IoErr Str)} {c : Place} (h : Passes (nplurals forms) rs .fresh c) {n : Nat} (hn : 1 ≤ n) :
    ∃ us, Run forms (items n rs) us none := by
  obtain ⟨b, h1, h2⟩ := (passes_at hn).mp h
  obtain ⟨us, h3⟩ := run_follows (block := []) h2 ⟨[], rfl⟩
  exact ⟨us, by rw [h1]; simpa using h3⟩

theorem inStep_self (a : Place) : InStep a a := by cases a <;> constructor

/-- Two beginnings that lead to the same place, with the same lines after them. -/
theorem passes_units {forms : Option PluralForms} {f f' : List (Except IoErr Str)} {c : Place} (h : Passes (nplurals forms) f .fresh c)
    (h' : Passes (nplurals forms) f' .fresh c) :
    ∃ a a', ∀ {r : List (Except IoErr Str)} {d : Place}, Passes (nplurals forms) r c d →
      ∃ x x' b, Run forms (items 1 (f ++ r)) (a ++ (x ++ b)) none ∧ Run forms (items 1 (f' ++ r)) (a' ++ (x' ++ b)) none ∧ x.length ≤ 1 ∧ x'.length ≤ 1 := by
  obtain ⟨bf, h1, h2⟩ := h
  obtain ⟨bf', h1', h2'⟩ := h'
  obtain ⟨a, last, g1, _, g3⟩ := follows_count (block := []) h2 ⟨[], rfl⟩
  obtain ⟨a', last', g1', _, g3'⟩ := follows_count (block := []) h2' ⟨[], rfl⟩
  refine ⟨a, a', fun {r d} hr => ?_⟩
  obtain ⟨br, k1, k2⟩ := hr
  obtain ⟨x, x', b, r1, r2, r3, r4⟩ := together k2 k2 g1 g1' (itemsAt_self (Nat.le_refl 1) k1) (inStep_self c)
  have move : ∀ {f : List (Except IoErr Str)} {bf : List PoLine} {u : List PoUnit}, items 1 f = bf.map .ok → Run forms ((bf ++ br).map .ok) u none →
      Run forms (items 1 (f ++ r)) u none := by
    intro f bf u hf hu
    obtain ⟨br', e1, e2⟩ := items_other (n' := 1 + f.length) (Nat.le_refl 1) (by omega) k1
    rw [items_append (by intro e he; rw [hf] at he; simp at he), hf, e1]
    rw [List.map_append] at hu
    exact run_alike hu (itemsAt_join (itemsAt_self (Nat.le_refl 1) hf) e2)
  refine ⟨x, x', b, move h1 ?_, move h1' ?_, r3, r4⟩
  · simpa using g3 (br.map .ok) _ _ (by simpa using r1)
  · simpa using g3' (br.map .ok) _ _ (by simpa using r2)

/-- Two changes, with a line between them that is neither blank nor a continuation. If the input is read without error and also with each of the changes,
it is read without error with both; the units are those before the second change with the first one, and those after the first change with the second one. -/
theorem C102_both {env : Env} {stream stream1 stream2 stream3 : List Event} {hdr hdr1 hdr2 hdr3 : Header env.Lang} {p m m' q k k' s : List (Except IoErr Str)}
    {n n1 n2 n3 : Nat} {forms : Option PluralForms} {us us1 us2 us3 : List PoUnit} {e : Option Err}
    (h : BodyAt env stream hdr (p ++ m ++ q ++ (k ++ s)) n forms) (h1 : BodyAt env stream1 hdr1 (p ++ m' ++ q ++ (k ++ s)) n1 forms)
    (h2 : BodyAt env stream2 hdr2 (p ++ m ++ q ++ (k' ++ s)) n2 forms) (h3 : BodyAt env stream3 hdr3 (p ++ m' ++ q ++ (k' ++ s)) n3 forms)
    (hq : ∃ t j x, .ok t ∈ q ∧ Classified t j (some x) ∧ x ≠ .blank ∧ ∀ i r v, x ≠ .continuation i r v)
    (hy : Yields (parse env stream) hdr (results us none)) (hy1 : Yields (parse env stream1) hdr1 (results us1 none))
    (hy2 : Yields (parse env stream2) hdr2 (results us2 none)) (hy3 : Yields (parse env stream3) hdr3 (results us3 e)) :
    e = none ∧ ∃ a a' b b' x x1 x2 x3, us = a ++ (x ++ b) ∧ us1 = a' ++ (x1 ++ b) ∧ us2 = a ++ (x2 ++ b') ∧ us3 = a' ++ (x3 ++ b') ∧
      x.length ≤ 1 ∧ x1.length ≤ 1 ∧ x2.length ≤ 1 ∧ x3.length ≤ 1 := by
  obtain ⟨c0, w0⟩ := body_passes h hy
  obtain ⟨c1, w1⟩ := body_passes h1 hy1
  obtain ⟨c2, w2⟩ := body_passes h2 hy2
  obtain ⟨d0, f0, r0⟩ := passes_split w0
  obtain ⟨d1, f1, r1⟩ := passes_split w1
  obtain ⟨d2, f2, r2⟩ := passes_split w2
  cases passes_unique f0 f2
  have hnl := (body_forms h hy).1
  obtain ⟨_, _, v0⟩ := passes_split f0
  obtain ⟨_, _, v1⟩ := passes_split f1
  cases passes_meet (fun t ht => hnl t (by simp [ht])) v0 v1 hq
  have hn3 : 1 ≤ n3 := by
    generalize hrs : p ++ m' ++ q ++ (k' ++ s) = rs at h3
    cases h3 with
    | headed => omega
    | plain => omega
  have he : e = none := by
    obtain ⟨u, hu⟩ := passes_run (passes_join f1 r2) hn3
    exact ((body_forms h3 hy3).2.unique hu).2
  subst he
  refine ⟨rfl, ?_⟩
  obtain ⟨a, a', hu⟩ := passes_units f0 f1
  obtain ⟨x, x1, b, z1, z2, z3, z4⟩ := hu r0
  obtain ⟨x2, x3, b', z5, z6, z7, z8⟩ := hu r2
  exact ⟨a, a', b, b', x, x1, x2, x3, ((body_count h hy).unique z1).1, ((body_count h1 hy1).unique z2).1, ((body_count h2 hy2).unique z5).1,
    ((body_count h3 hy3).unique z6).1, z3, z4, z7, z8⟩

/-- Lines that begin after a translation and end before the next one: another entry begins among them. -/
theorem follows_crossing {forms : Option PluralForms} {a c : Place} {l : List PoLine} (h : EachFollows (nplurals forms) a l c) (ha : placeWeight a = 1)
    (hc : placeWeight c = 0) :
    ∃ l1 ln l2 d, l = l1 ++ ln :: l2 ∧ LeadsTo (nplurals forms) [ln] d ∧ EachFollows (nplurals forms) d l2 c ∧
      ∀ block, LeadsTo (nplurals forms) block a →
        ∃ us, ∀ tl us' e, Run forms ((ln :: l2).map .ok ++ tl) us' e → Run forms ((block ++ l).map .ok ++ tl) (us ++ us') e := by
  induction h with
  | nil => omega
  | @cons a b c ln ls hf hfs ih =>
    by_cases hb : placeWeight b = 1
    · obtain ⟨l1, x, l2, d, rfl, h2, h3, h4⟩ := ih hb hc
      refine ⟨ln :: l1, x, l2, d, rfl, h2, h3, fun block hl => ?_⟩
      rcases step_weight hl hf with ⟨g1, _⟩ | ⟨_, _, _, _, _, _, g6⟩
      · obtain ⟨us, h5⟩ := h4 _ g1
        exact ⟨us, fun tl us' e hr => by simpa using h5 tl us' e hr⟩
      · omega
    · have hd : LeadsTo (nplurals forms) [ln] b := by
        cases hf with
        | @comment _ n ch t => exact ⟨[(n, ch, t)], rfl⟩
        | @begins _ n p k t _ hk =>
          by_cases ht : Tilde p
          · exact ⟨true, [], _, ⟨fun _ => ht, fun _ => rfl⟩, rfl, ⟨n, t, [], rfl, by simp⟩, .begins [] hk⟩
          · exact ⟨false, [], _, ⟨fun h => (by cases h), fun h => absurd h ht⟩, rfl, ⟨n, t, [], rfl, by simp⟩, .begins [] hk⟩
        | continues => exact absurd ((weight_kind ..).trans ha) hb
        | goesOn hk =>
          cases hk with
          | more => exact absurd rfl hb
          | _ => cases ha
      refine ⟨[], ln, ls, b, rfl, hd, hfs, fun block hl => ?_⟩
      rcases step_weight hl hf with ⟨_, g2⟩ | ⟨u, g1, g2, g3, _, _, _⟩
      · have := weight_le b
        omega
      · refine ⟨[u], fun tl us' e hr => ?_⟩
        have := Run.entry g1 g2 (g3 _) (by simpa using hr)
        simpa using this

/-- Two beginnings that lead to the same place, and the beginning of another entry in the lines after them. -/
theorem passes_border {forms : Option PluralForms} {f f' g : List (Except IoErr Str)} {c d : Place} (h : Passes (nplurals forms) f .fresh c)
    (h' : Passes (nplurals forms) f' .fresh c) (hg : Passes (nplurals forms) g c d) (hc : placeWeight c = 1) (hd : placeWeight d = 0) :
    ∃ a a', ∀ {r : List (Except IoErr Str)} {z : Place}, Passes (nplurals forms) r d z →
      ∃ b, Run forms (items 1 (f ++ (g ++ r))) (a ++ b) none ∧ Run forms (items 1 (f' ++ (g ++ r))) (a' ++ b) none := by
  obtain ⟨bf, h1, h2⟩ := h
  obtain ⟨bf', h1', h2'⟩ := h'
  obtain ⟨bg, h3, h4⟩ := hg
  obtain ⟨a, last, g1, _, g3⟩ := follows_count (block := []) h2 ⟨[], rfl⟩
  obtain ⟨a', last', g1', _, g3'⟩ := follows_count (block := []) h2' ⟨[], rfl⟩
  obtain ⟨l1, ln, l2, w, rfl, k1, k2, k3⟩ := follows_crossing h4 hc hd
  obtain ⟨us, k4⟩ := k3 _ g1
  obtain ⟨us', k4'⟩ := k3 _ g1'
  refine ⟨a ++ us, a' ++ us', fun {r z} hr => ?_⟩
  obtain ⟨br, e1, e2⟩ := (passes_at (n := 1 + g.length) (by omega)).mp hr
  have e3 : items 1 (g ++ r) = ((l1 ++ ln :: l2) ++ br).map .ok := by
    rw [items_append (by intro e he; rw [h3] at he; simp at he), h3, e1, List.map_append (l₂ := br)]
  obtain ⟨b, hb⟩ := run_follows (k2.append e2) k1
  have move : ∀ {f : List (Except IoErr Str)} {bf : List PoLine} {u : List PoUnit}, items 1 f = bf.map .ok →
      Run forms ((bf ++ ((l1 ++ ln :: l2) ++ br)).map .ok) u none → Run forms (items 1 (f ++ (g ++ r))) u none := by
    intro f bf u hf hu
    obtain ⟨br', e4, e5⟩ := items_other (n' := 1 + f.length) (Nat.le_refl 1) (by omega) e3
    rw [items_append (by intro e he; rw [hf] at he; simp at he), hf, e4]
    rw [List.map_append] at hu
    exact run_alike hu (itemsAt_join (itemsAt_self (Nat.le_refl 1) hf) e5)
  refine ⟨b, move h1 ?_, move h1' ?_⟩
  · have := k4 (br.map .ok) b none (by simpa using hb)
    have := g3 (((l1 ++ ln :: l2) ++ br).map .ok) (us ++ b) none (by simpa using this)
    simpa using this
  · have := k4' (br.map .ok) b none (by simpa using hb)
    have := g3' (((l1 ++ ln :: l2) ++ br).map .ok) (us' ++ b) none (by simpa using this)
    simpa using this

theorem passes_line {hi : Nat} {a c : Place} {t : Str} (hn : '\n' ∉ t) {j : Nat} {x : PoLine} (hc : Classified t j (some x)) (hb : x ≠ .blank)
    (h : Passes hi [.ok t] a c) : MayFollow hi a x c := by
  obtain ⟨b, h1, h2⟩ := h
  have p1 := (C06_line_classification _ _ hn _).mpr hc
  rcases parseLine_number t j 1 with ⟨r1, r2⟩ | ⟨r1, r2⟩ | ⟨x', y', r1, r2, r3, r4, r5, -, -⟩
  · rw [p1] at r1; cases r1
  · rw [p1] at r1; cases r1; exact absurd rfl hb
  · rw [p1] at r1
    cases r1
    rw [items_line r2 r4] at h1
    cases b with
    | nil => cases h1
    | cons y b =>
      simp only [List.map_cons, List.cons.injEq, Except.ok.injEq] at h1
      obtain ⟨rfl, h1⟩ := h1
      have : b = [] := by simpa [items] using h1.symm
      subst this
      cases h2 with
      | cons hf hfs =>
        cases hfs
        exact follow_alike r5.symm hf

/-- If the lines between the changes have a line of a translation and after it a comment line or a line of another keyword, the units are exactly those of
the one place with the first change and those of the other place with the second change. -/
theorem C102_exact {env : Env} {stream stream1 stream2 stream3 : List Event} {hdr hdr1 hdr2 hdr3 : Header env.Lang}
    {p m m' q1 q2 q3 k k' s : List (Except IoErr Str)} {t1 t2 : Str} {n n1 n2 n3 : Nat} {forms : Option PluralForms} {us us1 us2 us3 : List PoUnit}
    {e : Option Err} {j1 j2 : Nat} {w v kw : Str} {y : PoLine}
    (h : BodyAt env stream hdr (p ++ m ++ q1 ++ [.ok t1] ++ (q2 ++ [.ok t2] ++ (q3 ++ k ++ s))) n forms)
    (h1 : BodyAt env stream1 hdr1 (p ++ m' ++ q1 ++ [.ok t1] ++ (q2 ++ [.ok t2] ++ (q3 ++ k ++ s))) n1 forms)
    (h2 : BodyAt env stream2 hdr2 (p ++ m ++ q1 ++ [.ok t1] ++ (q2 ++ [.ok t2] ++ (q3 ++ k' ++ s))) n2 forms)
    (h3 : BodyAt env stream3 hdr3 (p ++ m' ++ q1 ++ [.ok t1] ++ (q2 ++ [.ok t2] ++ (q3 ++ k' ++ s))) n3 forms)
    (ht1 : Classified t1 j1 (some (.message j1 w kw v))) (hk : kw = c!"msgstr" ∨ ∃ i, kw = valueKeyword i)
    (ht2 : Classified t2 j2 (some y))
    (hc : (∃ i ch r, y = .comment i ch r) ∨ ∃ i w' kw' v', y = .message i w' kw' v' ∧ kw' ≠ c!"msgstr" ∧ ∀ i, kw' ≠ valueKeyword i)
    (hy : Yields (parse env stream) hdr (results us none)) (hy1 : Yields (parse env stream1) hdr1 (results us1 none))
    (hy2 : Yields (parse env stream2) hdr2 (results us2 none)) (hy3 : Yields (parse env stream3) hdr3 (results us3 e)) :
    e = none ∧ ∃ a a' b b', us = a ++ b ∧ us1 = a' ++ b ∧ us2 = a ++ b' ∧ us3 = a' ++ b' := by
  obtain ⟨c0, w0⟩ := body_passes h hy
  obtain ⟨c1, w1⟩ := body_passes h1 hy1
  obtain ⟨c2, w2⟩ := body_passes h2 hy2
  obtain ⟨d0, f0, r0⟩ := passes_split w0
  obtain ⟨d1, f1, r1⟩ := passes_split w1
  obtain ⟨d2, f2, r2⟩ := passes_split w2
  cases passes_unique f0 f2
  have hnl := (body_forms h hy).1
  have nl1 : '\n' ∉ t1 := hnl t1 (by simp)
  have nl2 : '\n' ∉ t2 := hnl t2 (by simp)
  obtain ⟨_, _, v0⟩ := passes_split f0
  obtain ⟨_, _, v1⟩ := passes_split f1
  cases passes_meet (by simpa using nl1) v0 v1 ⟨t1, j1, _, List.mem_singleton.mpr rfl, ht1, by rintro ⟨⟩, by rintro _ _ _ ⟨⟩⟩
  obtain ⟨x0, g0, r0⟩ := passes_split r0
  obtain ⟨x2, g2, r2⟩ := passes_split r2
  cases passes_unique g0 g2
  have weight1 : placeWeight d0 = 1 := by
    have hf := passes_line nl1 ht1 (by rintro ⟨⟩) v0
    have key : ∀ p s (k : FieldKind), (k.word = c!"msgstr" ∨ ∃ i, k.word = valueKeyword i) → placeWeight (.field p k s) = 1 := by
      rintro p s k (h | ⟨i, h⟩)
      · cases word_inj (k' := .text) h
        rfl
      · cases word_inj (k' := .value i) h
        rfl
    cases hf with
    | begins => exact key _ _ _ hk
    | goesOn => exact key _ _ _ hk
  have weight0 : placeWeight x0 = 0 := by
    obtain ⟨_, _, l0⟩ := passes_split g0
    have hf := passes_line nl2 ht2 (by rcases hc with ⟨_, _, _, rfl⟩ | ⟨_, _, _, _, rfl, _⟩ <;> rintro ⟨⟩) l0
    have key : ∀ p s (k : FieldKind), k.word ≠ c!"msgstr" → (∀ i, k.word ≠ valueKeyword i) → placeWeight (.field p k s) = 0 := by
      intro p s k h1 h2
      cases k with
      | text => exact absurd rfl h1
      | value i => exact absurd rfl (h2 i)
      | _ => rfl
    rcases hc with ⟨_, _, _, rfl⟩ | ⟨_, _, _, _, rfl, hc1, hc2⟩
    · cases hf
      rfl
    · cases hf with
      | begins => exact key _ _ _ hc1 hc2
      | goesOn => exact key _ _ _ hc1 hc2
  have hn3 : 1 ≤ n3 := by
    generalize p ++ m' ++ q1 ++ [.ok t1] ++ (q2 ++ [.ok t2] ++ (q3 ++ k' ++ s)) = rs at h3
    cases h3 with
    | headed => omega
    | plain => omega
  have he : e = none := by
    obtain ⟨u, hu⟩ := passes_run (passes_join f1 (passes_join g2 r2)) hn3
    exact ((body_forms h3 hy3).2.unique hu).2
  subst he
  refine ⟨rfl, ?_⟩
  obtain ⟨a, a', hu⟩ := passes_border f0 f1 g0 weight1 weight0
  obtain ⟨b, z1, z2⟩ := hu r0
  obtain ⟨b', z3, z4⟩ := hu r2
  exact ⟨a, a', b, b', ((body_count h hy).unique z1).1, ((body_count h1 hy1).unique z2).1, ((body_count h2 hy2).unique z3).1,
    ((body_count h3 hy3).unique z4).1⟩

/-! ### Examples -/

def twoPlaces (m k : List Str) : List Str :=
  [c!"# x", c!"msgid \"a\"", c!"msgstr \"b\""] ++ m ++ [c!"msgid \"c\"", c!"msgstr \"d\""] ++ (k ++ [c!"msgid \"e\"", c!"msgstr \"f\""])

theorem twoPlaces_body (m k : List Str) (h : ∀ l ∈ headLines (c!"X: y") ++ twoPlaces m k, CleanLine l) :
    BodyAt demoEnv (textStream (headLines (c!"X: y") ++ twoPlaces m k)) ⟨[], [], [(c!"X", c!"y")], []⟩ ([c!"# x", c!"msgid \"a\"", c!"msgstr \"b\""].map .ok ++
      m.map .ok ++ [c!"msgid \"c\"", c!"msgstr \"d\""].map .ok ++ (k.map .ok ++ [c!"msgid \"e\"", c!"msgstr \"f\""].map .ok)) 3 none :=
  .headed (hd := (headLines (c!"X: y")).map .ok) (forms := none) (by rw [rawLines_text h]; simp [twoPlaces]) (headerLines_demo _)
    (noContinuation_head (by decide) rfl) .absent

-- `C102_both`: a continuation line in the first entry, and a comment in front of the third one
example {us us1 us2 us3 : List PoUnit} {e : Option Err}
    (hy : Yields (parse demoEnv (textStream (headLines (c!"X: y") ++ twoPlaces [] []))) ⟨[], [], [(c!"X", c!"y")], []⟩ (results us none))
    (hy1 : Yields (parse demoEnv (textStream (headLines (c!"X: y") ++ twoPlaces [c!"\"x\""] []))) ⟨[], [], [(c!"X", c!"y")], []⟩ (results us1 none))
    (hy2 : Yields (parse demoEnv (textStream (headLines (c!"X: y") ++ twoPlaces [] [c!"# x"]))) ⟨[], [], [(c!"X", c!"y")], []⟩ (results us2 none))
    (hy3 : Yields (parse demoEnv (textStream (headLines (c!"X: y") ++ twoPlaces [c!"\"x\""] [c!"# x"]))) ⟨[], [], [(c!"X", c!"y")], []⟩ (results us3 e)) :
    e = none :=
  (C102_both (twoPlaces_body [] [] (by decide)) (twoPlaces_body [c!"\"x\""] [] (by decide)) (twoPlaces_body [] [c!"# x"] (by decide))
    (twoPlaces_body [c!"\"x\""] [c!"# x"] (by decide))
    ⟨c!"msgid \"c\"", 1, .message 1 [] (c!"msgid") (c!"c"), by simp, (C06_line_classification _ _ (by decide) _).mp rfl, by rintro ⟨⟩, by rintro _ _ _ ⟨⟩⟩
    hy hy1 hy2 hy3).1

-- these inputs are read so
example : Yields (parse demoEnv (textStream (headLines (c!"X: y") ++ twoPlaces [] []))) ⟨[], [], [(c!"X", c!"y")], []⟩
    (results [noted (c!"a") (c!"b"), unitAB (c!"c") (c!"d"), unitAB (c!"e") (c!"f")] none) :=
  yields_text (env := demoEnv) (res := ⟨⟨[], [], [(c!"X", c!"y")], []⟩, none, _, none⟩) (by decide) (by rfl)

example : Yields (parse demoEnv (textStream (headLines (c!"X: y") ++ twoPlaces [c!"\"x\""] []))) ⟨[], [], [(c!"X", c!"y")], []⟩
    (results [noted (c!"a") (c!"bx"), unitAB (c!"c") (c!"d"), unitAB (c!"e") (c!"f")] none) :=
  yields_text (env := demoEnv) (res := ⟨⟨[], [], [(c!"X", c!"y")], []⟩, none, _, none⟩) (by decide) (by rfl)

example : Yields (parse demoEnv (textStream (headLines (c!"X: y") ++ twoPlaces [] [c!"# x"]))) ⟨[], [], [(c!"X", c!"y")], []⟩
    (results [noted (c!"a") (c!"b"), unitAB (c!"c") (c!"d"), noted (c!"e") (c!"f")] none) :=
  yields_text (env := demoEnv) (res := ⟨⟨[], [], [(c!"X", c!"y")], []⟩, none, _, none⟩) (by decide) (by rfl)

example : Yields (parse demoEnv (textStream (headLines (c!"X: y") ++ twoPlaces [c!"\"x\""] [c!"# x"]))) ⟨[], [], [(c!"X", c!"y")], []⟩
    (results [noted (c!"a") (c!"bx"), unitAB (c!"c") (c!"d"), noted (c!"e") (c!"f")] none) :=
  yields_text (env := demoEnv) (res := ⟨⟨[], [], [(c!"X", c!"y")], []⟩, none, _, none⟩) (by decide) (by rfl)

/-- Without a line between the changes, each can be harmless and both together not: an entry that is cut off at the end of the input, and a comment. -/
theorem adjacent_changes :
    (∃ us, Yields (parse demoEnv (textStream (headLines (c!"X: y") ++ [c!"# x", c!"msgid \"a\"", c!"msgstr \"b\""]))) ⟨[], [], [(c!"X", c!"y")], []⟩ (results us none)) ∧
    (∃ us, Yields (parse demoEnv (textStream (headLines (c!"X: y") ++ [c!"# x", c!"msgid \"a\"", c!"msgstr \"b\"", c!"msgid \"c\""])))
      ⟨[], [], [(c!"X", c!"y")], []⟩ (results us none)) ∧
    (∃ us, Yields (parse demoEnv (textStream (headLines (c!"X: y") ++ [c!"# x", c!"msgid \"a\"", c!"msgstr \"b\"", c!"# y"])))
      ⟨[], [], [(c!"X", c!"y")], []⟩ (results us none)) ∧
    ∃ us e, Yields (parse demoEnv (textStream (headLines (c!"X: y") ++ [c!"# x", c!"msgid \"a\"", c!"msgstr \"b\"", c!"msgid \"c\"", c!"# y"])))
      ⟨[], [], [(c!"X", c!"y")], []⟩ (results us (some e)) :=
  ⟨⟨[noted (c!"a") (c!"b")], yields_text (env := demoEnv) (res := ⟨⟨[], [], [(c!"X", c!"y")], []⟩, none, _, none⟩) (by decide) (by rfl)⟩,
   ⟨[noted (c!"a") (c!"b")], yields_text (env := demoEnv) (res := ⟨⟨[], [], [(c!"X", c!"y")], []⟩, none, _, none⟩) (by decide) (by rfl)⟩,
   ⟨[noted (c!"a") (c!"b")], yields_text (env := demoEnv) (res := ⟨⟨[], [], [(c!"X", c!"y")], []⟩, none, _, none⟩) (by decide) (by rfl)⟩,
   ⟨[noted (c!"a") (c!"b")], .parse 7 (c!"# ") (c!"msgstr"),
    yields_text (env := demoEnv) (res := ⟨⟨[], [], [(c!"X", c!"y")], []⟩, none, _, some _⟩) (by decide) (by rfl)⟩⟩

/-- Comments before the first and before the third entry. -/
def remarked (m k : List Str) : List Str :=
  [c!"# x"] ++ m ++ [c!"msgid \"a\""] ++ [c!"msgstr \"b\""] ++ ([] ++ [c!"msgid \"c\""] ++ ([c!"msgstr \"d\""] ++ k ++ [c!"msgid \"e\"", c!"msgstr \"f\""]))

theorem remarked_body (m k : List Str) (h : ∀ l ∈ headLines (c!"X: y") ++ remarked m k, CleanLine l) :
    BodyAt demoEnv (textStream (headLines (c!"X: y") ++ remarked m k)) ⟨[], [], [(c!"X", c!"y")], []⟩ ([c!"# x"].map .ok ++ m.map .ok ++
      [c!"msgid \"a\""].map .ok ++ [.ok (c!"msgstr \"b\"")] ++ ([] ++ [.ok (c!"msgid \"c\"")] ++ ([c!"msgstr \"d\""].map .ok ++ k.map .ok ++
      [c!"msgid \"e\"", c!"msgstr \"f\""].map .ok))) 3 none :=
  .headed (hd := (headLines (c!"X: y")).map .ok) (forms := none) (by rw [rawLines_text h]; simp [remarked]) (headerLines_demo _)
    (noContinuation_head (by decide) rfl) .absent

-- `C102_exact`: one more comment in front of the first entry, and one in front of the third one
example {us us1 us2 us3 : List PoUnit} {e : Option Err}
    (hy : Yields (parse demoEnv (textStream (headLines (c!"X: y") ++ remarked [] []))) ⟨[], [], [(c!"X", c!"y")], []⟩ (results us none))
    (hy1 : Yields (parse demoEnv (textStream (headLines (c!"X: y") ++ remarked [c!"# y"] []))) ⟨[], [], [(c!"X", c!"y")], []⟩ (results us1 none))
    (hy2 : Yields (parse demoEnv (textStream (headLines (c!"X: y") ++ remarked [] [c!"# x"]))) ⟨[], [], [(c!"X", c!"y")], []⟩ (results us2 none))
    (hy3 : Yields (parse demoEnv (textStream (headLines (c!"X: y") ++ remarked [c!"# y"] [c!"# x"]))) ⟨[], [], [(c!"X", c!"y")], []⟩ (results us3 e)) :
    e = none ∧ ∃ a a' b b', us = a ++ b ∧ us1 = a' ++ b ∧ us2 = a ++ b' ∧ us3 = a' ++ b' :=
  C102_exact (remarked_body [] [] (by decide)) (remarked_body [c!"# y"] [] (by decide)) (remarked_body [] [c!"# x"] (by decide))
    (remarked_body [c!"# y"] [c!"# x"] (by decide)) (j1 := 1) (w := []) (v := c!"b") (kw := c!"msgstr") ((C06_line_classification _ _ (by decide) _).mp rfl)
    (.inl rfl) (j2 := 1) (y := .message 1 [] (c!"msgid") (c!"c")) ((C06_line_classification _ _ (by decide) _).mp rfl)
    (.inr ⟨_, _, _, _, rfl, by decide, fun i h => by cases h⟩) hy hy1 hy2 hy3

example : Yields (parse demoEnv (textStream (headLines (c!"X: y") ++ remarked [c!"# y"] [c!"# x"]))) ⟨[], [], [(c!"X", c!"y")], []⟩
    (results [{ unitAB (c!"a") (c!"b") with notes := [⟨.translator, c!"x"⟩, ⟨.translator, c!"y"⟩] }, unitAB (c!"c") (c!"d"), noted (c!"e") (c!"f")] none) :=
  yields_text (env := demoEnv) (res := ⟨⟨[], [], [(c!"X", c!"y")], []⟩, none, _, none⟩) (by decide) (by rfl)

end Verif
