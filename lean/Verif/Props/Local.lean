import Verif.Props.Breaks

/-! C100: a change of some lines changes only the units next to them. -/

namespace Verif
open Spec

/-- 1 where an entry has its translation. -/
def placeWeight : Place → Nat
  | .field _ .text _ => 1
  | .field _ (.value _) _ => 1
  | _ => 0

theorem weight_le (a : Place) : placeWeight a ≤ 1 := by
  cases a with
  | fresh => simp [placeWeight]
  | field p k v => cases k <;> simp [placeWeight]

theorem weight_kind (p q : Str) (k : FieldKind) (v w : Str) : placeWeight (.field p k v) = placeWeight (.field q k w) := by cases k <;> rfl

/-- A line goes on with the block of lines, or the block is an entry and the line begins another one. -/
theorem step_weight {forms : Option PluralForms} {block : List PoLine} {a b : Place} {ln : PoLine} (hl : LeadsTo (nplurals forms) block a)
    (hf : MayFollow (nplurals forms) a ln b) :
    (LeadsTo (nplurals forms) (block ++ [ln]) b ∧ placeWeight a ≤ placeWeight b) ∨
    ∃ u, Entry forms block u ∧ HasSource u.message ∧ (∀ tl, EndsHere forms block (.ok ln :: tl)) ∧ LeadsTo (nplurals forms) [ln] b ∧
      placeWeight a = 1 ∧ placeWeight b = 0 := by
  have hb : ∀ k p s, MayBegin k → placeWeight (.field p k s) = 0 := by
    intro k p s h
    cases h <;> rfl
  have new : ∀ p k v, a = .field p k v → AtBorder a → FreshStart [.ok ln] → LeadsTo (nplurals forms) [ln] b → placeWeight b = 0 →
      ∃ u, Entry forms block u ∧ HasSource u.message ∧ (∀ tl, EndsHere forms block (.ok ln :: tl)) ∧ LeadsTo (nplurals forms) [ln] b ∧
        placeWeight a = 1 ∧ placeWeight b = 0 := by
    rintro p k v rfl ha hfr hb hw
    obtain ⟨u, h1, h2⟩ := place_entry hl ha
    refine ⟨u, h1, h2, fun tl => (ends_iff h1).mpr (entryEnd_fresh ?_), hb, by cases ha <;> rfl, hw⟩
    rcases hfr with h | ⟨ln', _, h, h'⟩
    · cases h
    · simp only [List.cons.injEq, Except.ok.injEq] at h
      obtain ⟨rfl, _⟩ := h
      exact .inr ⟨ln, _, rfl, h'⟩
  cases hf with
  | @comment _ n c s ha =>
    cases a with
    | fresh =>
      obtain ⟨cs, rfl⟩ := hl
      exact .inl ⟨⟨cs ++ [(n, c, s)], by simp [commentLine]⟩, Nat.le_refl _⟩
    | field p k v => exact .inr (new p k v rfl ha (.inr ⟨_, _, rfl, .inl ⟨(n, c, s), rfl⟩⟩) ⟨[(n, c, s)], rfl⟩ rfl)
  | @begins _ n p k s ha hk =>
    obtain ⟨o, ho⟩ : ∃ o : Bool, o = true ↔ Tilde p := by
      by_cases h : Tilde p
      · exact ⟨true, by simp [h]⟩
      · exact ⟨false, by simp [h]⟩
    have fl : FieldLines k.word p [.message n p k.word s] s := ⟨n, s, [], by simp, by simp⟩
    cases a with
    | fresh =>
      obtain ⟨cs, rfl⟩ := hl
      exact .inl ⟨⟨o, _, _, ho, rfl, fl, .begins cs hk⟩, Nat.zero_le _⟩
    | field q k' v =>
      refine .inr (new q k' v rfl ha (.inr ⟨_, _, rfl, .inr ⟨n, p, _, s, rfl, ?_⟩⟩) ⟨o, _, _, ho, by simp, fl, .begins [] hk⟩ (hb _ _ _ hk))
      cases hk <;> exact fixed_not_value (by simp [FieldKind.word])
  | @continues p k v n s =>
    obtain ⟨o, pre, b, hp, rfl, f, hl⟩ := hl
    exact .inl ⟨⟨o, pre, _, hp, by rw [List.append_assoc], fieldLines_cont f n s, hl⟩, Nat.le_of_eq (weight_kind ..)⟩
  | @goesOn p k v n p' k' s hk hp' =>
    obtain ⟨o, pre, b, hp, rfl, f, hl⟩ := hl
    exact .inl ⟨⟨o, pre ++ b, _, hp.trans hp', rfl, ⟨n, s, [], by simp, by simp⟩, .next hl ⟨p, f, hp⟩ hk⟩, by cases hk <;> simp [placeWeight]⟩

/-- How many units are complete after some lines. -/
theorem follows_count {forms : Option PluralForms} {a c : Place} {l block : List PoLine} (h : EachFollows (nplurals forms) a l c)
    (hl : LeadsTo (nplurals forms) block a) :
    ∃ us last, LeadsTo (nplurals forms) last c ∧ us.length + placeWeight c ≤ placeWeight a + (l.length + 1 - placeWeight a) / 2 ∧
      ∀ tl us' e, Run forms (last.map .ok ++ tl) us' e → Run forms ((block ++ l).map .ok ++ tl) (us ++ us') e := by
  induction h generalizing block with
  | nil => exact ⟨[], block, hl, by simp, fun _ _ _ h => by simpa using h⟩
  | @cons a b c ln ls hf _ ih =>
    rcases step_weight hl hf with ⟨h1, hw⟩ | ⟨u, h1, h2, h3, h4, h5, h6⟩
    · obtain ⟨us, last, g1, g2, g3⟩ := ih h1
      refine ⟨us, last, g1, ?_, fun tl us' e h => by simpa using g3 tl us' e h⟩
      have := weight_le b
      have := weight_le a
      simp only [List.length_cons]
      omega
    · obtain ⟨us, last, g1, g2, g3⟩ := ih h4
      refine ⟨u :: us, last, g1, ?_, fun tl us' e h => ?_⟩
      · simp only [List.length_cons]
        omega
      · have := Run.entry h1 h2 (h3 _) (g3 tl us' e h)
        simpa using this

/-- Both places are between entries, or both in fields of the same kind. -/
inductive InStep : Place → Place → Prop
  | fresh : InStep .fresh .fresh
  | field {p k v q w} : InStep (.field p k v) (.field q k w)

theorem inStep_weight {a b : Place} (h : InStep a b) : placeWeight a = placeWeight b := by
  cases h with
  | fresh => rfl
  | field => exact weight_kind ..

/-- After the same line. -/
theorem inStep_next {hi : Nat} {a a' b b' : Place} {x y : PoLine} (he : unnum x = unnum y) (h : MayFollow hi a x b) (h' : MayFollow hi a' y b')
    (hs : InStep a a' ∨ ∀ n p s, x ≠ .continuation n p s) : InStep b b' := by
  have hm : ∀ {n p s m q t} {k k' : FieldKind}, unnum (.message n p k.word s) = unnum (.message m q k'.word t) → InStep (.field p k s) (.field q k' t) := by
    intro n p s m q t k k' h
    simp only [unnum, PoLine.message.injEq] at h
    cases word_inj h.2.2.1
    exact .field
  cases h with
  | comment => cases h' <;> first | exact .fresh | cases he
  | begins => cases h' <;> first | exact hm he | cases he
  | goesOn => cases h' <;> first | exact hm he | cases he
  | continues =>
    rcases hs with hs | hs
    · cases hs
      cases h' <;> first | exact .field | cases he
    · exact absurd rfl (hs _ _ _)

/-- The numbers are those of lines. -/
def Counted (k k' : Nat) : Prop := 1 ≤ k ∧ 1 ≤ k'

theorem run_alike {forms : Option PluralForms} {l l' : List Item} {us : List PoUnit} (h : Run forms l us none) (hi : ItemsAt Counted l l') :
    Run forms l' us none := by
  obtain ⟨e, h1, h2⟩ := run_moved (P := Counted) (fun h => h) h hi
  cases h2
  exact h1

/-- The same lines from places that are in step. -/
theorem together {forms : Option PluralForms} {a c a' c' : Place} {l l' block block' : List PoLine} (h : EachFollows (nplurals forms) a l c)
    (h' : EachFollows (nplurals forms) a' l' c') (hl : LeadsTo (nplurals forms) block a) (hl' : LeadsTo (nplurals forms) block' a')
    (hi : ItemsAt Counted (l.map .ok) (l'.map .ok)) (hs : InStep a a') :
    ∃ x y b, Run forms ((block ++ l).map .ok) (x ++ b) none ∧ Run forms ((block' ++ l').map .ok) (y ++ b) none ∧ x.length ≤ 1 ∧ y.length ≤ 1 := by
  induction h generalizing block block' a' l' with
  | @nil a =>
    cases l' with
    | cons => cases hi
    | nil =>
      have one : ∀ {a block}, LeadsTo (nplurals forms) block a → ∃ x, Run forms (block.map .ok) x none ∧ x.length ≤ 1 := by
        intro a block h
        obtain ⟨us, h1, h2, h3⟩ := place_units h
        refine ⟨us, h1, ?_⟩
        by_cases hc : AtBorder a ∧ a ≠ .fresh
        · obtain ⟨u, rfl⟩ := h2 hc
          exact Nat.le_refl _
        · rw [h3 hc]
          exact Nat.zero_le _
      obtain ⟨x, h1, h2⟩ := one hl
      obtain ⟨y, h3, h4⟩ := one hl'
      exact ⟨x, y, [], by simpa using h1, by simpa using h3, h2, h4⟩
  | @cons a b c ln ls hf hfs ih =>
    cases h' with
    | nil => cases hi
    | @cons _ b' _ ln' ls' hf' hfs' =>
      have hi' := hi
      cases hi with
      | line he hp hi =>
        have hn := inStep_next he hf hf' (.inl hs)
        have w1 := inStep_weight hs
        have w2 := inStep_weight hn
        rcases step_weight hl hf with ⟨h1, hw⟩ | ⟨u, h1, h2, h3, h4, h5, h6⟩
        · rcases step_weight hl' hf' with ⟨h1', hw'⟩ | ⟨u', h1', h2', h3', h4', h5', h6'⟩
          · obtain ⟨x, y, b, g1, g2, g3, g4⟩ := ih hfs' h1 h1' hi hn
            exact ⟨x, y, b, by simpa using g1, by simpa using g2, g3, g4⟩
          · omega
        · rcases step_weight hl' hf' with ⟨h1', hw'⟩ | ⟨u', h1', h2', h3', h4', h5', h6'⟩
          · omega
          · obtain ⟨us, hr⟩ := run_follows hfs h4
            have hr' := run_alike hr (l' := (ln' :: ls').map .ok) (by simpa using hi')
            have r1 := Run.entry h1 h2 (h3 _) hr
            have r2 := Run.entry h1' h2' (h3' _) (by simpa using hr')
            exact ⟨[u], [u'], us, by simpa using r1, by simpa using r2, Nat.le_refl _, Nat.le_refl _⟩

/-- The same lines from any two places. -/
theorem rejoin {forms : Option PluralForms} {a c a' c' : Place} {l l' block block' : List PoLine} (h : EachFollows (nplurals forms) a l c)
    (h' : EachFollows (nplurals forms) a' l' c') (hl : LeadsTo (nplurals forms) block a) (hl' : LeadsTo (nplurals forms) block' a')
    (hi : ItemsAt Counted (l.map .ok) (l'.map .ok)) :
    ∃ x y b, Run forms ((block ++ l).map .ok) (x ++ b) none ∧ Run forms ((block' ++ l').map .ok) (y ++ b) none ∧ x.length ≤ 1 + placeWeight a ∧
      y.length ≤ 1 + placeWeight a' := by
  induction h generalizing block block' a' l' with
  | @nil a =>
    cases l' with
    | cons => cases hi
    | nil =>
      have one : ∀ {a block}, LeadsTo (nplurals forms) block a → ∃ x, Run forms (block.map .ok) x none ∧ x.length ≤ 1 := by
        intro a block h
        obtain ⟨us, h1, h2, h3⟩ := place_units h
        refine ⟨us, h1, ?_⟩
        by_cases hc : AtBorder a ∧ a ≠ .fresh
        · obtain ⟨u, rfl⟩ := h2 hc
          exact Nat.le_refl _
        · rw [h3 hc]
          exact Nat.zero_le _
      obtain ⟨x, h1, h2⟩ := one hl
      obtain ⟨y, h3, h4⟩ := one hl'
      exact ⟨x, y, [], by simpa using h1, by simpa using h3, by omega, by omega⟩
  | @cons a b c ln ls hf hfs ih =>
    cases h' with
    | nil => cases hi
    | @cons _ b' _ ln' ls' hf' hfs' =>
      cases hi with
      | line he hp hi =>
        have step : ∀ {a b block ln} (ls : List PoLine), LeadsTo (nplurals forms) block a → MayFollow (nplurals forms) a ln b →
            ∃ us block1, LeadsTo (nplurals forms) block1 b ∧ us.length ≤ placeWeight a ∧
              ∀ x, Run forms ((block1 ++ ls).map .ok) x none → Run forms ((block ++ ln :: ls).map .ok) (us ++ x) none := by
          intro a b block ln ls hl hf
          rcases step_weight hl hf with ⟨h1, hw⟩ | ⟨u, h1, h2, h3, h4, h5, h6⟩
          · exact ⟨[], _, h1, Nat.zero_le _, fun x h => by simpa using h⟩
          · refine ⟨[u], _, h4, by simp [h5], fun x h => ?_⟩
            have := Run.entry h1 h2 (h3 _) h
            simpa using this
        by_cases hc : ∃ n p s, ln = .continuation n p s
        · obtain ⟨n, p, s, rfl⟩ := hc
          have cont : ∀ {a b block ln}, unnum (.continuation n p s) = unnum ln → LeadsTo (nplurals forms) block a → MayFollow (nplurals forms) a ln b →
              LeadsTo (nplurals forms) (block ++ [ln]) b ∧ placeWeight b = placeWeight a := by
            intro a b block ln he hl hf
            have hw : placeWeight b = placeWeight a := by
              cases hf <;> first | exact weight_kind .. | cases he
            rcases step_weight hl hf with ⟨h1, _⟩ | ⟨u, _, _, _, _, h5, h6⟩
            · exact ⟨h1, hw⟩
            · omega
          obtain ⟨h1, h2⟩ := cont rfl hl hf
          obtain ⟨h3, h4⟩ := cont he hl' hf'
          obtain ⟨x, y, b, g1, g2, g3, g4⟩ := ih hfs' h1 h3 hi
          exact ⟨x, y, b, by simpa using g1, by simpa using g2, by omega, by omega⟩
        · have hn := inStep_next he hf hf' (.inr fun n p s h => hc ⟨n, p, s, h⟩)
          obtain ⟨us, b1, h1, h2, h3⟩ := step ls hl hf
          obtain ⟨us', b1', h1', h2', h3'⟩ := step ls' hl' hf'
          obtain ⟨x, y, b, g1, g2, g3, g4⟩ := together hfs hfs' h1 h1' hi hn
          refine ⟨us ++ x, us' ++ y, b, ?_, ?_, ?_, ?_⟩
          · rw [List.append_assoc]; exact h3 _ g1
          · rw [List.append_assoc]; exact h3' _ g2
          · rw [List.length_append]; omega
          · rw [List.length_append]; omega

/-- Lines in common, other lines, and lines in common up to their numbers. -/
theorem run_local {forms : Option PluralForms} {p m m' s s' : List PoLine} {us us' : List PoUnit}
    (h : Run forms ((p ++ (m ++ s)).map .ok) us none) (h' : Run forms ((p ++ (m' ++ s')).map .ok) us' none) (hi : ItemsAt Counted (s.map .ok) (s'.map .ok)) :
    ∃ a x y b, us = a ++ (x ++ b) ∧ us' = a ++ (y ++ b) ∧ x.length ≤ m.length / 2 + 2 ∧ y.length ≤ m'.length / 2 + 2 := by
  have split : ∀ {m s us}, Run forms ((p ++ (m ++ s)).map .ok) us none →
      ∃ c1 c2 c3, EachFollows (nplurals forms) .fresh p c1 ∧ EachFollows (nplurals forms) c1 m c2 ∧ EachFollows (nplurals forms) c2 s c3 := by
    intro m s us h
    obtain ⟨b, c3, h1, h2⟩ := follows_run h rfl .fresh
    have := List.map_inj_right (fun _ _ h => Except.ok.inj h) |>.mp h1
    subst this
    obtain ⟨c1, h3, h4⟩ := follows_split h2
    obtain ⟨c2, h5, h6⟩ := follows_split h4
    exact ⟨c1, c2, c3, h3, h5, h6⟩
  obtain ⟨c1, c2, c3, e1, e2, e3⟩ := split h
  obtain ⟨c1', c2', c3', e1', e2', e3'⟩ := split h'
  cases e1.unique e1'
  obtain ⟨a, last, g1, _, g3⟩ := follows_count (block := []) e1 ⟨[], rfl⟩
  obtain ⟨x1, l1, k1, k2, k3⟩ := follows_count e2 g1
  obtain ⟨y1, l1', k1', k2', k3'⟩ := follows_count e2' g1
  obtain ⟨x, y, b, r1, r2, r3, r4⟩ := rejoin e3 e3' k1 k1' hi
  have w := weight_le c1
  have f1 := g3 _ _ _ (by simpa using k3 _ _ _ (by simpa using r1) : Run forms (last.map .ok ++ (m ++ s).map .ok) _ _)
  have f2 := g3 _ _ _ (by simpa using k3' _ _ _ (by simpa using r2) : Run forms (last.map .ok ++ (m' ++ s').map .ok) _ _)
  refine ⟨a, x1 ++ x, y1 ++ y, b, ?_, ?_, ?_, ?_⟩
  · rw [List.append_assoc]; exact (h.unique (by simpa using f1)).1
  · rw [List.append_assoc]; exact (h'.unique (by simpa using f2)).1
  · rw [List.length_append]; omega
  · rw [List.length_append]; omega

theorem itemsAt_mono {P Q : Nat → Nat → Prop} (hPQ : ∀ k k', P k k' → Q k k') {b b' : List PoLine} (h : ItemsAt P (b.map .ok) (b'.map .ok)) :
    ItemsAt Q (b.map .ok) (b'.map .ok) := by
  induction b generalizing b' with
  | nil =>
    cases b' with
    | nil => exact .nil
    | cons => cases h
  | cons x b ih =>
    cases b' with
    | nil => cases h
    | cons y b' =>
      cases h with
      | line h1 h2 h3 => exact .line h1 (hPQ _ _ h2) (ih h3)

theorem items_front {rs rs' : List (Except IoErr Str)} {n : Nat} {b : List PoLine} (h : items n (rs ++ rs') = b.map .ok) :
    ∃ b1 b2, b = b1 ++ b2 ∧ items n rs = b1.map .ok ∧ items (n + rs.length) rs' = b2.map .ok := by
  have hne : ∀ e, .error e ∉ items n rs := by
    have hne : ∀ e, .error e ∉ items n (rs ++ rs') := by
      intro e he
      rw [h] at he
      simp at he
    clear h
    induction rs generalizing n with
    | nil => simp [items]
    | cons r rs ih =>
      intro e
      cases r with
      | error x => exact absurd (by simp [items]) (hne (.io n x))
      | ok s =>
        simp only [List.cons_append, items] at hne ⊢
        split
        · rename_i hx
          rw [hx] at hne
          exact absurd (by simp) (hne (.parse (n + 1) s []))
        · rename_i hx
          rw [hx] at hne
          exact ih hne e
        · rename_i p hb hx
          intro he
          rcases List.mem_cons.mp he with he | he
          · cases he
          · refine ih (n := n + 1) (fun e' he' => hne e' ?_) e he
            rw [hx]
            cases p with
            | blank => exact he'
            | _ => exact List.mem_cons_of_mem _ he'
  rw [items_append hne] at h
  obtain ⟨b1, b2, h1, h2, h3⟩ := List.map_eq_append_iff.mp h.symm
  exact ⟨b1, b2, h1, h2.symm, h3.symm⟩

/-- The lines of a body, where the first line has any number. -/
theorem body_count {env : Env} {stream : List Event} {rs : List (Except IoErr Str)} {n : Nat} {forms : Option PluralForms} {hdr : Header env.Lang}
    {us : List PoUnit} (h : BodyAt env stream hdr rs n forms) (hy : Yields (parse env stream) hdr (results us none)) :
    Run forms (items 1 rs) us none := by
  have hr := (body_forms h hy).2
  have : ∃ k, n = 1 + k := by
    cases h with
    | headed => exact ⟨_, rfl⟩
    | plain => exact ⟨0, rfl⟩
  obtain ⟨k, rfl⟩ := this
  obtain ⟨e, h1, h2⟩ := run_renumber (m := 0) hr
  rw [sameEndAfter_none h2] at h1
  exact h1

/-- **C100** Two inputs that are read without error and differ, after the header, in one stretch of lines: the units differ in one stretch of units, at most
two and one more for every two lines of the stretch. -/
theorem C100_local {env : Env} {stream stream' : List Event} {hdr hdr' : Header env.Lang} {p m m' s : List (Except IoErr Str)} {n n' : Nat}
    {forms : Option PluralForms} {us us' : List PoUnit} (h : BodyAt env stream hdr (p ++ (m ++ s)) n forms)
    (h' : BodyAt env stream' hdr' (p ++ (m' ++ s)) n' forms) (hy : Yields (parse env stream) hdr (results us none))
    (hy' : Yields (parse env stream') hdr' (results us' none)) :
    ∃ a x y b, us = a ++ (x ++ b) ∧ us' = a ++ (y ++ b) ∧ x.length ≤ m.length / 2 + 2 ∧ y.length ≤ m'.length / 2 + 2 := by
  have h1 := body_count h hy
  have h2 := body_count h' hy'
  clear h h' hy hy' hdr hdr'
  have key : ∀ {m m' : List (Except IoErr Str)} {us us' : List PoUnit}, m.length ≤ m'.length → Run forms (items 1 (p ++ (m ++ s))) us none →
      Run forms (items 1 (p ++ (m' ++ s))) us' none →
      ∃ a x y b, us = a ++ (x ++ b) ∧ us' = a ++ (y ++ b) ∧ x.length ≤ m.length / 2 + 2 ∧ y.length ≤ m'.length / 2 + 2 := by
    intro m m' us us' hle h1 h2
    obtain ⟨b, _, e1, _⟩ := follows_run h1 rfl .fresh
    obtain ⟨b', _, e1', _⟩ := follows_run h2 rfl .fresh
    obtain ⟨bp, b1, rfl, e2, e3⟩ := items_front e1
    obtain ⟨bm, bs, rfl, e4, e5⟩ := items_front e3
    obtain ⟨bp', b1', rfl, e2', e3'⟩ := items_front e1'
    obtain ⟨bm', bs', rfl, e4', e5'⟩ := items_front e3'
    have : bp = bp' := List.map_inj_right (fun _ _ h => Except.ok.inj h) |>.mp (e2.symm.trans e2')
    subst this
    rw [e1] at h1
    rw [e1'] at h2
    have hs := items_shift s (1 + p.length + m.length) (m'.length - m.length) (by omega)
    rw [show 1 + p.length + m.length + (m'.length - m.length) = 1 + p.length + m'.length by omega, e5, e5'] at hs
    obtain ⟨a, x, y, b, r1, r2, r3, r4⟩ := run_local h1 h2 (itemsAt_mono (fun k k' h => ⟨h.1, by omega⟩) hs)
    have l1 := items_length (1 + p.length) m
    have l2 := items_length (1 + p.length) m'
    rw [e4, List.length_map] at l1
    rw [e4', List.length_map] at l2
    exact ⟨a, x, y, b, r1, r2, by omega, by omega⟩
  rcases Nat.le_total m.length m'.length with hle | hle
  · exact key hle h1 h2
  · obtain ⟨a, x, y, b, r1, r2, r3, r4⟩ := key hle h2 h1
    exact ⟨a, y, x, b, r2, r1, r4, r3⟩

-- a continuation line that becomes a comment: both units around it change, and the third does not
def contLines (x : Str) : List Str :=
  [c!"# x", c!"msgid \"a\"", c!"msgstr \"b\""] ++ ([x] ++ [c!"msgid \"c\"", c!"msgstr \"d\"", c!"msgid \"e\"", c!"msgstr \"f\""])

def noted (a b : Str) : PoUnit := { unitAB a b with notes := [⟨.translator, c!"x"⟩] }

theorem cont_read : Yields (parse demoEnv (textStream (headLines (c!"X: y") ++ contLines (c!"\"x\"")))) ⟨[], [], [(c!"X", c!"y")], []⟩
    (results [noted (c!"a") (c!"bx"), unitAB (c!"c") (c!"d"), unitAB (c!"e") (c!"f")] none) :=
  yields_text (env := demoEnv) (res := ⟨⟨[], [], [(c!"X", c!"y")], []⟩, none, _, none⟩) (by decide) (by rfl)

theorem note_read : Yields (parse demoEnv (textStream (headLines (c!"X: y") ++ contLines (c!"# x")))) ⟨[], [], [(c!"X", c!"y")], []⟩
    (results [noted (c!"a") (c!"b"), noted (c!"c") (c!"d"), unitAB (c!"e") (c!"f")] none) :=
  yields_text (env := demoEnv) (res := ⟨⟨[], [], [(c!"X", c!"y")], []⟩, none, _, none⟩) (by decide) (by rfl)

-- `C100_local`: one line is another one, so at most two units
example {us us' : List PoUnit}
    (hy : Yields (parse demoEnv (textStream (headLines (c!"X: y") ++ contLines (c!"\"x\"")))) ⟨[], [], [(c!"X", c!"y")], []⟩ (results us none))
    (hy' : Yields (parse demoEnv (textStream (headLines (c!"X: y") ++ contLines (c!"# x")))) ⟨[], [], [(c!"X", c!"y")], []⟩ (results us' none)) :
    ∃ a x y b, us = a ++ (x ++ b) ∧ us' = a ++ (y ++ b) ∧ x.length ≤ 2 ∧ y.length ≤ 2 := by
  exact C100_local (p := [c!"# x", c!"msgid \"a\"", c!"msgstr \"b\""].map .ok) (m := [.ok (c!"\"x\"")]) (m' := [.ok (c!"# x")])
    (s := [c!"msgid \"c\"", c!"msgstr \"d\"", c!"msgid \"e\"", c!"msgstr \"f\""].map .ok)
    (.headed (hd := (headLines (c!"X: y")).map .ok) (forms := none) (by rw [rawLines_text (by decide)]; rfl) (headerLines_demo _)
      (noContinuation_head (by decide) rfl) .absent)
    (.headed (hd := (headLines (c!"X: y")).map .ok) (forms := none) (by rw [rawLines_text (by decide)]; rfl) (headerLines_demo _)
      (noContinuation_head (by decide) rfl) .absent) hy hy'

end Verif
