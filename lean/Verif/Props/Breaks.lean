import Verif.Props.Adjacent

/-! C93: the first line that may not follow determines the error. -/

namespace Verif
open Spec

theorem Spec.EachFollows.unique {hi : Nat} {a b b' : Place} {l : List PoLine} (h : EachFollows hi a l b) (h' : EachFollows hi a l b') : b = b' := by
  induction h with
  | nil => cases h'; rfl
  | cons h _ ih =>
    cases h' with
    | cons g h' => cases C92_determined h g; exact ih h'

theorem follows_split {hi : Nat} {a c : Place} {l l' : List PoLine} (h : EachFollows hi a (l ++ l') c) : ∃ b, EachFollows hi a l b ∧ EachFollows hi b l' c := by
  induction l generalizing a with
  | nil => exact ⟨a, .nil, h⟩
  | cons x l ih =>
    cases h with
    | cons g h =>
      obtain ⟨b, h1, h2⟩ := ih h
      exact ⟨b, .cons g h1, h2⟩

/-- The beginning of an entry passes the check, unless it is the translation of an empty id. -/
theorem follows_prefix {forms : Option PluralForms} {b : List PoLine} {a : Place} (ha : AtBorder a) (h : EntryPrefix forms b) :
    (∃ c, EachFollows (nplurals forms) a b c) ∨ ∃ pre x more c, b = pre ++ x :: more ∧ EachFollows (nplurals forms) a pre c ∧ EmptySource c x := by
  rcases h with ⟨o, h⟩ | ⟨o, idPl, h⟩ | ⟨u, h⟩
  · obtain ⟨c, h, _⟩ := follows_head (hi := nplurals forms) ha h
    exact .inl ⟨c, h⟩
  · obtain ⟨b', c, h1, h2⟩ := follows_run (forms := forms) (.stop (.endsAfterIds h)) rfl ha
    cases List.map_inj_right (by simp) |>.mp h1
    exact .inl ⟨c, h2⟩
  · by_cases hs : HasSource u.message
    · obtain ⟨c, h, _⟩ := follows_entry ha h hs
      exact .inl ⟨c, h⟩
    · right
      obtain ⟨cs, b1, b2, b3, b4, b5, b6, b7, pid, ppl, id, idPl, rfl, f1, f2, f3, g3, f4, f5, f6, f7, _⟩ := h
      obtain ⟨p, w, hp⟩ := follows_id (hi := nplurals forms) ha ⟨cs, b1, b2, b3, b4, _, _, _, _, rfl, f1, f2, f3, g3, f4⟩ f5
      generalize u.message = m at f7 hs
      cases f7 with
      | plural => exact absurd trivial hs
      | simple f =>
        cases f6
        obtain ⟨q, ⟨n, s, ks, rfl, _⟩, hq⟩ := f
        have : id = [] := Classical.byContradiction hs
        subst this
        exact ⟨_, _, ks.map fun c => .continuation c.1 q c.2, _, by simp, w, p, n, q, s, rfl, rfl, hp.symm.trans hq⟩

/-- A line that may not follow does not continue the entry. -/
theorem not_prefix {forms : Option PluralForms} {block : List PoLine} {ln : PoLine} {a c : Place} (ha : AtBorder a) (h : EachFollows (nplurals forms) a block c)
    (hb : ∀ c', ¬ MayFollow (nplurals forms) c ln c') (hs : ¬ EmptySource c ln) : ¬ EntryPrefix forms (block ++ [ln]) := by
  intro hp
  rcases follows_prefix ha hp with ⟨c', h'⟩ | ⟨pre, x, more, d, h1, h2, h3⟩
  · obtain ⟨d, h1, h2⟩ := follows_split h'
    cases h.unique h1
    cases h2 with
    | cons g _ => exact hb _ g
  · rcases List.eq_nil_or_concat more with rfl | ⟨more', y, rfl⟩
    · obtain ⟨h0, h4⟩ := List.append_inj' h1 rfl
      subst h0
      obtain rfl : ln = x := by injection h4
      cases h.unique h2
      exact hs h3
    · rw [List.concat_eq_append, ← List.cons_append, ← List.append_assoc] at h1
      obtain ⟨rfl, _⟩ := List.append_inj' h1 rfl
      obtain ⟨d', h4, h5⟩ := follows_split h
      cases h4.unique h2
      obtain ⟨p, n, q, s, rfl, rfl, _⟩ := h3
      cases h5 with
      | cons g _ =>
        generalize hw : c!"msgstr" = w at g
        cases g with
        | begins h => cases h
        | @goesOn _ _ _ _ _ k _ h =>
          cases word_inj (k := .text) (k' := k) hw
          cases h with
          | text h => exact h rfl

theorem head_nil (o : Bool) : EntryHead o [] := ⟨[], [], [], [], [], none, none, none, none, by simp, .none, .none, .none, fun _ => rfl, .none⟩

/-- What the reader does where the check fails. -/
theorem place_breaks {forms : Option PluralForms} {block : List PoLine} {a : Place} {ln : PoLine} {tl : List Item} (hl : LeadsTo (nplurals forms) block a)
    (hw : EachFollows (nplurals forms) .fresh block a) (hb : ∀ c', ¬ MayFollow (nplurals forms) a ln c') (hs : ¬ EmptySource a ln) :
    ∃ us, Run forms (block.map .ok) us none ∧ Run forms (block.map .ok ++ .ok ln :: tl) us (some (missing a.expected ln)) := by
  have hp := not_prefix .fresh hw hb hs
  have head : (∃ o, EntryHead o block) → a.expected = c!"msgid" →
      ∃ us, Run forms (block.map .ok) us none ∧ Run forms (block.map .ok ++ .ok ln :: tl) us (some (missing a.expected ln)) := by
    rintro ⟨o, h⟩ he
    rw [he]
    exact ⟨[], .stop (.endsInHead h), .stop (.noId h hp)⟩
  have full : AtBorder a → (∃ u, Entry forms block u ∧ HasSource u.message) → a.expected = c!"msgid" →
      ∃ us, Run forms (block.map .ok) us none ∧ Run forms (block.map .ok ++ .ok ln :: tl) us (some (missing a.expected ln)) := by
    rintro ha ⟨u, h1, h2⟩ he
    rw [he]
    refine ⟨[u], ?_, .entry h1 h2 (.inr ⟨ln, tl, rfl, hp⟩) (.stop ?_)⟩
    · have := Run.entry h1 h2 (.inl rfl) (.stop (Stops.endsInHead (head_nil false)))
      simpa using this
    · exact Stops.noId (block := []) (head_nil false) (not_prefix ha .nil hb hs)
  cases a with
  | fresh =>
    obtain ⟨cs, rfl⟩ := hl
    exact head ⟨false, cs, [], [], [], [], none, none, none, none, by simp, .none, .none, .none, fun _ => rfl, .none⟩ rfl
  | field p k v =>
    have h' := hl
    obtain ⟨o, pre, b, ho, rfl, f, hl⟩ := hl
    have f' : Field k.word o b v := ⟨p, f, ho⟩
    cases k with
    | prevContext => exact head ⟨o, head_prevContext hl f'⟩ rfl
    | prevId => exact head ⟨o, head_prevId hl f'⟩ rfl
    | prevPluralId => exact head ⟨o, head_prevPluralId hl f'⟩ rfl
    | context => exact head ⟨o, head_context hl f'⟩ rfl
    | id =>
      have h : EntryIds o none (pre ++ b) := ⟨pre, b, [], v, by simp, before_id hl, f', .none⟩
      exact ⟨[], .stop (.endsAfterIds h), .stop (.noText h hp)⟩
    | pluralId =>
      obtain ⟨b0, b5, id, rfl, h1, h2⟩ := before_pluralId hl
      have h : EntryIds o (some v) (b0 ++ b5 ++ b) := ⟨b0, b5, b, id, by simp, h1, h2, .some f'⟩
      exact ⟨[], .stop (.endsAfterIds h), .stop (.noText h hp)⟩
    | text => exact full .text (place_entry h' .text) rfl
    | value i => exact full .value (place_entry h' .value) rfl

/-- The lines so far are the beginning of an entry. -/
theorem place_prefix {forms : Option PluralForms} {block : List PoLine} {a : Place} (hl : LeadsTo (nplurals forms) block a) : EntryPrefix forms block := by
  cases a with
  | fresh =>
    obtain ⟨cs, rfl⟩ := hl
    exact .inl ⟨false, cs, [], [], [], [], none, none, none, none, by simp, .none, .none, .none, fun _ => rfl, .none⟩
  | field p k v =>
    have h' := hl
    obtain ⟨o, pre, b, ho, rfl, f, hl⟩ := hl
    have f' : Field k.word o b v := ⟨p, f, ho⟩
    cases k with
    | prevContext => exact .inl ⟨o, head_prevContext hl f'⟩
    | prevId => exact .inl ⟨o, head_prevId hl f'⟩
    | prevPluralId => exact .inl ⟨o, head_prevPluralId hl f'⟩
    | context => exact .inl ⟨o, head_context hl f'⟩
    | id => exact .inr (.inl ⟨o, none, pre, b, [], v, by simp, before_id hl, f', .none⟩)
    | pluralId =>
      obtain ⟨b0, b5, id, rfl, h1, h2⟩ := before_pluralId hl
      exact .inr (.inl ⟨o, some v, b0, b5, b, id, by simp, h1, h2, .some f'⟩)
    | text => exact .inr (.inr ((place_entry h' .text).imp fun _ h => h.1))
    | value i => exact .inr (.inr ((place_entry h' .value).imp fun _ h => h.1))

/-- From a border the check goes as from the beginning. -/
theorem follow_fresh {hi : Nat} {a b : Place} {ln : PoLine} (ha : AtBorder a) (h : MayFollow hi a ln b) (hf : FreshStart [.ok ln]) : MayFollow hi .fresh ln b := by
  cases h with
  | comment => exact .comment .fresh
  | begins _ hk => exact .begins .fresh hk
  | continues =>
    rcases hf with h | ⟨_, _, h, ⟨_, rfl⟩ | ⟨_, _, _, _, rfl, _⟩⟩ <;> cases h
  | goesOn hk =>
    cases ha with
    | text => cases hk
    | value =>
      cases hk with
      | @more _ _ j =>
        rcases hf with h | ⟨_, _, h, ⟨_, rfl⟩ | ⟨_, _, _, _, rfl, hf⟩⟩ <;> cases h
        exact absurd rfl (hf j)

/-- One step of the check: the entry goes on, or it is complete and another one begins. -/
theorem step_cases {forms : Option PluralForms} {block : List PoLine} {a b : Place} {ln : PoLine} (hl : LeadsTo (nplurals forms) block a)
    (hf : MayFollow (nplurals forms) a ln b) :
    LeadsTo (nplurals forms) (block ++ [ln]) b ∨
    ∃ u, Entry forms block u ∧ HasSource u.message ∧ (∀ tl, EndsHere forms block (.ok ln :: tl)) ∧ LeadsTo (nplurals forms) [ln] b ∧
      MayFollow (nplurals forms) .fresh ln b ∧ AtBorder a := by
  have new : ∀ p k v, a = .field p k v → AtBorder a → FreshStart [.ok ln] → LeadsTo (nplurals forms) [ln] b →
      ∃ u, Entry forms block u ∧ HasSource u.message ∧ (∀ tl, EndsHere forms block (.ok ln :: tl)) ∧ LeadsTo (nplurals forms) [ln] b ∧
        MayFollow (nplurals forms) .fresh ln b ∧ AtBorder a := by
    rintro p k v rfl ha hfr hb
    obtain ⟨u, h1, h2⟩ := place_entry hl ha
    refine ⟨u, h1, h2, fun tl => (ends_iff h1).mpr (entryEnd_fresh ?_), hb, follow_fresh ha hf hfr, ha⟩
    rcases hfr with h | ⟨ln', _, h, h'⟩
    · cases h
    · simp only [List.cons.injEq, Except.ok.injEq] at h
      obtain ⟨rfl, _⟩ := h
      exact .inr ⟨ln, _, rfl, h'⟩
  have hf' := hf
  cases hf with
  | @comment _ n c s ha =>
    cases a with
    | fresh =>
      obtain ⟨cs, rfl⟩ := hl
      exact .inl ⟨cs ++ [(n, c, s)], by simp [commentLine]⟩
    | field p k v => exact .inr (new p k v rfl ha (.inr ⟨_, _, rfl, .inl ⟨(n, c, s), rfl⟩⟩) ⟨[(n, c, s)], rfl⟩)
  | @begins _ n p k s ha hk =>
    obtain ⟨o, ho⟩ : ∃ o : Bool, o = true ↔ Tilde p := by
      by_cases h : Tilde p
      · exact ⟨true, by simp [h]⟩
      · exact ⟨false, by simp [h]⟩
    have fl : FieldLines k.word p [.message n p k.word s] s := ⟨n, s, [], by simp, by simp⟩
    cases a with
    | fresh =>
      obtain ⟨cs, rfl⟩ := hl
      exact .inl ⟨o, _, _, ho, rfl, fl, .begins cs hk⟩
    | field q k' v =>
      refine .inr (new q k' v rfl ha (.inr ⟨_, _, rfl, .inr ⟨n, p, _, s, rfl, ?_⟩⟩) ⟨o, _, _, ho, by simp, fl, .begins [] hk⟩)
      cases hk <;> exact fixed_not_value (by simp [FieldKind.word])
  | @continues p k v n s =>
    obtain ⟨o, pre, b, hp, rfl, f, hl⟩ := hl
    exact .inl ⟨o, pre, _, hp, by rw [List.append_assoc], fieldLines_cont f n s, hl⟩
  | @goesOn p k v n p' k' s hk hp' =>
    obtain ⟨o, pre, b, hp, rfl, f, hl⟩ := hl
    exact .inl ⟨o, pre ++ b, _, hp.trans hp', rfl, ⟨n, s, [], by simp, by simp⟩, .next hl ⟨p, f, hp⟩ hk⟩

theorem follows_border {hi : Nat} {a c : Place} {l : List PoLine} (ha : AtBorder a) (h : EachFollows hi .fresh l c) (hc : AtBorder c) :
    ∃ c', EachFollows hi a l c' ∧ AtBorder c' := by
  cases h with
  | nil => exact ⟨a, .nil, ha⟩
  | cons g h =>
    cases g with
    | comment => exact ⟨c, .cons (.comment ha) h, hc⟩
    | begins _ hk => exact ⟨c, .cons (.begins ha hk) h, hc⟩

theorem leading_first {hi : Nat} {o : Bool} {k : FieldKind} {pre b : List PoLine} {v : Str} (h : Leading hi o k pre) (f : Field k.word o b v) :
    ∃ (ks : List PoLine) (x : PoLine) (more : List PoLine), pre ++ b = ks ++ x :: more ∧ (∀ c ∈ ks, IsComment c) ∧ ∃ n p k s, x = .message n p k s := by
  induction h generalizing b v with
  | begins cs _ =>
    obtain ⟨p, ⟨n, s, ds, rfl, _⟩, _⟩ := f
    refine ⟨_, _, _, rfl, ?_, _, _, _, _, rfl⟩
    intro c hc
    obtain ⟨d, _, rfl⟩ := List.mem_map.mp hc
    exact ⟨d, rfl⟩
  | next _ f' _ ih =>
    obtain ⟨ks, x, more, h1, h2, h3⟩ := ih f'
    exact ⟨ks, x, more ++ b, by rw [h1]; simp, h2, h3⟩

theorem id_no_text {o : Bool} {pre b : List PoLine} {v : Str} (h : EntryHead o pre) (f : Field (c!"msgid") o b v) {n : Nat} {p k s : Str}
    (hm : .message n p k s ∈ pre ++ b) : k ≠ c!"msgstr" ∧ ∀ i, k ≠ valueKeyword i := by
  obtain ⟨pc, pid, ppl, ctx, hk⟩ := head_kws h
  have hm' : k ∈ kws (pre ++ b) := List.mem_filterMap.mpr ⟨_, hm, rfl⟩
  rw [kws_append, hk, kws_field f] at hm'
  have : k ∈ [c!"|msgctxt", c!"|msgid", c!"|msgid_plural", c!"msgctxt", c!"msgid"] := by
    cases pc <;> cases pid <;> cases ppl <;> cases ctx <;> simp [optKw] at hm' <;> simp <;> grind
  constructor
  · rintro rfl
    revert this
    decide
  · exact fixed_not_value (by simp at this ⊢; grind)

/-- The last entry of lines that pass the check; the entries before it give units whatever follows. -/
theorem last_entry {forms : Option PluralForms} {a c : Place} {l block : List PoLine} (h : EachFollows (nplurals forms) a l c)
    (hl : LeadsTo (nplurals forms) block a) (hw : EachFollows (nplurals forms) .fresh block a) :
    ∃ us pre a0 last, block ++ l = pre ++ last ∧ EachFollows (nplurals forms) .fresh pre a0 ∧ AtBorder a0 ∧ LeadsTo (nplurals forms) last c ∧ EachFollows (nplurals forms) .fresh last c ∧
      ∀ tl us' e, Run forms (last.map .ok ++ tl) us' e → Run forms ((block ++ l).map .ok ++ tl) (us ++ us') e := by
  induction h generalizing block with
  | nil => exact ⟨[], [], .fresh, block, by simp, .nil, .fresh, hl, hw, fun _ _ _ h => by simpa using h⟩
  | @cons a b c ln ls hf _ ih =>
    rcases step_cases hl hf with h1 | ⟨u, h1, h2, h3, h4, h5, h6⟩
    · obtain ⟨us, pre, a0, last, e1, e2, e3, g1, g2, g3⟩ := ih h1 (hw.append (.cons hf .nil))
      exact ⟨us, pre, a0, last, by simpa using e1, e2, e3, g1, g2, fun tl us' e h => by simpa using g3 tl us' e h⟩
    · obtain ⟨us, pre, a0, last, e1, e2, e3, g1, g2, g3⟩ := ih h4 (.cons h5 .nil)
      obtain ⟨a1, e4, e5⟩ := follows_border h6 e2 e3
      refine ⟨u :: us, block ++ pre, a1, last, by simpa using e1, hw.append e4, e5, g1, g2, fun tl us' e h => ?_⟩
      have := Run.entry h1 h2 (h3 _) (g3 tl us' e h)
      simpa using this

theorem run_breaks {forms : Option PluralForms} {c : Place} {b : List PoLine} {ln : PoLine} {tl : List Item} (h : EachFollows (nplurals forms) .fresh b c)
    (hb : ∀ c', ¬ MayFollow (nplurals forms) c ln c') (hs : ¬ EmptySource c ln) :
    ∃ us, Run forms (b.map .ok) us none ∧ Run forms (b.map .ok ++ .ok ln :: tl) us (some (missing c.expected ln)) := by
  obtain ⟨us, _, _, last, _, _, _, h1, h2, h3⟩ := last_entry (block := []) h ⟨[], rfl⟩ .nil
  obtain ⟨us', h4, h5⟩ := place_breaks (tl := tl) h1 h2 hb hs
  exact ⟨us ++ us', by simpa using h3 [] us' none (by simpa using h4), by simpa using h3 _ us' _ h5⟩

/-- The units of lines that end at a place: an entry that ends with a translation is one. -/
theorem place_units {forms : Option PluralForms} {block : List PoLine} {a : Place} (h : LeadsTo (nplurals forms) block a) :
    ∃ us, Run forms (block.map .ok) us none ∧ (AtBorder a ∧ a ≠ .fresh → ∃ u, us = [u]) ∧ (¬ (AtBorder a ∧ a ≠ .fresh) → us = []) := by
  have stop : (¬ AtBorder a ∨ a = .fresh) → (∃ o, EntryHead o block) →
      ∃ us, Run forms (block.map .ok) us none ∧ (AtBorder a ∧ a ≠ .fresh → ∃ u, us = [u]) ∧ (¬ (AtBorder a ∧ a ≠ .fresh) → us = []) := by
    rintro ha ⟨o, h⟩
    refine ⟨[], .stop (.endsInHead h), fun ⟨h1, h2⟩ => ?_, fun _ => rfl⟩
    exact (ha.elim (fun h => h h1) h2).elim
  have ends : AtBorder a → a ≠ .fresh → (∃ u, Entry forms block u ∧ HasSource u.message) →
      ∃ us, Run forms (block.map .ok) us none ∧ (AtBorder a ∧ a ≠ .fresh → ∃ u, us = [u]) ∧ (¬ (AtBorder a ∧ a ≠ .fresh) → us = []) := by
    rintro ha hf ⟨u, h1, h2⟩
    have := Run.entry h1 h2 (.inl rfl) (.stop (Stops.endsInHead (head_nil false)))
    exact ⟨[u], by simpa using this, fun _ => ⟨u, rfl⟩, fun hn => absurd ⟨ha, hf⟩ hn⟩
  cases a with
  | fresh =>
    obtain ⟨cs, rfl⟩ := h
    exact stop (.inr rfl) ⟨false, cs, [], [], [], [], none, none, none, none, by simp, .none, .none, .none, fun _ => rfl, .none⟩
  | field p k v =>
    have h' := h
    obtain ⟨o, pre, b, hp, rfl, f, hl⟩ := h
    have f' : Field k.word o b v := ⟨p, f, hp⟩
    cases k with
    | prevContext => exact stop (.inl nofun) ⟨o, head_prevContext hl f'⟩
    | prevId => exact stop (.inl nofun) ⟨o, head_prevId hl f'⟩
    | prevPluralId => exact stop (.inl nofun) ⟨o, head_prevPluralId hl f'⟩
    | context => exact stop (.inl nofun) ⟨o, head_context hl f'⟩
    | id =>
      refine ⟨[], .stop (.endsAfterIds (o := o) (idPl := none) ⟨pre, b, [], v, by simp, before_id hl, f', .none⟩), fun h => ?_, fun _ => rfl⟩
      cases h.1
    | pluralId =>
      obtain ⟨b0, b5, id, rfl, h1, h2⟩ := before_pluralId hl
      refine ⟨[], .stop (.endsAfterIds (o := o) (idPl := some v) ⟨b0, b5, b, id, by simp, h1, h2, .some f'⟩), fun h => ?_, fun _ => rfl⟩
      cases h.1
    | text => exact ends .text nofun (place_entry h' .text)
    | value i => exact ends .value nofun (place_entry h' .value)

theorem run_unreadable {forms : Option PluralForms} {c : Place} {b : List PoLine} {x : Err} {tl : List Item} (h : EachFollows (nplurals forms) .fresh b c) :
    ∃ us us', Run forms (b.map .ok ++ .error x :: tl) us (some x) ∧ Run forms (b.map .ok) us' none ∧
      (AtBorder c ∧ c ≠ .fresh → ∃ u, us' = us ++ [u]) ∧ (¬ (AtBorder c ∧ c ≠ .fresh) → us' = us) := by
  obtain ⟨us, _, _, last, _, _, _, h1, h2, h3⟩ := last_entry (block := []) h ⟨[], rfl⟩ .nil
  obtain ⟨us', h4, h5, h6⟩ := place_units h1
  refine ⟨us, us ++ us', by simpa using h3 _ [] _ (.stop (.unreadable (place_prefix h1))), by simpa using h3 [] us' none (by simpa using h4), fun hc => ?_, fun hc => ?_⟩
  · obtain ⟨u, rfl⟩ := h5 hc
    exact ⟨u, rfl⟩
  · rw [h6 hc, List.append_nil]

theorem run_noSource {forms : Option PluralForms} {p q : Str} {b : List PoLine} {n : Nat} {s : Str} {cs : List (Nat × Str)} {rest : List Item}
    (h : EachFollows (nplurals forms) .fresh b (.field p .id [])) (hpq : Tilde p ↔ Tilde q)
    (hr : rest = [] ∨ ∃ y tl, rest = .ok y :: tl ∧ ∀ m t, y ≠ .continuation m q t) :
    ∃ us x, BeginsLast (nplurals forms) b x ∧ Run forms (b.map .ok) us none ∧ Run forms ((b ++ PoLine.message n q (c!"msgstr") s :: cs.map fun c => PoLine.continuation c.1 q c.2).map .ok ++ rest) us
      (some (.unexpected (lineNumber x) (c!"Source should not be empty"))) := by
  obtain ⟨us, bp, a0, last, e1, e2, e3, h1, h2, h3⟩ := last_entry (block := []) h ⟨[], rfl⟩ .nil
  have hpart : Run forms (b.map .ok) us none := by
    obtain ⟨us', h4, _, h6⟩ := place_units h1
    rw [h6 (fun h => nomatch h.1)] at h4
    simpa using h3 [] [] none (by simpa using h4)
  obtain ⟨o, pre, b5, ho, rfl, f, hl⟩ := h1
  have f7 : FieldLines (c!"msgstr") q (.message n q (c!"msgstr") s :: cs.map fun c => .continuation c.1 q c.2) (s ++ (cs.map Prod.snd).flatten) :=
    ⟨n, s, cs, rfl, rfl⟩
  generalize hb7 : (PoLine.message n q (c!"msgstr") s :: cs.map fun c => .continuation c.1 q c.2) = b7 at f7
  obtain ⟨u, hu, hm⟩ := entry_of_head (forms := forms) (before_id hl) ⟨p, f, ho⟩ .none (.simple ⟨q, f7, ho.trans hpq⟩)
  have he : EndsHere forms (pre ++ (b5 ++ ([] ++ b7))) rest := by
    refine (ends_iff hu).mpr ?_
    rcases hr with rfl | ⟨y, tl, rfl, hy⟩
    · exact entryEnd_fresh (.inl rfl)
    · refine ⟨by simp [NoErr], ?_⟩
      show EndsBefore forms u _ (some y)
      cases y with
      | blank => trivial
      | comment => trivial
      | continuation m q' t =>
        have : lastMarker (pre ++ (b5 ++ ([] ++ b7))) = some q := by
          have hne : b7 ≠ [] := by rw [← hb7]; simp
          rw [List.nil_append, ← List.append_assoc, lastMarker_append hne, f7.lastMarker]
        show lastMarker _ ≠ some q'
        rw [this]
        rintro ⟨⟩
        exact hy m t rfl
      | message m q' t v =>
        rintro ⟨pl, hp⟩
        rw [hm] at hp
        cases hp
  obtain ⟨ks, x, more, hx0, hk, hxm⟩ := leading_first hl ⟨p, f, ho⟩
  have hc : ¬ IsComment x := by
    obtain ⟨_, _, _, _, rfl⟩ := hxm
    rintro ⟨c, hc⟩
    cases hc
  have hx : pre ++ (b5 ++ ([] ++ b7)) = ks ++ x :: (more ++ b7) := by rw [List.nil_append, ← List.append_assoc, hx0]; simp
  rw [hx] at hu he
  have hstop := Stops.noSource hu hk hc hm he
  rw [← hx] at hstop
  have := h3 _ [] _ (.stop (by simpa using hstop))
  refine ⟨us ++ [], x, ⟨bp, a0, ks, more, by rw [← hx0]; simpa using e1, e2, e3, hk, hxm, ?_⟩, by simpa using hpart, by simpa using this⟩
  intro n p' k s' hm
  refine id_no_text (before_id hl) ⟨p, f, ho⟩ (n := n) (p := p') (s := s') ?_
  rw [hx0]
  exact List.mem_append.mpr (.inr hm)

theorem run_noSource_unreadable {forms : Option PluralForms} {p q : Str} {b : List PoLine} {n : Nat} {s : Str} {cs : List (Nat × Str)} {x : Err} {tl : List Item}
    (h : EachFollows (nplurals forms) .fresh b (.field p .id [])) (hpq : Tilde p ↔ Tilde q) :
    ∃ us, Run forms (b.map .ok) us none ∧
      Run forms ((b ++ PoLine.message n q (c!"msgstr") s :: cs.map fun c => PoLine.continuation c.1 q c.2).map .ok ++ .error x :: tl) us (some x) := by
  obtain ⟨us, bp, a0, last, e1, e2, e3, h1, h2, h3⟩ := last_entry (block := []) h ⟨[], rfl⟩ .nil
  have hpart : Run forms (b.map .ok) us none := by
    obtain ⟨us', h4, _, h6⟩ := place_units h1
    rw [h6 (fun h => nomatch h.1)] at h4
    simpa using h3 [] [] none (by simpa using h4)
  obtain ⟨o, pre, b5, ho, rfl, f, hl⟩ := h1
  have f7 : FieldLines (c!"msgstr") q (.message n q (c!"msgstr") s :: cs.map fun c => .continuation c.1 q c.2) (s ++ (cs.map Prod.snd).flatten) :=
    ⟨n, s, cs, rfl, rfl⟩
  generalize hb7 : (PoLine.message n q (c!"msgstr") s :: cs.map fun c => .continuation c.1 q c.2) = b7 at f7
  obtain ⟨u, hu, hm⟩ := entry_of_head (forms := forms) (before_id hl) ⟨p, f, ho⟩ .none (.simple ⟨q, f7, ho.trans hpq⟩)
  have hstop := Stops.unreadable (e := x) (tl := tl) (.inr (.inr ⟨u, hu⟩) : EntryPrefix forms _)
  have := h3 _ [] _ (.stop (by simpa using hstop))
  exact ⟨us, hpart, by simpa using this⟩

/-- A catalogue after its header, or without one: the lines, the number of the first of them and the plural forms. -/
theorem body_forms {env : Env} {stream : List Event} {rs : List (Except IoErr Str)} {n : Nat} {forms : Option PluralForms} {hdr : Header env.Lang}
    {us : List PoUnit} {e : Option Err} (h : BodyAt env stream hdr rs n forms) (hy : Yields (parse env stream) hdr (results us e)) :
    (∀ s, .ok s ∈ rs → '\n' ∉ s) ∧ Run forms (items n rs) us e := by
  cases h with
  | headed h hh hc hf =>
    obtain ⟨f, h1, h2⟩ := after_header h hh hc hy
    have : f = forms := by
      have := ((formsRule_iff ..).mp h1).symm.trans ((formsRule_iff ..).mp hf)
      simpa using this
    subst this
    exact ⟨fun s hs => rawLines_no_nl (inp := flatten stream) (s := s) (by rw [h]; simp [hs]), h2⟩
  | plain h =>
    refine ⟨fun s hs => rawLines_no_nl (inp := flatten stream) (s := s) hs, ?_⟩
    obtain ⟨forms, us1, e1, hx, hr⟩ := yields_reads hy
    obtain ⟨rfl, rfl⟩ := results_inj hx
    rw [streamItems_code] at hr h
    cases hr with
    | nothing f => exact .stop (first_nothing f)
    | plain f hrun =>
      obtain ⟨block, hl, hb, hsrc, hend⟩ := first_unit f
      rw [hl]
      exact .entry hb hsrc hend hrun
    | headed f => exact (h _ _ _ _ f).elim

/-- **C93** The first line that may not follow, unless it is the translation of an empty id, gives an error with its number and the keyword that is missing.  The
units are those of the lines before it (`us'` of any input with these lines that is read without error). -/
theorem C93_line {env : Env} {stream : List Event} {rs : List (Except IoErr Str)} {n : Nat} {forms : Option PluralForms} {hdr : Header env.Lang}
    {us : List PoUnit} {e : Option Err} (h : BodyAt env stream hdr rs n forms) (hy : Yields (parse env stream) hdr (results us e))
    {b : List PoLine} {c : Place} {ln : PoLine} {tl : List Item} (hl : LineItems n rs (b.map .ok ++ .ok ln :: tl))
    (hb : EachFollows (nplurals forms) .fresh b c) (hn : ∀ c', ¬ MayFollow (nplurals forms) c ln c') (hs : ¬ EmptySource c ln) :
    e = some (missing c.expected ln) ∧
    ∀ {stream' : List Event} {rs' : List (Except IoErr Str)} {hdr' : Header env.Lang} {us' : List PoUnit}, BodyAt env stream' hdr' rs' n forms →
      Yields (parse env stream') hdr' (results us' none) → LineItems n rs' (b.map .ok) → us = us' := by
  obtain ⟨h1, h2⟩ := body_forms h hy
  obtain ⟨us1, h3, h4⟩ := run_breaks (tl := tl) hb hn hs
  rw [← hl.unique h1 (items_lineItems h1 n)] at h2
  obtain ⟨rfl, rfl⟩ := h2.unique h4
  refine ⟨rfl, fun h' hy' hl' => ?_⟩
  obtain ⟨h5, h6⟩ := body_forms h' hy'
  rw [← hl'.unique h5 (items_lineItems h5 n)] at h6
  exact (h3.unique h6).1

/-- **C93** If the lines before a line that cannot be read or is not recognised pass the check, the error is that of this line.  The units are those of the lines
before it, without the last one if the line comes directly after its translation. -/
theorem C93_unreadable {env : Env} {stream : List Event} {rs : List (Except IoErr Str)} {n : Nat} {forms : Option PluralForms} {hdr : Header env.Lang}
    {us : List PoUnit} {e : Option Err} (h : BodyAt env stream hdr rs n forms) (hy : Yields (parse env stream) hdr (results us e))
    {b : List PoLine} {c : Place} {x : Err} {tl : List Item} (hl : LineItems n rs (b.map .ok ++ .error x :: tl))
    (hb : EachFollows (nplurals forms) .fresh b c) :
    e = some x ∧
    ∀ {stream' : List Event} {rs' : List (Except IoErr Str)} {hdr' : Header env.Lang} {us' : List PoUnit}, BodyAt env stream' hdr' rs' n forms →
      Yields (parse env stream') hdr' (results us' none) → LineItems n rs' (b.map .ok) →
      (AtBorder c ∧ c ≠ .fresh → ∃ u, us' = us ++ [u]) ∧ (¬ (AtBorder c ∧ c ≠ .fresh) → us' = us) := by
  obtain ⟨h1, h2⟩ := body_forms h hy
  obtain ⟨us1, us2, h3, h4, h7⟩ := run_unreadable (x := x) (tl := tl) hb
  rw [← hl.unique h1 (items_lineItems h1 n)] at h2
  obtain ⟨rfl, rfl⟩ := h2.unique h3
  refine ⟨rfl, fun h' hy' hl' => ?_⟩
  obtain ⟨h5, h6⟩ := body_forms h' hy'
  rw [← hl'.unique h5 (items_lineItems h5 n)] at h6
  rw [← (h4.unique h6).1]
  exact h7

/-- **C93** The translation of an empty id gives an error with the number of the first line of the entry after the comments, if a line
that can be read and does not continue the translation follows, or none.  The units are those of the lines before the translation. -/
theorem C93_source {env : Env} {stream : List Event} {rs : List (Except IoErr Str)} {n : Nat} {forms : Option PluralForms} {hdr : Header env.Lang}
    {us : List PoUnit} {e : Option Err} (h : BodyAt env stream hdr rs n forms) (hy : Yields (parse env stream) hdr (results us e))
    {b : List PoLine} {c : Place} {ln : PoLine} {q : Str} {cs : List (Nat × Str)} {rest : List Item} (hb : EachFollows (nplurals forms) .fresh b c)
    (hs : EmptySource c ln) (hq : ∃ m t, ln = .message m q (c!"msgstr") t)
    (hl : LineItems n rs ((b ++ ln :: cs.map fun c => PoLine.continuation c.1 q c.2).map .ok ++ rest))
    (hr : rest = [] ∨ ∃ y tl, rest = .ok y :: tl ∧ ∀ m t, y ≠ .continuation m q t) :
    (∃ x, BeginsLast (nplurals forms) b x ∧ e = some (.unexpected (lineNumber x) (c!"Source should not be empty"))) ∧
    ∀ {stream' : List Event} {rs' : List (Except IoErr Str)} {hdr' : Header env.Lang} {us' : List PoUnit}, BodyAt env stream' hdr' rs' n forms →
      Yields (parse env stream') hdr' (results us' none) → LineItems n rs' (b.map .ok) → us = us' := by
  obtain ⟨h1, h2⟩ := body_forms h hy
  obtain ⟨p, m, q', t, rfl, rfl, hpq⟩ := hs
  obtain ⟨_, _, hq⟩ := hq
  cases hq
  obtain ⟨us1, x, h3', h4, h3⟩ := run_noSource (n := m) (s := t) (cs := cs) hb hpq hr
  rw [← hl.unique h1 (items_lineItems h1 n)] at h2
  obtain ⟨rfl, rfl⟩ := h2.unique h3
  refine ⟨⟨x, h3', rfl⟩, fun h' hy' hl' => ?_⟩
  obtain ⟨h5, h6⟩ := body_forms h' hy'
  rw [← hl'.unique h5 (items_lineItems h5 n)] at h6
  exact (h4.unique h6).1

/-- **C93** If the lines of the translation of an empty id are followed by a line that cannot be read or is not recognised, the error is that of this line. -/
theorem C93_source_unreadable {env : Env} {stream : List Event} {rs : List (Except IoErr Str)} {n : Nat} {forms : Option PluralForms} {hdr : Header env.Lang}
    {us : List PoUnit} {e : Option Err} (h : BodyAt env stream hdr rs n forms) (hy : Yields (parse env stream) hdr (results us e))
    {b : List PoLine} {c : Place} {ln : PoLine} {q : Str} {cs : List (Nat × Str)} {x : Err} {tl : List Item} (hb : EachFollows (nplurals forms) .fresh b c)
    (hs : EmptySource c ln) (hq : ∃ m t, ln = .message m q (c!"msgstr") t)
    (hl : LineItems n rs ((b ++ ln :: cs.map fun c => PoLine.continuation c.1 q c.2).map .ok ++ .error x :: tl)) :
    e = some x ∧
    ∀ {stream' : List Event} {rs' : List (Except IoErr Str)} {hdr' : Header env.Lang} {us' : List PoUnit}, BodyAt env stream' hdr' rs' n forms →
      Yields (parse env stream') hdr' (results us' none) → LineItems n rs' (b.map .ok) → us = us' := by
  obtain ⟨h1, h2⟩ := body_forms h hy
  obtain ⟨p, m, q', t, rfl, rfl, hpq⟩ := hs
  obtain ⟨_, _, hq⟩ := hq
  cases hq
  obtain ⟨us1, h4, h3⟩ := run_noSource_unreadable (n := m) (s := t) (cs := cs) (x := x) (tl := tl) hb hpq
  rw [← hl.unique h1 (items_lineItems h1 n)] at h2
  obtain ⟨rfl, rfl⟩ := h2.unique h3
  refine ⟨rfl, fun h' hy' hl' => ?_⟩
  obtain ⟨h5, h6⟩ := body_forms h' hy'
  rw [← hl'.unique h5 (items_lineItems h5 n)] at h6
  exact (h4.unique h6).1

theorem first_break (hi : Nat) (l : List Item) (a : Place) :
    ∃ b c rest, l = b.map .ok ++ rest ∧ EachFollows hi a b c ∧
      (rest = [] ∨ (∃ x tl, rest = .error x :: tl) ∨ ∃ ln tl, rest = .ok ln :: tl ∧ ∀ c', ¬ MayFollow hi c ln c') := by
  induction l generalizing a with
  | nil => exact ⟨[], a, [], rfl, .nil, .inl rfl⟩
  | cons i l ih =>
    cases i with
    | error x => exact ⟨[], a, _, rfl, .nil, .inr (.inl ⟨x, l, rfl⟩)⟩
    | ok ln =>
      by_cases hf : ∃ c', MayFollow hi a ln c'
      · obtain ⟨c', hf⟩ := hf
        obtain ⟨b, c, rest, h1, h2, h3⟩ := ih c'
        exact ⟨ln :: b, c, rest, by rw [h1]; rfl, .cons hf h2, h3⟩
      · exact ⟨[], a, _, rfl, .nil, .inr (.inr ⟨ln, l, rfl, fun c' h => hf ⟨c', h⟩⟩)⟩

theorem continuations (q : Str) (l : List Item) :
    ∃ (cs : List (Nat × Str)) (rest : List Item), l = (cs.map fun c => PoLine.continuation c.1 q c.2).map .ok ++ rest ∧
      (rest = [] ∨ (∃ x tl, rest = .error x :: tl) ∨ ∃ y tl, rest = .ok y :: tl ∧ ∀ m t, y ≠ .continuation m q t) := by
  induction l with
  | nil => exact ⟨[], [], rfl, .inl rfl⟩
  | cons i l ih =>
    cases i with
    | error x => exact ⟨[], _, rfl, .inr (.inl ⟨x, l, rfl⟩)⟩
    | ok y =>
      by_cases hc : ∃ m t, y = .continuation m q t
      · obtain ⟨m, t, rfl⟩ := hc
        obtain ⟨cs, rest, h1, h2⟩ := ih
        exact ⟨(m, t) :: cs, rest, by rw [h1]; rfl, h2⟩
      · exact ⟨[], _, rfl, .inr (.inr ⟨y, l, rfl, fun m t h => hc ⟨m, t, h⟩⟩)⟩

/-- **C93** One of the cases always applies: every input passes the check (`C92_header`, `C92_plain`), or it has a first line that does not, as in `C93_unreadable`,
`C93_line`, `C93_source` or `C93_source_unreadable`. -/
theorem C93_complete {env : Env} {stream : List Event} {rs : List (Except IoErr Str)} {n : Nat} {forms : Option PluralForms} {hdr : Header env.Lang}
    {us : List PoUnit} {e : Option Err} (h : BodyAt env stream hdr rs n forms) (hy : Yields (parse env stream) hdr (results us e)) :
    ∃ b c, EachFollows (nplurals forms) .fresh b c ∧
      (LineItems n rs (b.map .ok) ∨
       (∃ x tl, LineItems n rs (b.map .ok ++ .error x :: tl)) ∨
       (∃ ln tl, LineItems n rs (b.map .ok ++ .ok ln :: tl) ∧ (∀ c', ¬ MayFollow (nplurals forms) c ln c') ∧ ¬ EmptySource c ln) ∨
       ∃ (ln : PoLine) (q : Str) (cs : List (Nat × Str)) (rest : List Item), EmptySource c ln ∧ (∃ m t, ln = .message m q (c!"msgstr") t) ∧
        LineItems n rs ((b ++ ln :: cs.map fun c => PoLine.continuation c.1 q c.2).map .ok ++ rest) ∧
        ((rest = [] ∨ ∃ y tl, rest = .ok y :: tl ∧ ∀ m t, y ≠ .continuation m q t) ∨ ∃ x tl, rest = .error x :: tl)) := by
  have hl := items_lineItems (body_forms h hy).1 n
  obtain ⟨b, c, rest, h1, h2, h3⟩ := first_break (nplurals forms) (items n rs) .fresh
  rw [h1] at hl
  refine ⟨b, c, h2, ?_⟩
  rcases h3 with rfl | ⟨x, tl, rfl⟩ | ⟨ln, tl, rfl, h3⟩
  · exact .inl (by simpa using hl)
  · exact .inr (.inl ⟨x, tl, hl⟩)
  · by_cases hs : EmptySource c ln
    · have hs' := hs
      obtain ⟨p, m, q, t, _, rfl, _⟩ := hs'
      obtain ⟨cs, rest, rfl, h5⟩ := continuations q tl
      refine .inr (.inr (.inr ⟨_, q, cs, rest, hs, ⟨m, t, rfl⟩, by simpa using hl, ?_⟩))
      rcases h5 with h5 | h5 | h5
      · exact .inl (.inl h5)
      · exact .inr h5
      · exact .inl (.inr h5)
    · exact .inr (.inr (.inl ⟨ln, tl, hl, h3, hs⟩))

theorem follow_text {hi : Nat} {a b : Place} {ln : PoLine} (h : MayFollow hi a ln b)
    (hn : ∀ n p k s, ln = .message n p k s → k ≠ c!"msgstr" ∧ ∀ i, k ≠ valueKeyword i) (hb : AtBorder b) : AtBorder a ∧ ∀ n p k s, ln ≠ .message n p k s := by
  cases h with
  | comment h => exact ⟨h, by simp⟩
  | continues => cases hb <;> exact ⟨by constructor, by simp⟩
  | begins _ hk => cases hb <;> cases hk
  | goesOn hk =>
    cases hb with
    | text => exact absurd rfl (hn _ _ _ _ rfl).1
    | value => exact absurd rfl ((hn _ _ _ _ rfl).2 _)

theorem follows_no_text {hi : Nat} {a b : Place} {l : List PoLine} (h : EachFollows hi a l b)
    (hn : ∀ n p k s, .message n p k s ∈ l → k ≠ c!"msgstr" ∧ ∀ i, k ≠ valueKeyword i) (hb : AtBorder b) : AtBorder a ∧ ∀ n p k s, .message n p k s ∉ l := by
  induction h with
  | nil => exact ⟨hb, by simp⟩
  | cons g _ ih =>
    obtain ⟨h1, h2⟩ := ih (fun n p k s hm => hn n p k s (List.mem_cons_of_mem _ hm)) hb
    obtain ⟨h3, h4⟩ := follow_text g (fun n p k s he => hn n p k s (by rw [he]; exact List.mem_cons_self ..)) h1
    refine ⟨h3, fun n p k s hm => ?_⟩
    rcases List.mem_cons.mp hm with hm | hm
    · exact h4 n p k s hm.symm
    · exact h2 n p k s hm

theorem begins_le {hi : Nat} {b0 d ks more ks' more' : List PoLine} {x x' : PoLine} {a a' : Place} (h0 : EachFollows hi .fresh b0 a)
    (h0' : EachFollows hi .fresh (b0 ++ d) a') (ha' : AtBorder a') (h : b0 ++ (ks ++ x :: more) = (b0 ++ d) ++ (ks' ++ x' :: more'))
    (hk : ∀ c ∈ ks, IsComment c) (hk' : ∀ c ∈ ks', IsComment c) (hx : ∃ n p k s, x = .message n p k s) (hx' : ∃ n p k s, x' = .message n p k s)
    (hm : ∀ n p k s, .message n p k s ∈ x :: more → k ≠ c!"msgstr" ∧ ∀ i, k ≠ valueKeyword i) : x = x' := by
  rw [List.append_assoc] at h
  have h := List.append_cancel_left h
  obtain ⟨a1, h1, h2⟩ := follows_split h0'
  cases h1.unique h0
  have nc : ∀ {y : PoLine}, (∃ n p k s, y = .message n p k s) → ¬ IsComment y := by
    rintro _ ⟨_, _, _, _, rfl⟩ ⟨c, hc⟩
    cases hc
  have hd : x ∉ d := by
    intro hxd
    have hmd : ∀ n p k s, .message n p k s ∈ d → k ≠ c!"msgstr" ∧ ∀ i, k ≠ valueKeyword i := by
      intro n p k s hmem
      have : PoLine.message n p k s ∈ ks ++ x :: more := by rw [h]; exact List.mem_append.mpr (.inl hmem)
      rcases List.mem_append.mp this with h | h
      · obtain ⟨c, hc⟩ := hk _ h
        cases hc
      · exact hm n p k s h
    obtain ⟨n, p, k, s, rfl⟩ := hx
    exact (follows_no_text h2 hmd ha').2 n p k s hxd
  have first : ∀ (l m l' m' : List PoLine) (y y' : PoLine), l ++ y :: m = l' ++ y' :: m' → (∀ c ∈ l, IsComment c) → ¬ IsComment y → y ∉ l' →
      ¬ IsComment y' → (∀ c ∈ l', IsComment c ∨ c ∈ d) → (∀ c ∈ l', ¬ IsComment c → c = y) → y = y' := by
    intro l
    induction l with
    | nil =>
      intro m l' m' y y' he _ hy hn _ _ _
      cases l' with
      | nil => injection he
      | cons z l' =>
        injection he with h1 _
        exact absurd (by rw [h1]; exact List.mem_cons_self ..) hn
    | cons c l ih =>
      intro m l' m' y y' he hc hy hn hy' h1 h2
      cases l' with
      | nil =>
        injection he with h3 _
        exact absurd (h3 ▸ hc c (List.mem_cons_self ..)) hy'
      | cons z l' =>
        injection he with h3 h4
        exact ih m l' m' y y' h4 (fun c hm => hc c (List.mem_cons_of_mem _ hm)) hy (fun h => hn (List.mem_cons_of_mem _ h)) hy'
          (fun c hm => h1 c (List.mem_cons_of_mem _ hm)) (fun c hm => h2 c (List.mem_cons_of_mem _ hm))
  have hdc : ∀ c ∈ d, IsComment c := by
    have sub : ∀ (d l r t : List PoLine) (y : PoLine), l ++ y :: r = d ++ t → y ∉ d → ∀ c ∈ d, c ∈ l := by
      intro d
      induction d with
      | nil => intro _ _ _ _ _ _ c hc; cases hc
      | cons z d ih =>
        intro l r t y he hn c hc
        cases l with
        | nil =>
          injection he with h1 _
          exact absurd (by rw [h1]; exact List.mem_cons_self ..) hn
        | cons w l =>
          injection he with h1 h2
          rcases List.mem_cons.mp hc with rfl | hc
          · rw [h1]; exact List.mem_cons_self ..
          · exact List.mem_cons_of_mem _ (ih l r t y h2 (fun h => hn (List.mem_cons_of_mem _ h)) c hc)
    exact fun c hc => hk c (sub d ks more _ x h hd c hc)
  rw [← List.append_assoc] at h
  have all : ∀ c ∈ d ++ ks', IsComment c := fun c hc => (List.mem_append.mp hc).elim (hdc c) (hk' c)
  exact first ks more (d ++ ks') more' x x' h hk (nc hx) (fun h => nc hx (all _ h)) (nc hx') (fun c hc => .inl (all c hc)) (fun c hc hn => absurd (all c hc) hn)

/-- **C93** There is at most one line at which the last entry begins. -/
theorem C93_begins {hi : Nat} {b : List PoLine} {x x' : PoLine} (h : BeginsLast hi b x) (h' : BeginsLast hi b x') : x = x' := by
  obtain ⟨b0, a, ks, more, rfl, h1, h2, h3, h4, h5⟩ := h
  obtain ⟨b0', a', ks', more', he, h1', h2', h3', h4', h5'⟩ := h'
  rcases List.append_eq_append_iff.mp he with ⟨d, rfl, h6⟩ | ⟨d, rfl, h6⟩
  · exact begins_le h1 h1' h2' he h3 h3' h4 h4' h5
  · exact (begins_le h1' h1 h2 he.symm h3' h3 h4' h4 h5').symm

/-! ### Examples -/

theorem split_lineItems : LineItems 3 (splitEntry.map .ok) ([.comment 3 ' ' (c!"x"), .message 4 [] (c!"msgid") (c!"a"), .message 5 [] (c!"msgstr") (c!"b"),
    .message 6 [] (c!"msgid") (c!"c")].map .ok ++ [.ok (.comment 7 ' ' (c!"y")), .ok (.message 8 [] (c!"msgstr") (c!"d"))]) := by
  have h := items_lineItems (rs := splitEntry.map .ok) (by
    intro s hs
    simp only [List.mem_map, Except.ok.injEq, exists_eq_right] at hs
    revert s
    decide) 3
  exact h

-- `C93_line`: the reader misses the translation where the comment comes
example {us : List PoUnit} {e : Option Err}
    (hy : Yields (parse demoEnv (textStream (headLines (c!"X: y") ++ splitEntry))) ⟨[], [], [(c!"X", c!"y")], []⟩ (results us e)) :
    e = some (.parse 7 (c!"# ") (c!"msgstr")) :=
  (C93_line (.headed (hd := (headLines (c!"X: y")).map .ok) (forms := none) (by rw [rawLines_text (by decide)]; rfl) (headerLines_demo _)
      (noContinuation_head (by decide) rfl) .absent) hy split_lineItems
    (.cons (.comment .fresh) (.cons (.begins (k := .id) .fresh .id) (.cons (.goesOn (k' := .text) (.text (by decide)) .rfl)
      (.cons (.begins (k := .id) .text .id) .nil))))
    (by rintro _ ⟨⟨⟩⟩) (by rintro ⟨_, _, _, _, _, h, _⟩; cases h)).1

/-- A line that is not recognised, and a translation of an empty id. -/
def junkEntry : List Str := [c!"# x", c!"msgid \"a\"", c!"junk"]

def emptyEntry : List Str := [c!"# x", c!"msgid \"\"", c!"msgstr \"a\"", c!"\"b\"", c!"msgid \"c\""]

theorem junk_lineItems : LineItems 3 (junkEntry.map .ok) ([.comment 3 ' ' (c!"x"), .message 4 [] (c!"msgid") (c!"a")].map .ok ++ [.error (.parse 6 (c!"junk") [])]) := by
  have h := items_lineItems (rs := junkEntry.map .ok) (by
    intro s hs
    simp only [List.mem_map, Except.ok.injEq, exists_eq_right] at hs
    revert s
    decide) 3
  exact h

theorem empty_lineItems : LineItems 3 (emptyEntry.map .ok) (([PoLine.comment 3 ' ' (c!"x"), PoLine.message 4 [] (c!"msgid") []] ++ PoLine.message 5 [] (c!"msgstr") (c!"a") ::
    [((6, c!"b") : Nat × Str)].map fun c => PoLine.continuation c.1 [] c.2).map .ok ++ [.ok (.message 7 [] (c!"msgid") (c!"c"))]) := by
  have h := items_lineItems (rs := emptyEntry.map .ok) (by
    intro s hs
    simp only [List.mem_map, Except.ok.injEq, exists_eq_right] at hs
    revert s
    decide) 3
  exact h

-- `C93_unreadable`
example {us : List PoUnit} {e : Option Err}
    (hy : Yields (parse demoEnv (textStream (headLines (c!"X: y") ++ junkEntry))) ⟨[], [], [(c!"X", c!"y")], []⟩ (results us e)) :
    e = some (.parse 6 (c!"junk") []) :=
  (C93_unreadable (.headed (hd := (headLines (c!"X: y")).map .ok) (forms := none) (by rw [rawLines_text (by decide)]; rfl) (headerLines_demo _)
      (noContinuation_head (by decide) rfl) .absent) hy junk_lineItems (.cons (.comment .fresh) (.cons (.begins (k := .id) .fresh .id) .nil))).1

-- `C93_source`
example {us : List PoUnit} {e : Option Err}
    (hy : Yields (parse demoEnv (textStream (headLines (c!"X: y") ++ emptyEntry))) ⟨[], [], [(c!"X", c!"y")], []⟩ (results us e)) :
    ∃ x, BeginsLast 2 [.comment 3 ' ' (c!"x"), .message 4 [] (c!"msgid") []] x ∧ e = some (.unexpected (lineNumber x) (c!"Source should not be empty")) :=
  (C93_source (.headed (hd := (headLines (c!"X: y")).map .ok) (forms := none) (by rw [rawLines_text (by decide)]; rfl) (headerLines_demo _)
      (noContinuation_head (by decide) rfl) .absent) hy (.cons (.comment .fresh) (.cons (.begins (k := .id) .fresh .id) .nil))
    ⟨[], 5, [], _, rfl, rfl, .rfl⟩ ⟨_, _, rfl⟩ empty_lineItems (.inr ⟨.message 7 [] (c!"msgid") (c!"c"), [], rfl, by simp⟩)).1

-- these inputs are read, with these errors
example : Yields (parse demoEnv (textStream (headLines (c!"X: y") ++ emptyEntry))) ⟨[], [], [(c!"X", c!"y")], []⟩
    (results [] (some (.unexpected 4 (c!"Source should not be empty")))) :=
  yields_text (env := demoEnv) (res := ⟨⟨[], [], [(c!"X", c!"y")], []⟩, none, [], some (.unexpected 4 (c!"Source should not be empty"))⟩) (by decide) (by rfl)

example : Yields (parse demoEnv (textStream (headLines (c!"X: y") ++ junkEntry))) ⟨[], [], [(c!"X", c!"y")], []⟩ (results [] (some (.parse 6 (c!"junk") []))) :=
  yields_text (env := demoEnv) (res := ⟨⟨[], [], [(c!"X", c!"y")], []⟩, none, [], some (.parse 6 (c!"junk") [])⟩) (by decide) (by rfl)

-- a line that is not recognised directly after a translation: the unit is not returned; it is if a comment is between them
example : Yields (parse demoEnv (textStream (headLines (c!"X: y") ++ [c!"msgid \"a\"", c!"msgstr \"b\"", c!"junk"]))) ⟨[], [], [(c!"X", c!"y")], []⟩
    (results [] (some (.parse 6 (c!"junk") []))) :=
  yields_text (env := demoEnv) (res := ⟨⟨[], [], [(c!"X", c!"y")], []⟩, none, [], some (.parse 6 (c!"junk") [])⟩) (by decide) (by rfl)

example : Yields (parse demoEnv (textStream (headLines (c!"X: y") ++ [c!"msgid \"a\"", c!"msgstr \"b\"", c!"# x", c!"junk"]))) ⟨[], [], [(c!"X", c!"y")], []⟩
    (results [unitAB (c!"a") (c!"b")] (some (.parse 7 (c!"junk") []))) :=
  yields_text (env := demoEnv) (res := ⟨⟨[], [], [(c!"X", c!"y")], []⟩, none, [unitAB (c!"a") (c!"b")], some (.parse 7 (c!"junk") [])⟩) (by decide) (by rfl)

-- `C93_source_unreadable`: a line that is not recognised after the translation of an empty id
example {us : List PoUnit} {e : Option Err}
    (hy : Yields (parse demoEnv (textStream (headLines (c!"X: y") ++ [c!"# x", c!"msgid \"\"", c!"msgstr \"a\"", c!"junk"]))) ⟨[], [], [(c!"X", c!"y")], []⟩ (results us e)) :
    e = some (.parse 7 (c!"junk") []) :=
  (C93_source_unreadable (b := [.comment 3 ' ' (c!"x"), .message 4 [] (c!"msgid") []]) (ln := .message 5 [] (c!"msgstr") (c!"a")) (cs := []) (tl := [])
    (.headed (hd := (headLines (c!"X: y")).map .ok) (rs := [c!"# x", c!"msgid \"\"", c!"msgstr \"a\"", c!"junk"].map .ok) (forms := none)
      (by rw [rawLines_text (by decide)]; rfl) (headerLines_demo _) (noContinuation_head (by decide) rfl) .absent) hy
    (.cons (.comment .fresh) (.cons (.begins (k := .id) .fresh .id) .nil)) ⟨[], 5, [], _, rfl, rfl, .rfl⟩ ⟨_, _, rfl⟩
    (items_lineItems (rs := [c!"# x", c!"msgid \"\"", c!"msgstr \"a\"", c!"junk"].map .ok) (by
      intro s hs
      simp only [List.mem_map, Except.ok.injEq, exists_eq_right] at hs
      revert s
      decide) 3)).1

example : Yields (parse demoEnv (textStream (headLines (c!"X: y") ++ [c!"# x", c!"msgid \"\"", c!"msgstr \"a\"", c!"junk"]))) ⟨[], [], [(c!"X", c!"y")], []⟩
    (results [] (some (.parse 7 (c!"junk") []))) :=
  yields_text (env := demoEnv) (res := ⟨⟨[], [], [(c!"X", c!"y")], []⟩, none, [], some (.parse 7 (c!"junk") [])⟩) (by decide) (by rfl)

-- `C93_complete` for the input of `C93_unreadable`
example {us : List PoUnit} {e : Option Err}
    (hy : Yields (parse demoEnv (textStream (headLines (c!"X: y") ++ junkEntry))) ⟨[], [], [(c!"X", c!"y")], []⟩ (results us e)) :=
  C93_complete (.headed (hd := (headLines (c!"X: y")).map .ok) (rs := junkEntry.map .ok) (forms := none) (by rw [rawLines_text (by decide)]; rfl)
    (headerLines_demo _) (noContinuation_head (by decide) rfl) .absent) hy

-- `C93_begins`: here the entry begins at line 4, after the comment
example {x : PoLine} (h : BeginsLast 2 [.comment 3 ' ' (c!"x"), .message 4 [] (c!"msgid") []] x) : lineNumber x = 4 := by
  have : BeginsLast 2 [.comment 3 ' ' (c!"x"), .message 4 [] (c!"msgid") []] (.message 4 [] (c!"msgid") []) :=
    ⟨[], .fresh, [.comment 3 ' ' (c!"x")], [], rfl, .nil, .fresh, by simpa using ⟨(3, ' ', c!"x"), rfl⟩, ⟨_, _, _, _, rfl⟩, by
      intro n p k s hm
      simp only [List.mem_cons, PoLine.message.injEq, List.not_mem_nil, or_false] at hm
      obtain ⟨_, _, rfl, _⟩ := hm
      exact ⟨by decide, fixed_not_value (by simp)⟩⟩
  rw [C93_begins h this]
  rfl

end Verif
