import Verif.Lemmas.Regex
import Verif.Spec.Line

/-! The message and comment patterns against the line grammar. -/

namespace Verif
open Spec

/-- Captured groups with an optional group pushed. -/
def pushCap (i : Nat) : Option Str → List (Nat × Str) → List (Nat × Str)
  | none, l => l
  | some x, l => (i, x) :: l

theorem mem_marker {s t : St} :
    t ∈ (Re.seq (.opt true (reChr '~')) (.opt true (reChr '|'))).run s ↔
      ∃ m cs, IsMarker m ∧ s.rest = m ++ cs ∧ t = ⟨s.atStart && m.isEmpty, cs, s.caps⟩ := by
  obtain ⟨b, rest, caps⟩ := s
  simp only [mem_seq, mem_opt, mem_chr, IsMarker]
  constructor
  · rintro ⟨u, ⟨cs, rfl, rfl⟩ | rfl, ⟨cs', h, rfl⟩ | rfl⟩
    · simp only at h; subst h; exact ⟨['~', '|'], cs', by simp⟩
    · exact ⟨['~'], cs, by simp⟩
    · simp only at h; subst h; exact ⟨['|'], cs', by simp⟩
    · exact ⟨[], rest, by simp⟩
  · rintro ⟨m, cs, (rfl | rfl | rfl | rfl), h, rfl⟩
    · simp only [List.nil_append] at h; subst h
      exact ⟨_, Or.inr rfl, Or.inr (by simp)⟩
    · subst h
      exact ⟨_, Or.inl ⟨cs, rfl, rfl⟩, Or.inr (by simp)⟩
    · subst h
      exact ⟨_, Or.inr rfl, Or.inl ⟨cs, rfl, by simp⟩⟩
    · subst h
      exact ⟨_, Or.inl ⟨'|' :: cs, rfl, rfl⟩, Or.inl ⟨cs, rfl, by simp⟩⟩

theorem mem_mark {s t : St} :
    t ∈ reMark.run s ↔ ∃ m cs, (∀ x, m = some x → IsMarker x) ∧ s.rest = markerText m ++ cs ∧
      t = ⟨s.atStart && m.isNone, cs, pushCap 1 m s.caps⟩ := by
  obtain ⟨b, rest, caps⟩ := s
  unfold reMark
  rw [mem_opt, mem_seq]
  constructor
  · rintro (⟨u, hu, ht⟩ | rfl)
    · obtain ⟨cs, h1, rfl⟩ := mem_chr.mp hu
      obtain ⟨v, hv, rfl⟩ := mem_cap.mp ht
      obtain ⟨m, cs', hm, h2, rfl⟩ := mem_marker.mp hv
      simp only at h1 h2
      subst h1 h2
      exact ⟨some m, cs', by simpa using hm, by simp [markerText], by simp [pushCap]⟩
    · exact ⟨none, rest, by simp, by simp [markerText], by simp [pushCap]⟩
  · rintro ⟨m, cs, hm, h, rfl⟩
    simp only at h
    subst h
    cases m with
    | none => right; simp [markerText, pushCap]
    | some m =>
      left
      refine ⟨_, mem_chr.mpr ⟨m ++ cs, by simp [markerText], rfl⟩, mem_cap.mpr ⟨_, mem_marker.mpr ⟨m, cs, hm m rfl, rfl, rfl⟩, ?_⟩⟩
      simp [pushCap]

theorem mem_index {s t : St} :
    t ∈ reIndex.run s ↔ ∃ ds cs, IsIndex ds ∧ s.rest = ds ++ cs ∧ t = ⟨false, cs, s.caps⟩ := by
  obtain ⟨b, rest, caps⟩ := s
  unfold reIndex
  rw [mem_alt, mem_seq]
  constructor
  · rintro (h | ⟨u, hu, ht⟩)
    · obtain ⟨cs, h1, rfl⟩ := mem_chr.mp h
      exact ⟨['0'], cs, Or.inl rfl, by simpa using h1, rfl⟩
    · obtain ⟨c, cs, h1, h2, rfl⟩ := mem_cls.mp hu
      obtain ⟨w, cs', h3, h4, rfl⟩ := mem_star_cls.mp ht
      simp only at h1 h3
      subst h1 h3
      refine ⟨c :: w, cs', Or.inr ⟨c, w, rfl, ?_, h4⟩, by simp, by simp⟩
      simpa [Cls.test] using h2
  · rintro ⟨ds, cs, (rfl | ⟨d, ds', rfl, hd, hds⟩), h, rfl⟩
    · left; exact mem_chr.mpr ⟨cs, by simpa using h, rfl⟩
    · right
      simp only at h; subst h
      exact ⟨_, mem_cls.mpr ⟨d, ds' ++ cs, by simp, by simpa [Cls.test] using hd, rfl⟩,
        mem_star_cls.mpr ⟨ds', cs, rfl, hds, by simp⟩⟩

theorem mem_tag {s t : St} :
    t ∈ reTag.run s ↔ ∃ k cs, IsKeyword k ∧ s.rest = k ++ cs ∧ t = ⟨false, cs, s.caps⟩ := by
  obtain ⟨b, rest, caps⟩ := s
  unfold reTag reMsgstr
  rw [mem_alt, mem_alt, mem_alt, reLit_eq _ (by simp), reLit_eq _ (by simp), reLit_eq _ (by simp), mem_litSeq (by simp)]
  constructor
  · rintro (⟨cs, h, rfl⟩ | ⟨cs, h, rfl⟩ | ⟨cs, h, rfl⟩ | ⟨cs, h, ht⟩)
    · exact ⟨_, cs, Or.inl rfl, h, rfl⟩
    · exact ⟨_, cs, Or.inr (Or.inl rfl), h, rfl⟩
    · exact ⟨_, cs, Or.inr (Or.inr (Or.inl rfl)), h, rfl⟩
    · rw [mem_opt, mem_seq] at ht
      rcases ht with ⟨u, hu, ht⟩ | rfl
      · obtain ⟨cs1, h1, rfl⟩ := mem_chr.mp hu
        obtain ⟨v, hv, ht⟩ := mem_seq.mp ht
        obtain ⟨ds, cs2, hds, h2, rfl⟩ := mem_index.mp hv
        obtain ⟨cs3, h3, rfl⟩ := mem_chr.mp ht
        simp only at h h1 h2 h3
        subst h h1 h2 h3
        exact ⟨_, cs3, Or.inr (Or.inr (Or.inr (Or.inr ⟨ds, hds, rfl⟩))), by simp, rfl⟩
      · exact ⟨_, cs, Or.inr (Or.inr (Or.inr (Or.inl rfl))), h, rfl⟩
  · rintro ⟨k, cs, (rfl | rfl | rfl | rfl | ⟨ds, hds, rfl⟩), h, rfl⟩
    · left; exact ⟨cs, h, rfl⟩
    · right; left; exact ⟨cs, h, rfl⟩
    · right; right; left; exact ⟨cs, h, rfl⟩
    · right; right; right; exact ⟨cs, h, mem_opt.mpr (Or.inr rfl)⟩
    · right; right; right
      simp only at h
      subst h
      refine ⟨'[' :: (ds ++ ']' :: cs), by simp, mem_opt.mpr (Or.inl ?_)⟩
      exact mem_seq.mpr ⟨_, mem_chr.mpr ⟨ds ++ ']' :: cs, rfl, rfl⟩,
        mem_seq.mpr ⟨_, mem_index.mpr ⟨ds, ']' :: cs, hds, rfl, rfl⟩, mem_chr.mpr ⟨cs, rfl, rfl⟩⟩⟩

theorem mem_quoted {s t : St} :
    t ∈ reQuoted.run s ↔ ∃ raw w, White w ∧ (∀ c ∈ raw, c ≠ '\n') ∧ s.rest = '"' :: (raw ++ '"' :: w) ∧
      t = ⟨false, [], (3, raw) :: s.caps⟩ := by
  obtain ⟨b, rest, caps⟩ := s
  unfold reQuoted
  constructor
  · intro h
    obtain ⟨u, hu, h⟩ := mem_seq.mp h
    obtain ⟨cs, h1, rfl⟩ := mem_chr.mp hu
    obtain ⟨u, hu, h⟩ := mem_seq.mp h
    obtain ⟨v, hv, rfl⟩ := mem_cap.mp hu
    obtain ⟨raw, cs2, h2, hraw, rfl⟩ := mem_star_cls.mp hv
    obtain ⟨u, hu, h⟩ := mem_seq.mp h
    obtain ⟨cs3, h3, rfl⟩ := mem_chr.mp hu
    obtain ⟨u, hu, h⟩ := mem_seq.mp h
    obtain ⟨w, cs4, h4, hw, rfl⟩ := mem_ws.mp hu
    obtain ⟨h5, rfl⟩ := mem_eol.mp h
    simp only at h1 h2 h3 h4 h5
    subst h1 h2 h3 h4 h5
    refine ⟨raw, w, hw, ?_, by simp, by simp⟩
    intro c hc
    simpa [Cls.test] using hraw c hc
  · rintro ⟨raw, w, hw, hraw, h, rfl⟩
    simp only at h
    subst h
    refine mem_seq.mpr ⟨_, mem_chr.mpr ⟨_, rfl, rfl⟩, mem_seq.mpr ⟨_, mem_cap.mpr ⟨_, mem_star_cls.mpr
      ⟨raw, '"' :: w, rfl, ?_, rfl⟩, rfl⟩, mem_seq.mpr ⟨_, mem_chr.mpr ⟨w, rfl, rfl⟩, mem_seq.mpr
      ⟨_, mem_ws.mpr ⟨w, [], by simp, hw, rfl⟩, mem_eol.mpr ⟨rfl, by simp⟩⟩⟩⟩⟩
    intro c hc
    simpa [Cls.test] using hraw c hc

/-- The captured groups of a match of the message pattern. -/
def quotedCaps (marker kw : Option Str) (raw : Str) : List (Nat × Str) :=
  (3, raw) :: pushCap 2 kw (pushCap 1 marker [])

theorem mem_messageRe {line : Str} {t : St} (hl : '\n' ∉ line) :
    t ∈ messageRe.run ⟨true, line, []⟩ ↔
      ∃ m k raw, QuotedLine line m k raw ∧ t = ⟨false, [], quotedCaps m k raw⟩ := by
  unfold messageRe
  constructor
  · intro h
    obtain ⟨u, hu, h⟩ := mem_seq.mp h
    obtain ⟨-, rfl⟩ := mem_bol.mp hu
    obtain ⟨u, hu, h⟩ := mem_seq.mp h
    obtain ⟨w1, cs1, h1, hw1, rfl⟩ := mem_ws.mp hu
    obtain ⟨u, hu, h⟩ := mem_seq.mp h
    obtain ⟨m, cs2, hm, h2, rfl⟩ := mem_mark.mp hu
    obtain ⟨u, hu, h⟩ := mem_seq.mp h
    obtain ⟨w2, cs3, h3, hw2, rfl⟩ := mem_ws.mp hu
    obtain ⟨u, hu, h⟩ := mem_seq.mp h
    simp only at h1 h2 h3
    subst h1 h2 h3
    rcases mem_opt.mp hu with hu | rfl
    · obtain ⟨v, hv, rfl⟩ := mem_cap.mp hu
      obtain ⟨k, cs4, hk, h4, rfl⟩ := mem_tag.mp hv
      obtain ⟨u, hu, h⟩ := mem_seq.mp h
      obtain ⟨w3, cs5, h5, hw3, rfl⟩ := mem_ws.mp hu
      obtain ⟨raw, w4, hw4, hraw, h6, rfl⟩ := mem_quoted.mp h
      simp only at h4 h5 h6
      subst h4 h5 h6
      exact ⟨m, some k, raw, ⟨hm, by simpa using hk, w1, w2, w3, w4, hw1, hw2, hw3, hw4, by simp⟩, by simp [quotedCaps, pushCap]⟩
    · obtain ⟨u, hu, h⟩ := mem_seq.mp h
      obtain ⟨w3, cs5, h5, hw3, rfl⟩ := mem_ws.mp hu
      obtain ⟨raw, w4, hw4, hraw, h6, rfl⟩ := mem_quoted.mp h
      simp only at h5 h6
      subst h5 h6
      exact ⟨m, none, raw, ⟨hm, by simp, w1, w2, w3, w4, hw1, hw2, hw3, hw4, by simp⟩, by simp [quotedCaps, pushCap]⟩
  · rintro ⟨m, k, raw, ⟨hm, hk, w1, w2, w3, w4, hw1, hw2, hw3, hw4, rfl⟩, rfl⟩
    have hraw : ∀ c ∈ raw, c ≠ '\n' := by
      rintro c hc rfl
      apply hl; simp [hc]
    refine mem_seq.mpr ⟨_, mem_bol.mpr ⟨rfl, rfl⟩, mem_seq.mpr ⟨_, mem_ws.mpr ⟨w1, _, rfl, hw1, rfl⟩,
      mem_seq.mpr ⟨_, mem_mark.mpr ⟨m, _, hm, rfl, rfl⟩, mem_seq.mpr ⟨_, mem_ws.mpr ⟨w2, _, rfl, hw2, rfl⟩, ?_⟩⟩⟩⟩
    cases k with
    | none =>
      refine mem_seq.mpr ⟨_, mem_opt.mpr (Or.inr rfl), mem_seq.mpr ⟨_, mem_ws.mpr ⟨w3, _, by simp; rfl, hw3, rfl⟩, ?_⟩⟩
      exact mem_quoted.mpr ⟨raw, w4, hw4, hraw, rfl, by simp [quotedCaps, pushCap]⟩
    | some k =>
      refine mem_seq.mpr ⟨_, mem_opt.mpr (Or.inl (mem_cap.mpr ⟨_, mem_tag.mpr ⟨k, _, hk k rfl, rfl, rfl⟩, rfl⟩)),
        mem_seq.mpr ⟨_, mem_ws.mpr ⟨w3, _, by simp; rfl, hw3, rfl⟩, ?_⟩⟩
      exact mem_quoted.mpr ⟨raw, w4, hw4, hraw, rfl, by simp [quotedCaps, pushCap]⟩

/-! ### Uniqueness of the decomposition -/

theorem prefix_unique {p : Char → Prop} {a b x y : Str} (h : a ++ x = b ++ y) (ha : ∀ c ∈ a, p c) (hb : ∀ c ∈ b, p c)
    (hx : ∀ c, x.head? = some c → ¬ p c) (hy : ∀ c, y.head? = some c → ¬ p c) : a = b ∧ x = y := by
  induction a generalizing b with
  | nil =>
    cases b with
    | nil => exact ⟨rfl, by simpa using h⟩
    | cons c b =>
      simp only [List.nil_append, List.cons_append] at h
      exact absurd (hb c (by simp)) (hx c (by simp [h]))
  | cons c a ih =>
    cases b with
    | nil =>
      simp only [List.nil_append, List.cons_append] at h
      exact absurd (ha c (by simp)) (hy c (by simp [← h]))
    | cons d b =>
      simp only [List.cons_append, List.cons.injEq] at h
      obtain ⟨rfl, h⟩ := h
      obtain ⟨rfl, rfl⟩ := ih h (fun c hc => ha c (by simp [hc])) (fun c hc => hb c (by simp [hc]))
      exact ⟨rfl, rfl⟩

theorem suffix_unique {p : Char → Prop} {a b x y : Str} {q : Char} (hq : ¬ p q) (h : a ++ q :: x = b ++ q :: y)
    (hx : ∀ c ∈ x, p c) (hy : ∀ c ∈ y, p c) : a = b ∧ x = y := by
  have h' := congrArg List.reverse h
  simp only [List.reverse_append, List.reverse_cons, List.append_assoc] at h'
  have := prefix_unique (p := p) h' (by simpa using hx) (by simpa using hy) (by simpa using hq) (by simpa using hq)
  obtain ⟨h1, h2⟩ := this
  simp at h1 h2
  exact ⟨h2, h1⟩

theorem isWhite_quote : isWhite '"' = false := by decide
theorem isWhite_hash : isWhite '#' = false := by decide
theorem isWhite_m : isWhite 'm' = false := by decide

theorem keyword_head {k : Str} (h : IsKeyword k) : ∃ k', k = 'm' :: k' := by
  rcases h with rfl | rfl | rfl | rfl | ⟨ds, -, rfl⟩ <;> exact ⟨_, rfl⟩

theorem keyword_chars {k : Str} (h : IsKeyword k) : ∀ c ∈ k, c ≠ '"' ∧ isWhite c = false := by
  have hnd : ∀ c : Char, isNd c = true → c ≠ '"' ∧ isWhite c = false := by
    intro c hc
    have hnd : ∀ r ∈ ndRanges, r.1 ≤ c.toNat → c.toNat ≤ r.2 → c.toNat ≠ 34 ∧ isWhite c = false := by
      unfold isWhite ndRanges
      simp only [List.mem_cons, List.not_mem_nil, or_false, forall_eq_or_imp, forall_eq]
      simp only [Bool.or_eq_false_iff, Bool.and_eq_false_iff, decide_eq_false_iff_not, beq_eq_false_iff_ne]
      repeat' apply And.intro
      all_goals (intro h1 h2; omega)
    unfold isNd at hc
    simp only [List.any_eq_true, Bool.and_eq_true, decide_eq_true_eq] at hc
    obtain ⟨r, hr, h1, h2⟩ := hc
    have := hnd r hr h1 h2
    refine ⟨?_, this.2⟩
    rintro rfl
    exact this.1 (by decide)
  rcases h with rfl | rfl | rfl | rfl | ⟨ds, hds, rfl⟩
  · decide
  · decide
  · decide
  · decide
  · intro c hc
    simp only [List.mem_append] at hc
    rcases hc with hc | hc | hc
    · revert c; decide
    · rcases hds with rfl | ⟨d, ds', rfl, hd, hds'⟩
      · revert c; decide
      · rcases List.mem_cons.mp hc with rfl | hc
        · apply hnd
          unfold isNd
          simp only [List.any_eq_true, Bool.and_eq_true, decide_eq_true_eq]
          refine ⟨(0x30, 0x39), by decide, ?_⟩
          have h1 : '1'.toNat = 49 := by decide
          have h9 : '9'.toNat = 57 := by decide
          simp only; omega
        · exact hnd c (hds' c hc)
    · revert c; decide

theorem quotedLine_unique {line : Str} {m m' k k' : Option Str} {raw raw' : Str}
    (h : QuotedLine line m k raw) (h' : QuotedLine line m' k' raw') : m = m' ∧ k = k' ∧ raw = raw' := by
  obtain ⟨hm, hk, w1, w2, w3, w4, hw1, hw2, hw3, hw4, rfl⟩ := h
  obtain ⟨hm', hk', v1, v2, v3, v4, hv1, hv2, hv3, hv4, h⟩ := h'
  -- keywords
  have kwHead : ∀ (k : Option Str) (x : Str), (∀ y, k = some y → IsKeyword y) →
      ∀ c, (k.getD [] ++ x).head? = some c → (k = none ∧ x.head? = some c) ∨ ((∃ y, k = some y) ∧ c = 'm') := by
    intro k x hk c hc
    cases k with
    | none => left; exact ⟨rfl, by simpa using hc⟩
    | some y =>
      obtain ⟨k', rfl⟩ := keyword_head (hk y rfl)
      right; exact ⟨⟨_, rfl⟩, by simpa [eq_comm] using hc⟩
  have tailEq : ∀ (k k' : Option Str) (w2 v2 w3 v3 x y : Str), (∀ y, k = some y → IsKeyword y) → (∀ y, k' = some y → IsKeyword y) →
      White w2 → White v2 → White w3 → White v3 →
      w2 ++ (k.getD [] ++ (w3 ++ '"' :: x)) = v2 ++ (k'.getD [] ++ (v3 ++ '"' :: y)) → k = k' ∧ x = y := by
    intro k k' w2 v2 w3 v3 x y hk hk' hw2 hv2 hw3 hv3 h
    have hws : ∀ (k : Option Str) (w2 w3 x : Str), (∀ y, k = some y → IsKeyword y) → White w2 → White w3 →
        ∃ w, White w ∧ ((k = none ∧ w2 ++ (k.getD [] ++ (w3 ++ '"' :: x)) = w ++ '"' :: x) ∨
          ∃ k0, k = some ('m' :: k0) ∧ w2 ++ (k.getD [] ++ (w3 ++ '"' :: x)) = w ++ 'm' :: (k0 ++ (w3 ++ '"' :: x))) := by
      intro k w2 w3 x hk hw2 hw3
      cases k with
      | none =>
        refine ⟨w2 ++ w3, ?_, Or.inl ⟨rfl, by simp⟩⟩
        intro c hc
        rcases List.mem_append.mp hc with hc | hc
        · exact hw2 c hc
        · exact hw3 c hc
      | some k =>
        obtain ⟨k0, rfl⟩ := keyword_head (hk k rfl)
        exact ⟨w2, hw2, Or.inr ⟨k0, rfl, by simp⟩⟩
    obtain ⟨w, hw, hcase⟩ := hws k w2 w3 x hk hw2 hw3
    obtain ⟨v, hv, hcase'⟩ := hws k' v2 v3 y hk' hv2 hv3
    have hq : ∀ c, some '"' = some c → ¬ isWhite c = true := by rintro c h; cases h; simp [isWhite_quote]
    have hmm : ∀ c, some 'm' = some c → ¬ isWhite c = true := by rintro c h; cases h; simp [isWhite_m]
    rcases hcase with ⟨rfl, e1⟩ | ⟨k0, rfl, e1⟩ <;> rcases hcase' with ⟨rfl, e2⟩ | ⟨k1, rfl, e2⟩ <;> rw [e1, e2] at h
    · have := prefix_unique (p := fun c => isWhite c = true) h hw hv (by simpa using hq) (by simpa using hq)
      exact ⟨rfl, by simpa using this.2⟩
    · have := prefix_unique (p := fun c => isWhite c = true) h hw hv (by simpa using hq) (by simpa using hmm)
      simp at this
    · have := prefix_unique (p := fun c => isWhite c = true) h hw hv (by simpa using hmm) (by simpa using hq)
      simp at this
    · have := (prefix_unique (p := fun c => isWhite c = true) h hw hv (by simpa using hmm) (by simpa using hmm)).2
      simp only [List.cons.injEq, true_and] at this
      -- the keyword is the maximal run of non-white, non-quote characters
      have hk0 := keyword_chars (hk _ rfl)
      have hk1 := keyword_chars (hk' _ rfl)
      have hd : ∀ (w x : Str), White w → ∀ c, (w ++ '"' :: x).head? = some c → ¬ (c ≠ '"' ∧ isWhite c = false) := by
        intro w x hw c hc
        cases w with
        | nil => simp at hc; simp [← hc]
        | cons d w =>
          simp at hc; subst hc
          have := hw d (by simp)
          simp [this]
      have := prefix_unique (p := fun c => c ≠ '"' ∧ isWhite c = false) this
        (fun c hc => hk0 c (by simp [hc])) (fun c hc => hk1 c (by simp [hc])) (hd _ _ hw3) (hd _ _ hv3)
      obtain ⟨rfl, h2⟩ := this
      have := prefix_unique (p := fun c => isWhite c = true) h2 hw3 hv3 (by simpa using hq) (by simpa using hq)
      exact ⟨rfl, by simpa using this.2⟩
  have last : ∀ {x y : Str}, x ++ '"' :: w4 = y ++ '"' :: v4 → x = y := fun h =>
    (suffix_unique (p := fun c => isWhite c = true) (by simp [isWhite_quote]) h hw4 hv4).1
  -- marker
  have hhash : ∀ c, some '#' = some c → ¬ isWhite c = true := by rintro c h; cases h; simp [isWhite_hash]
  have noHash : ∀ (k : Option Str) (w1 w2 w3 x : Str), (∀ y, k = some y → IsKeyword y) → White w1 → White w2 → White w3 →
      ∀ (v : Str) (z : Str), White v → w1 ++ ([] ++ (w2 ++ (k.getD [] ++ (w3 ++ '"' :: x)))) = v ++ '#' :: z → False := by
    intro k w1 w2 w3 x hk hw1 hw2 hw3 v z hv h
    simp only [List.nil_append] at h
    have hh : ∀ (w : Str), White w → ∀ (b : Char) (x : Str), isWhite b = false → b ≠ '#' → w ++ b :: x = v ++ '#' :: z → False := by
      intro w hw b x hb hne h
      have := prefix_unique (p := fun c => isWhite c = true) h hw hv (by simp [hb]) (by simpa using hhash)
      simp at this
      exact hne this.2.1
    have app : ∀ {a b : Str}, White a → White b → White (a ++ b) := by
      intro a b ha hb c hc
      rcases List.mem_append.mp hc with hc | hc
      · exact ha c hc
      · exact hb c hc
    cases k with
    | none => exact hh (w1 ++ (w2 ++ w3)) (app hw1 (app hw2 hw3)) '"' x isWhite_quote (by decide) (by simpa using h)
    | some k =>
      obtain ⟨k0, rfl⟩ := keyword_head (hk k rfl)
      exact hh (w1 ++ w2) (app hw1 hw2) 'm' (k0 ++ (w3 ++ '"' :: x)) isWhite_m (by decide) (by simpa using h)
  cases m with
  | none =>
    cases m' with
    | none =>
      simp only [markerText, List.nil_append] at h
      have app : ∀ {a b : Str}, White a → White b → White (a ++ b) := by
        intro a b ha hb c hc
        rcases List.mem_append.mp hc with hc | hc
        · exact ha c hc
        · exact hb c hc
      have := tailEq k k' (w1 ++ w2) (v1 ++ v2) w3 v3 _ _ hk hk' (app hw1 hw2) (app hv1 hv2) hw3 hv3 (by simpa using h)
      obtain ⟨rfl, h2⟩ := this
      exact ⟨rfl, rfl, last h2⟩
    | some m' =>
      exfalso
      exact noHash k w1 w2 w3 _ hk hw1 hw2 hw3 v1 _ hv1 (by simpa [markerText] using h)
  | some m =>
    cases m' with
    | none =>
      exfalso
      exact noHash k' v1 v2 v3 _ hk' hv1 hv2 hv3 w1 _ hw1 (by simpa [markerText] using h.symm)
    | some m' =>
      simp only [markerText, List.cons_append] at h
      have := prefix_unique (p := fun c => isWhite c = true) h hw1 hv1 (by simpa using hhash) (by simpa using hhash)
      have h := this.2
      simp only [List.cons.injEq, true_and] at h
      have hmk : ∀ (m : Str), IsMarker m → ∀ c ∈ m, c = '~' ∨ c = '|' := by
        rintro m (rfl | rfl | rfl | rfl) <;> simp
      have hd : ∀ (k : Option Str) (w2 w3 x : Str), (∀ y, k = some y → IsKeyword y) → White w2 → White w3 →
          ∀ c, (w2 ++ (k.getD [] ++ (w3 ++ '"' :: x))).head? = some c → ¬ (c = '~' ∨ c = '|') := by
        intro k w2 w3 x hk hw2 hw3 c hc
        have hwhite : ∀ c, isWhite c = true → ¬ (c = '~' ∨ c = '|') := by
          rintro c h (rfl | rfl) <;> revert h <;> decide
        cases w2 with
        | cons d w2 => simp at hc; subst hc; exact hwhite _ (hw2 _ (by simp))
        | nil =>
          rcases kwHead k (w3 ++ '"' :: x) hk c hc with ⟨-, hc⟩ | ⟨-, rfl⟩
          · cases w3 with
            | cons d w3 => simp at hc; subst hc; exact hwhite _ (hw3 _ (by simp))
            | nil => simp at hc; subst hc; decide
          · decide
      have := prefix_unique (p := fun c => c = '~' ∨ c = '|') h (hmk m (hm m rfl)) (hmk m' (hm' m' rfl))
        (hd k w2 w3 _ hk hw2 hw3) (hd k' v2 v3 _ hk' hv2 hv3)
      obtain ⟨rfl, h2⟩ := this
      obtain ⟨rfl, h3⟩ := tailEq k k' w2 v2 w3 v3 _ _ hk hk' hw2 hv2 hw3 hv3 h2
      exact ⟨rfl, rfl, last h3⟩

end Verif
