import Verif.Model.Parser

/-! Membership characterisations of the regex semantics: which final states a pattern can reach. -/

namespace Verif

theorem mem_cls {p : Cls} {s t : St} :
    t ∈ (Re.cls p).run s ↔ ∃ c cs, s.rest = c :: cs ∧ p.test c = true ∧ t = ⟨false, cs, s.caps⟩ := by
  obtain ⟨b, rest, caps⟩ := s
  cases rest with
  | nil => simp [Re.run]
  | cons c cs =>
    by_cases h : p.test c = true
    · simp only [Re.run, h, if_true, List.mem_singleton]
      constructor
      · rintro rfl; exact ⟨c, cs, rfl, h, rfl⟩
      · rintro ⟨c', cs', h1, -, rfl⟩
        obtain ⟨rfl, rfl⟩ := by simpa using h1
        rfl
    · simp only [Re.run, h]
      constructor
      · simp
      · rintro ⟨c', cs', h1, h2, rfl⟩
        obtain ⟨rfl, rfl⟩ := by simpa using h1
        exact absurd h2 h

theorem mem_chr {d : Char} {s t : St} :
    t ∈ (reChr d).run s ↔ ∃ cs, s.rest = d :: cs ∧ t = ⟨false, cs, s.caps⟩ := by
  unfold reChr
  rw [mem_cls]
  constructor
  · rintro ⟨c, cs, h1, h2, h3⟩
    simp only [Cls.test, beq_iff_eq] at h2
    subst h2
    exact ⟨cs, h1, h3⟩
  · rintro ⟨cs, h1, h2⟩
    exact ⟨d, cs, h1, by simp [Cls.test], h2⟩

theorem mem_seq {a b : Re} {s t : St} : t ∈ (Re.seq a b).run s ↔ ∃ u, u ∈ a.run s ∧ t ∈ b.run u := by
  simp [Re.run]

theorem mem_alt {a b : Re} {s t : St} : t ∈ (Re.alt a b).run s ↔ t ∈ a.run s ∨ t ∈ b.run s := by
  simp [Re.run]

theorem mem_eps {s t : St} : t ∈ Re.eps.run s ↔ t = s := by simp [Re.run]

theorem mem_opt {g : Bool} {a : Re} {s t : St} : t ∈ (Re.opt g a).run s ↔ t ∈ a.run s ∨ t = s := by
  cases g <;> simp [Re.opt, Re.run, or_comm]

theorem mem_bol {s t : St} : t ∈ Re.bol.run s ↔ s.atStart = true ∧ t = s := by
  unfold Re.run; split <;> simp_all

theorem mem_eol {s t : St} : t ∈ Re.eol.run s ↔ s.rest = [] ∧ t = s := by
  unfold Re.run; split <;> simp_all

theorem mem_cap {i : Nat} {r : Re} {s t : St} : t ∈ (Re.cap i r).run s ↔
    ∃ u, u ∈ r.run s ∧ t = ⟨u.atStart, u.rest, (i, s.rest.take (s.rest.length - u.rest.length)) :: u.caps⟩ := by
  simp [Re.run, eq_comm]

theorem mem_starRun_cls {g : Bool} {p : Cls} {n : Nat} {s t : St} (hn : s.rest.length ≤ n) :
    t ∈ starRun g (Re.cls p).run n s ↔
      ∃ w cs, s.rest = w ++ cs ∧ (∀ c ∈ w, p.test c = true) ∧ t = ⟨s.atStart && w.isEmpty, cs, s.caps⟩ := by
  induction n generalizing s with
  | zero =>
    obtain ⟨b, rest, caps⟩ := s
    have : rest = [] := by simpa using hn
    subst this
    simp only [starRun, List.mem_singleton]
    constructor
    · rintro rfl; exact ⟨[], [], by simp⟩
    · rintro ⟨w, cs, h1, -, rfl⟩
      obtain ⟨rfl, rfl⟩ := by simpa using h1
      simp
  | succ n ih =>
    have hmore : t ∈ (((Re.cls p).run s).filter fun t => t.rest.length < s.rest.length).flatMap (starRun g (Re.cls p).run n) ↔
        ∃ c w cs, s.rest = c :: (w ++ cs) ∧ p.test c = true ∧ (∀ c ∈ w, p.test c = true) ∧ t = ⟨false, cs, s.caps⟩ := by
      simp only [List.mem_flatMap, List.mem_filter, mem_cls, decide_eq_true_eq]
      constructor
      · rintro ⟨u, ⟨⟨c, cs, h1, h2, rfl⟩, h3⟩, h4⟩
        rw [ih (by simp only [h1, List.length_cons] at hn; simpa using hn)] at h4
        obtain ⟨w, cs', h5, h6, rfl⟩ := h4
        simp only at h5
        exact ⟨c, w, cs', by rw [h1, h5], h2, h6, by simp⟩
      · rintro ⟨c, w, cs, h1, h2, h3, rfl⟩
        refine ⟨⟨false, w ++ cs, s.caps⟩, ⟨⟨c, w ++ cs, h1, h2, rfl⟩, by simp [h1]⟩, ?_⟩
        rw [ih (by simp only [h1, List.length_cons] at hn; simpa using hn)]
        exact ⟨w, cs, rfl, h3, by simp⟩
    have hmem : t ∈ starRun g (Re.cls p).run (n + 1) s ↔
        t ∈ (((Re.cls p).run s).filter fun t => t.rest.length < s.rest.length).flatMap (starRun g (Re.cls p).run n) ∨ t = s := by
      unfold starRun
      cases g <;> simp [or_comm]
    rw [hmem, hmore]
    constructor
    · rintro (⟨c, w, cs, h1, h2, h3, rfl⟩ | rfl)
      · refine ⟨c :: w, cs, by simp [h1], ?_, by simp⟩
        intro d hd
        rcases List.mem_cons.mp hd with rfl | hd
        · exact h2
        · exact h3 d hd
      · exact ⟨[], t.rest, by simp⟩
    · rintro ⟨w, cs, h1, h2, rfl⟩
      cases w with
      | nil => right; obtain ⟨b, rest, caps⟩ := s; simp at h1; simp [h1]
      | cons c w =>
        left
        exact ⟨c, w, cs, by simpa using h1, h2 c (by simp), fun d hd => h2 d (by simp [hd]), by simp⟩

theorem mem_star_cls {g : Bool} {p : Cls} {s t : St} :
    t ∈ (Re.star g (.cls p)).run s ↔
      ∃ w cs, s.rest = w ++ cs ∧ (∀ c ∈ w, p.test c = true) ∧ t = ⟨s.atStart && w.isEmpty, cs, s.caps⟩ := by
  unfold Re.run
  exact mem_starRun_cls (Nat.le_refl _)

theorem mem_ws {s t : St} :
    t ∈ reWs.run s ↔ ∃ w cs, s.rest = w ++ cs ∧ (∀ c ∈ w, isWhite c = true) ∧ t = ⟨s.atStart && w.isEmpty, cs, s.caps⟩ := by
  unfold reWs
  rw [mem_star_cls]; rfl

theorem take_append_sub {α : Type} (w cs : List α) : (w ++ cs).take ((w ++ cs).length - cs.length) = w := by
  simp

theorem mem_litSeq {l : Str} {r : Re} {s t : St} (hl : l ≠ []) :
    t ∈ (reLitSeq l r).run s ↔ ∃ cs, s.rest = l ++ cs ∧ t ∈ r.run ⟨false, cs, s.caps⟩ := by
  induction l generalizing s with
  | nil => exact absurd rfl hl
  | cons c l ih =>
    have : reLitSeq (c :: l) r = .seq (reChr c) (reLitSeq l r) := rfl
    rw [this, mem_seq]
    by_cases hl' : l = []
    · subst hl'
      have : reLitSeq [] r = r := rfl
      rw [this]
      constructor
      · rintro ⟨u, hu, ht⟩
        obtain ⟨cs, h1, rfl⟩ := mem_chr.mp hu
        exact ⟨cs, by simpa using h1, ht⟩
      · rintro ⟨cs, h1, ht⟩
        exact ⟨_, mem_chr.mpr ⟨cs, by simpa using h1, rfl⟩, ht⟩
    · constructor
      · rintro ⟨u, hu, ht⟩
        obtain ⟨cs, h1, rfl⟩ := mem_chr.mp hu
        obtain ⟨cs', h2, ht⟩ := (ih hl').mp ht
        simp only at h2
        exact ⟨cs', by simp [h1, h2], ht⟩
      · rintro ⟨cs, h1, ht⟩
        exact ⟨_, mem_chr.mpr ⟨l ++ cs, by simpa using h1, rfl⟩, (ih hl').mpr ⟨cs, rfl, ht⟩⟩

theorem reLit_eq (l : Str) (hl : l ≠ []) {s t : St} :
    t ∈ (reLit l).run s ↔ ∃ cs, s.rest = l ++ cs ∧ t = ⟨false, cs, s.caps⟩ := by
  induction l generalizing s with
  | nil => exact absurd rfl hl
  | cons c l ih =>
    cases l with
    | nil => simp [reLit, mem_chr]
    | cons d l =>
      have : reLit (c :: d :: l) = .seq (reChr c) (reLit (d :: l)) := rfl
      rw [this, mem_seq]
      constructor
      · rintro ⟨u, hu, ht⟩
        obtain ⟨cs, h1, rfl⟩ := mem_chr.mp hu
        obtain ⟨cs', h2, rfl⟩ := (ih (by simp)).mp ht
        simp only at h2
        exact ⟨cs', by simp [h1, h2], rfl⟩
      · rintro ⟨cs, h1, rfl⟩
        exact ⟨_, mem_chr.mpr ⟨d :: l ++ cs, by simpa using h1, rfl⟩, (ih (by simp)).mpr ⟨cs, rfl, rfl⟩⟩

end Verif
