import Verif.Lemmas.Counter
import Verif.Lemmas.Resume
import Verif.Props.Plural

/-! C83: the line counter has a limited number of bits. -/

namespace Verif
open Spec

theorem count_start {w : Nat} (hw : 1 ≤ w) (stream : List Event) (later : List (List Event)) :
    CountPeekRel w ⟨.new stream later, none⟩ ⟨.new w stream later, none⟩ := by
  have h : 2 ^ 1 ≤ 2 ^ w := Nat.pow_le_pow_right (by omega) hw
  refine ⟨⟨rfl, ?_, ?_⟩, rfl⟩
  · exact (Nat.mod_eq_of_lt (show 1 < 2 ^ w by omega)).symm
  · exact (decide_eq_false (show ¬ 2 ^ w ≤ 1 by omega)).symm

/-- **C83.** With a line counter of `w` bits that wraps, `parse()` and the iteration give the same header data and units, and the same errors, in which
the line number is the remainder modulo `2 ^ w`. -/
theorem C83_wrap (env : Env) {w : Nat} (hw : 1 ≤ w) (stream : List Event) (later : List (List Event)) :
    (∃ e, Fails (parseResuming env stream later) e ∧ Fails (parseCount w env stream later) (renumbered (· % 2 ^ w) e)) ∨
    ∃ hdr us e, Yields (parseResuming env stream later) hdr (results us e) ∧ Yields (parseCount w env stream later) hdr (results us (e.map (renumbered (· % 2 ^ w)))) := by
  obtain ⟨h1, h2⟩ := new_F count_srcF (Nat.zero_mod _) (order := id) (fun _ => .refl _) env _ _ (count_start hw stream later)
  rcases new_total env (⟨.new stream later, none⟩ : Peekable) with ⟨e, he⟩ | ⟨hdr, us, e, hy⟩
  · exact .inl ⟨e, he, h1 e he⟩
  · obtain ⟨hdr', h3, h4, h5⟩ := h2 hdr us e hy
    have hh : hdr' = hdr := by
      obtain ⟨a, b, c, d⟩ := hdr
      obtain ⟨a', b', c', d'⟩ := hdr'
      obtain ⟨g1, g2, _, g3⟩ := h3
      simp only [id] at g1 g2 g3 h4
      subst g1 g2 g3 h4
      rfl
    subst hh
    exact .inr ⟨_, us, e, hy, h5⟩

/-- **C83.** A stream that delivers fewer than `2 ^ w - 1` bytes does not make the counter overflow, whatever is called: a debug build does not panic. -/
theorem C83_debug {w : Nat} (hw : 1 ≤ w) {stream : List Event} {later : List (List Event)} (h : byteCount stream + (later.map byteCount).sum + 1 < 2 ^ w) :
    (∀ s, Reached (⟨.new w stream later, none⟩ : CountPeekable w) s → s.iter.over = false) ∧
    ∀ env r r', parseCount w env stream later = .ok r → Called r r' → r'.lines.iter.over = false := by
  have h1 : ∀ s, Reached (⟨.new w stream later, none⟩ : CountPeekable w) s → s.iter.over = false := by
    intro s hs
    obtain ⟨p, h1, h2⟩ := count_reached (count_start hw stream later) hs
    rw [h1.iter.over]
    have h3 : p.iter.n ≤ p.iter.room := Nat.le_add_right _ _
    have h4 : (⟨.new stream later, none⟩ : Peekable).iter.room = 1 + (0 + byteCount stream + (later.map byteCount).sum) := rfl
    simp only [decide_eq_false_iff_not]
    omega
  exact ⟨h1, fun env r r' hr ha => h1 _ (reader_reached hr ha)⟩

/-- **C83.** The bound is the best one: `2 ^ w - 1` line feeds make the counter overflow, as soon as the first line is asked for. -/
theorem C83_sharp {w : Nat} (hw : 1 ≤ w) : byteCount (List.replicate (2 ^ w - 1) (.data 10 [])) = 2 ^ w - 1 ∧
    (Src.peek (⟨.new w (List.replicate (2 ^ w - 1) (.data 10 [])) [], none⟩ : CountPeekable w)).2.iter.over = true := by
  constructor
  · generalize 2 ^ w - 1 = k
    induction k with
    | zero => rfl
    | succ k ih => rw [List.replicate_succ, byteCount, ih]; simp; omega
  · have h := (count_srcF.peek _ _ (count_start hw (List.replicate (2 ^ w - 1) (.data 10 [])) [])).2.iter.over
    rw [h]
    have : (Src.peek (⟨.new (List.replicate (2 ^ w - 1) (.data 10 [])) [], none⟩ : Peekable)).2.iter.n = 1 + (2 ^ w - 1) := next_feeds _ _
    rw [this]
    have : 0 < 2 ^ w := Nat.two_pow_pos w
    simp; omega

-- the sixth line is called the second by a counter with two bits
example : Fails (parseCount 2 demoEnv (textStream [c!"# a", c!"", c!"", c!"", c!"garbage"]) []) (.parse 2 (c!"garbage") []) := by
  have hf : Fails (parseResuming demoEnv (textStream [c!"# a", c!"", c!"", c!"", c!"garbage"]) []) (.parse 6 (c!"garbage") []) :=
    fails_text (env := demoEnv) (by decide) (by rfl)
  rcases C83_wrap demoEnv (w := 2) (by decide) (textStream [c!"# a", c!"", c!"", c!"", c!"garbage"]) [] with ⟨e, h1, h2⟩ | ⟨hdr, us, e, h1, _⟩
  · have := hf.symm.trans h1
    cases this
    exact h2
  · have := h1 0
    rw [hf] at this
    cases this

-- two lines do not make it overflow
example : ∀ s, Reached (⟨.new 3 (textStream [c!"#a", c!"#b"]) [], none⟩ : CountPeekable 3) s → s.iter.over = false :=
  (C83_debug (w := 3) (by decide) (by decide)).1

end Verif
