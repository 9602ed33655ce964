import Verif.Lemmas.Line
import Verif.Lemmas.Unescape
import Verif.Lemmas.List

/-! `parseLine` against the line grammar. -/

namespace Verif
open Spec

theorem find_bol_false (r : Re) (s : Str) : (Re.seq .bol r).find false s = none := by
  induction s with
  | nil => rw [find_eq]; simp [Re.run]
  | cons c cs ih => rw [find_eq]; simp [Re.run, ih]

theorem captures_bol (r : Re) (s : Str) : (Re.seq .bol r).captures s = (r.run ⟨true, s, []⟩).head? := by
  unfold Re.captures
  rw [find_eq]
  have : (Re.seq .bol r).run ⟨true, s, []⟩ = r.run ⟨true, s, []⟩ := by simp [Re.run]
  rw [this]
  cases h : r.run ⟨true, s, []⟩ with
  | cons t ts => simp
  | nil =>
    cases s with
    | nil => simp
    | cons c cs => simp [find_bol_false]

theorem messageRe_some {line : Str} {m k : Option Str} {raw : Str} (hl : '\n' ∉ line) (h : QuotedLine line m k raw) :
    messageRe.captures line = some ⟨false, [], quotedCaps m k raw⟩ := by
  have hrun : ∀ t, t ∈ messageRe.run ⟨true, line, []⟩ → t = ⟨false, [], quotedCaps m k raw⟩ := by
    intro t ht
    obtain ⟨m', k', raw', h', rfl⟩ := (mem_messageRe hl).mp ht
    obtain ⟨rfl, rfl, rfl⟩ := quotedLine_unique h h'
    rfl
  have hmem := (mem_messageRe hl).mpr ⟨m, k, raw, h, rfl⟩
  have hc : messageRe.captures line = (messageRe.run ⟨true, line, []⟩).head? := by
    unfold messageRe; rw [captures_bol]; simp [Re.run]
  rw [hc]
  cases hr : messageRe.run ⟨true, line, []⟩ with
  | nil => rw [hr] at hmem; simp at hmem
  | cons t ts => rw [List.head?_cons, hrun t (by rw [hr]; simp)]

theorem messageRe_none {line : Str} (hl : '\n' ∉ line) (h : ∀ m k raw, ¬ QuotedLine line m k raw) :
    messageRe.captures line = none := by
  have hc : messageRe.captures line = (messageRe.run ⟨true, line, []⟩).head? := by
    unfold messageRe; rw [captures_bol]; simp [Re.run]
  rw [hc, List.head?_eq_none_iff, List.eq_nil_iff_forall_not_mem]
  intro t ht
  obtain ⟨m, k, raw, hq, -⟩ := (mem_messageRe hl).mp ht
  exact h m k raw hq

/-! ### Greedy stars, in order -/

theorem run_star_cls_nil (g : Bool) (p : Cls) (b : Bool) (caps : List (Nat × Str)) :
    (Re.star g (.cls p)).run ⟨b, [], caps⟩ = [⟨b, [], caps⟩] := by
  simp [Re.run, starRun]

theorem run_star_cls_cons (p : Cls) (b : Bool) (c : Char) (cs : Str) (caps : List (Nat × Str)) :
    (Re.star true (.cls p)).run ⟨b, c :: cs, caps⟩ =
      if p.test c = true then (Re.star true (.cls p)).run ⟨false, cs, caps⟩ ++ [⟨b, c :: cs, caps⟩] else [⟨b, c :: cs, caps⟩] := by
  simp only [Re.run, List.length_cons, starRun]
  by_cases h : p.test c = true <;> simp [h]

/-- A greedy star followed by something that succeeds after the longest run: the longest run is taken. -/
theorem head?_star_flatMap {α : Type} (p : Cls) (b : Bool) (s : Str) (caps : List (Nat × Str)) (k : St → List α)
    (h : k ⟨b && (s.takeWhile p.test).isEmpty, s.dropWhile p.test, caps⟩ ≠ []) :
    (((Re.star true (.cls p)).run ⟨b, s, caps⟩).flatMap k).head? =
      (k ⟨b && (s.takeWhile p.test).isEmpty, s.dropWhile p.test, caps⟩).head? := by
  induction s generalizing b with
  | nil => rw [run_star_cls_nil]; simp
  | cons c cs ih =>
    rw [run_star_cls_cons]
    by_cases hc : p.test c = true
    · simp only [hc, if_true, List.flatMap_append, List.takeWhile_cons, List.dropWhile_cons] at h ⊢
      have h' := ih false (by simpa using h)
      have hne : ((Re.star true (.cls p)).run ⟨false, cs, caps⟩).flatMap k ≠ [] := by
        intro he
        rw [he] at h'
        simp only [List.head?_nil] at h'
        rw [eq_comm, List.head?_eq_none_iff] at h'
        exact h (by simpa using h')
      rw [head?_append_of_ne_nil' hne, h']
      simp
    · simp [hc]

/-- A greedy star followed by something that cannot start with a character of the star: the longest run is taken. -/
theorem star_flatMap_fail {α : Type} (p : Cls) (b : Bool) (s : Str) (caps : List (Nat × Str)) (k : St → List α)
    (h : ∀ b c cs, p.test c = true → k ⟨b, c :: cs, caps⟩ = []) :
    ((Re.star true (.cls p)).run ⟨b, s, caps⟩).flatMap k =
      k ⟨b && (s.takeWhile p.test).isEmpty, s.dropWhile p.test, caps⟩ := by
  induction s generalizing b with
  | nil => rw [run_star_cls_nil]; simp
  | cons c cs ih =>
    rw [run_star_cls_cons]
    by_cases hc : p.test c = true
    · simp only [hc, if_true, List.flatMap_append, List.takeWhile_cons, List.dropWhile_cons]
      rw [ih]
      simp [h b c cs hc]
    · simp [hc]

theorem run_dotstar {s : Str} (hs : '\n' ∉ s) (b : Bool) (caps : List (Nat × Str)) :
    ∃ b' l, (Re.seq (.cap 2 (.star true (.cls .any))) .eol).run ⟨b, s, caps⟩ = ⟨b', [], (2, s) :: caps⟩ :: l := by
  have hdrop : s.dropWhile Cls.any.test = [] := by
    rw [dropWhile_eq_nil_iff']
    intro c hc
    simp only [Cls.test, bne_iff_ne, ne_eq]
    rintro rfl; exact hs hc
  have hstar : ((Re.star true (.cls .any)).run ⟨b, s, caps⟩).head? = some ⟨b && (s.takeWhile Cls.any.test).isEmpty, [], caps⟩ := by
    have := head?_star_flatMap .any b s caps (fun t => [t]) (by simp)
    rw [hdrop] at this
    simpa using this
  obtain ⟨l, hl⟩ := List.head?_eq_some_iff.mp hstar
  refine ⟨b && (s.takeWhile Cls.any.test).isEmpty, ?_, ?_⟩
  rotate_left
  · rw [Re.run, Re.run, hl]
    simp only [List.map_cons, List.flatMap_cons, List.length_nil, Nat.sub_zero, List.take_length]
    rw [Re.run]
    simp only [List.isEmpty_nil, if_true, List.singleton_append]
    rfl

/-- The groups of a match of the comment pattern after `#`. -/
def commentCaps : Str → List (Nat × Str)
  | [] => [(2, [])]
  | c :: cs => [(2, cs.dropWhile isWhite), (1, [c])]

theorem commentRe_eq {line : Str} (hl : '\n' ∉ line) :
    (commentRe.captures line).map St.caps =
      match line.dropWhile isWhite with
      | '#' :: r => some (commentCaps r)
      | _ => none := by
  have tailRun : ∀ (b : Bool) (s : Str) (caps : List (Nat × Str)), '\n' ∉ s →
      ∃ b', ((Re.seq reWs (.seq (.cap 2 (.star true (.cls .any))) .eol)).run ⟨b, s, caps⟩).head? =
        some ⟨b', [], (2, s.dropWhile isWhite) :: caps⟩ := by
    intro b s caps hs
    have hs' : '\n' ∉ s.dropWhile isWhite := fun h => hs ((List.dropWhile_sublist _).mem h)
    obtain ⟨b', l, hl⟩ := run_dotstar hs' (b && (s.takeWhile isWhite).isEmpty) caps
    refine ⟨b', ?_⟩
    rw [Re.run]
    unfold reWs
    have := head?_star_flatMap .space b s caps (Re.run (Re.seq (.cap 2 (.star true (.cls .any))) .eol))
    have ht : Cls.space.test = isWhite := rfl
    rw [ht, hl] at this
    rw [this (by simp)]
    simp
  have restRun : ∀ (s : Str), '\n' ∉ s →
      ∃ b', ((Re.seq (.opt true (.cap 1 (.cls .any))) (Re.seq reWs (.seq (.cap 2 (.star true (.cls .any))) .eol))).run
        ⟨false, s, []⟩).head? = some ⟨b', [], commentCaps s⟩ := by
    intro s hs
    cases s with
    | nil =>
      obtain ⟨b', h⟩ := tailRun false [] [] (by simp)
      refine ⟨b', ?_⟩
      rw [Re.run]
      have : (Re.opt true (.cap 1 (.cls .any))).run ⟨false, [], []⟩ = [⟨false, [], []⟩] := by
        simp [Re.opt, Re.run]
      rw [this]
      simpa [commentCaps] using h
    | cons c cs =>
      obtain ⟨b', h⟩ := tailRun false cs [(1, [c])] (by simp_all)
      refine ⟨b', ?_⟩
      rw [Re.run]
      have hc : Cls.any.test c = true := by
        simp only [Cls.test, bne_iff_ne, ne_eq]
        rintro rfl; simp at hs
      have : (Re.opt true (.cap 1 (.cls .any))).run ⟨false, c :: cs, []⟩ = [⟨false, cs, [(1, [c])]⟩, ⟨false, c :: cs, []⟩] := by
        simp [Re.opt, Re.run, hc]
      rw [this, List.flatMap_cons, List.head?_append, h]
      simp [commentCaps]
  unfold commentRe
  rw [captures_bol, Re.run]
  unfold reWs
  rw [star_flatMap_fail]
  · have ht : Cls.space.test = isWhite := rfl
    rw [ht]
    generalize hb : (true && (line.takeWhile isWhite).isEmpty) = b
    have hd : '\n' ∉ line.dropWhile isWhite := fun h => hl ((List.dropWhile_sublist _).mem h)
    cases hdr : line.dropWhile isWhite with
    | nil => simp [Re.run, reChr]
    | cons c r =>
      rw [hdr] at hd
      by_cases hc : c = '#'
      · subst hc
        obtain ⟨b', h⟩ := restRun r (by simp_all)
        have h1 : (reChr '#').run ⟨b, '#' :: r, []⟩ = [⟨false, r, []⟩] := by
          simp [reChr, Re.run, Cls.test]
        rw [Re.run, h1]
        unfold reWs at h
        simp only [List.flatMap_cons, List.flatMap_nil, List.append_nil, h, Option.map_some]
      · have h1 : (reChr '#').run ⟨b, c :: r, []⟩ = [] := by
          simp [reChr, Re.run, Cls.test, hc]
        rw [Re.run, h1]
        simp [hc]
  · intro b c cs hc
    have hne : c ≠ '#' := by
      rintro rfl
      revert hc; decide
    have h1 : (reChr '#').run ⟨b, c :: cs, []⟩ = [] := by
      simp [reChr, Re.run, Cls.test, hne]
    rw [Re.run, h1]
    simp

theorem not_blank_iff {line : Str} : (line.any fun c => !isWhite c) = true ↔ ¬ White line := by
  simp [White]

theorem quotedLine_not_white {line : Str} {m k : Option Str} {raw : Str} (h : QuotedLine line m k raw) : ¬ White line := by
  obtain ⟨-, -, w1, w2, w3, w4, -, -, -, -, rfl⟩ := h
  intro h
  have := h '"' (by simp)
  rw [isWhite_quote] at this
  cases this

theorem getLast?_marker {m : Str} (h : IsMarker m) : m.getLast? = some '|' ↔ '|' ∈ m := by
  rcases h with rfl | rfl | rfl | rfl <;> simp

/-- The parsed line of a quoted line. -/
def quotedResult (n : Nat) (m k : Option Str) (raw : Str) : PoLine :=
  match k with
  | none => .continuation n (m.getD []) (unesc raw)
  | some k => .message n (m.getD []) (if '|' ∈ m.getD [] then '|' :: k else k) (unesc raw)

theorem parseLine_blank {line : Str} (n : Nat) (h : White line) : parseLine line n = some .blank := by
  unfold parseLine
  have : (line.any fun c => !isWhite c) = false := by simpa [White] using h
  simp [this]

theorem parseLine_quoted {line : Str} (n : Nat) (hl : '\n' ∉ line) {m k : Option Str} {raw : Str} (h : QuotedLine line m k raw) :
    parseLine line n = some (quotedResult n m k raw) := by
  unfold parseLine
  have hb := not_blank_iff.mpr (quotedLine_not_white h)
  simp only [hb, Bool.not_true, Bool.false_eq_true, if_false, messageRe_some hl h, unescape_eq]
  have h3 : (St.mk false [] (quotedCaps m k raw)).get 3 = some raw := by simp [St.get, quotedCaps]
  have h2 : (St.mk false [] (quotedCaps m k raw)).get 2 = k := by
    cases k <;> cases m <;> simp [St.get, quotedCaps, pushCap, List.lookup]
  have h1 : (St.mk false [] (quotedCaps m k raw)).get 1 = m := by
    cases k <;> cases m <;> simp [St.get, quotedCaps, pushCap, List.lookup]
  rw [h1, h2, h3]
  cases k with
  | none => simp [quotedResult]
  | some k =>
    simp only [quotedResult, Option.getD_some]
    have : (m.getD []).getLast? = some '|' ↔ '|' ∈ m.getD [] := by
      cases m with
      | none => simp
      | some m => exact getLast?_marker (h.1 m rfl)
    simp only [this]

theorem parseLine_comment {line : Str} (n : Nat) (hl : '\n' ∉ line) (hq : ∀ m k raw, ¬ QuotedLine line m k raw)
    {r : Str} (h : line.dropWhile isWhite = '#' :: r) :
    parseLine line n = some (.comment n (r.head?.getD ' ') ((r.drop 1).dropWhile isWhite)) := by
  unfold parseLine
  have hw : ¬ White line := by
    intro hw
    have : line.dropWhile isWhite = [] := by rw [dropWhile_eq_nil_iff']; exact hw
    rw [this] at h; cases h
  have hc := commentRe_eq hl
  rw [h] at hc
  simp only [Option.map_eq_some_iff] at hc
  obtain ⟨t, ht, hcaps⟩ := hc
  simp only [not_blank_iff.mpr hw, Bool.not_true, Bool.false_eq_true, if_false, messageRe_none hl hq, ht]
  simp only [St.get, hcaps]
  cases r with
  | nil => simp [commentCaps, List.lookup]
  | cons c cs => simp [commentCaps, List.lookup]

theorem parseLine_none {line : Str} (n : Nat) (hl : '\n' ∉ line) (hw : ¬ White line) (hq : ∀ m k raw, ¬ QuotedLine line m k raw)
    (h : ∀ r, line.dropWhile isWhite ≠ '#' :: r) : parseLine line n = none := by
  unfold parseLine
  have hc := commentRe_eq hl
  have : commentRe.captures line = none := by
    split at hc
    · rename_i r heq; exact absurd heq (h r)
    · simpa using hc
  simp [not_blank_iff.mpr hw, messageRe_none hl hq, this]

end Verif
