import Verif.Lemmas.Regex
import Verif.Spec.ValueList

/-! Value lists: the regular expressions read the specified pairs. -/

namespace Verif
open Spec

/-! ### Ordered runs -/

theorem head_seq (a b : Re) (s : St) : ((Re.seq a b).run s).head? = (a.run s).findSome? fun u => (b.run u).head? := by
  rw [Re.run, List.head?_flatMap]

theorem run_cls (p : Cls) (b : Bool) (r : Str) (caps : List (Nat × Str)) :
    (Re.cls p).run ⟨b, r, caps⟩ = match r with | [] => [] | c :: cs => if p.test c then [⟨false, cs, caps⟩] else [] := by
  cases r <;> rfl

theorem run_lazy (p : Cls) (b : Bool) (r : Str) (caps : List (Nat × Str)) :
    (Re.star false (.cls p)).run ⟨b, r, caps⟩ =
      ⟨b, r, caps⟩ :: match r with | [] => [] | c :: cs => if p.test c then (Re.star false (.cls p)).run ⟨false, cs, caps⟩ else [] := by
  cases r with
  | nil => simp [Re.run, starRun]
  | cons c cs =>
    by_cases h : p.test c = true <;> simp [Re.run, starRun, h]

theorem run_greedy (p : Cls) (b : Bool) (r : Str) (caps : List (Nat × Str)) :
    (Re.star true (.cls p)).run ⟨b, r, caps⟩ =
      (match r with | [] => [] | c :: cs => if p.test c then (Re.star true (.cls p)).run ⟨false, cs, caps⟩ else []) ++ [⟨b, r, caps⟩] := by
  cases r with
  | nil => simp [Re.run, starRun]
  | cons c cs =>
    by_cases h : p.test c = true <;> simp [Re.run, starRun, h]

/-- White space, then something that does not start with white space. -/
theorem find_ws (K : St → Option St) (hK : ∀ b c cs caps, isWhite c = true → K ⟨b, c :: cs, caps⟩ = none) (b : Bool) (r : Str) (caps : List (Nat × Str)) :
    ∃ b', (reWs.run ⟨b, r, caps⟩).findSome? K = K ⟨b', trimStart r, caps⟩ := by
  induction r generalizing b with
  | nil => exact ⟨b, by simp [reWs, run_greedy, trimStart]⟩
  | cons c cs ih =>
    rw [reWs, run_greedy, List.findSome?_append]
    simp only [Cls.test]
    by_cases hc : isWhite c = true
    · obtain ⟨b', h⟩ := ih false
      refine ⟨b', ?_⟩
      simp only [hc, if_true]
      rw [← reWs, h]
      simp [trimStart, hc, hK]
    · exact ⟨b, by simp [hc, trimStart]⟩

/-! ### `\s*;` -/

theorem isWhite_semi : isWhite ';' = false := by decide
theorem isWhite_eq : isWhite '=' = false := by decide

/-- The text after a `;`. -/
def afterSemi : Str → Option Str
  | [] => none
  | c :: cs => if c = ';' then some cs else none

theorem afterSemi_iff {s r : Str} : afterSemi s = some r ↔ s = ';' :: r := by
  cases s with
  | nil => simp [afterSemi]
  | cons c cs =>
    rw [afterSemi]
    split
    · rename_i h; simp [h]
    · rename_i h; simp [h]

theorem afterSemi_none {s : Str} (h : afterSemi s = none) (r : Str) : s ≠ ';' :: r := fun e => by
  rw [afterSemi_iff.mpr e] at h; cases h

def reSemi : Re := .seq reWs (reChr ';')

theorem head_chr (d : Char) (b : Bool) (r : Str) (caps : List (Nat × Str)) :
    ((reChr d).run ⟨b, r, caps⟩).head? = match r with | [] => none | c :: cs => if c = d then some ⟨false, cs, caps⟩ else none := by
  rw [reChr, run_cls]
  cases r with
  | nil => rfl
  | cons c cs =>
    by_cases h : c = d <;> simp [Cls.test, h]

theorem head_semi (b : Bool) (r : Str) (caps : List (Nat × Str)) :
    (reSemi.run ⟨b, r, caps⟩).head? = (afterSemi (trimStart r)).map fun cs => ⟨false, cs, caps⟩ := by
  rw [reSemi, head_seq]
  obtain ⟨b', h⟩ := find_ws (fun u => ((reChr ';').run u).head?) (by
    intro b c cs caps hc
    simp only [head_chr]
    rw [if_neg]
    rintro rfl
    rw [isWhite_semi] at hc; cases hc) b r caps
  rw [h, head_chr]
  cases trimStart r with
  | nil => rfl
  | cons c cs => simp only [afterSemi]; split <;> rfl

/-! ### The value -/

/-- One step of `scanValue`. -/
def scanStep (c : Char) (here : Option Str) (next : Option (Str × Str)) : Option (Str × Str) :=
  match here with
  | some rest => some ([], rest)
  | none => if c = '\n' then none else next.map fun p => (c :: p.1, p.2)

/-- What `(.*?)\s*;` captures and leaves. -/
def scanValue : Str → Option (Str × Str)
  | [] => none
  | c :: cs => scanStep c (afterSemi (trimStart (c :: cs))) (scanValue cs)

theorem scanValue_cons (c : Char) (cs : Str) : scanValue (c :: cs) = scanStep c (afterSemi (trimStart (c :: cs))) (scanValue cs) := rfl

theorem trimEnd_nil : trimEnd [] = [] := rfl

theorem trimEnd_cons (c : Char) (s : Str) : trimEnd (c :: s) = if trimEnd s = [] then (if isWhite c then [] else [c]) else c :: trimEnd s := by
  have : trimEnd (c :: s) = ((s.reverse ++ [c]).dropWhile isWhite).reverse := by simp [trimEnd]
  rw [this, List.dropWhile_append]
  simp only [trimEnd, List.reverse_eq_nil_iff, List.isEmpty_iff]
  split
  · by_cases hc : isWhite c = true <;> simp [hc]
  · simp

theorem trimEnd_eq_nil {s : Str} : trimEnd s = [] ↔ White s := by
  induction s with
  | nil => simp [trimEnd_nil, White]
  | cons c s ih =>
    rw [trimEnd_cons]
    by_cases h : trimEnd s = []
    · rw [if_pos h]
      have hs := ih.mp h
      by_cases hc : isWhite c = true
      · simp only [hc, if_true, true_iff]
        exact fun x hx => (List.mem_cons.mp hx).elim (fun e => e ▸ hc) (hs x)
      · simp only [hc, Bool.false_eq_true, if_false, reduceCtorEq, false_iff]
        exact fun h => hc (h c (List.mem_cons_self ..))
    · rw [if_neg h]
      simp only [reduceCtorEq, false_iff]
      exact fun hw => h (ih.mpr fun x hx => hw x (List.mem_cons_of_mem _ hx))

theorem trimStart_cases (s : Str) : ∃ a, White a ∧ s = a ++ trimStart s ∧ (trimStart s).head?.all (fun c => !isWhite c) = true := by
  refine ⟨s.takeWhile isWhite, fun c hc => List.all_eq_true.mp (List.all_takeWhile (p := isWhite) (l := s)) c hc, (List.takeWhile_append_dropWhile ..).symm, ?_⟩
  have := List.head?_dropWhile_not isWhite s
  unfold trimStart
  cases h : (List.dropWhile isWhite s).head? with
  | none => rfl
  | some c => simp [h] at this; simp [this]

theorem trimStart_append {a : Str} (ha : White a) (s : Str) : trimStart (a ++ s) = trimStart s := by
  induction a with
  | nil => rfl
  | cons c a ih =>
    have := ha c (List.mem_cons_self ..)
    rw [List.cons_append, trimStart, List.dropWhile_cons, if_pos this]
    exact ih fun x hx => ha x (List.mem_cons_of_mem _ hx)

theorem trimStart_solid {c : Char} (hc : isWhite c = false) (s : Str) : trimStart (c :: s) = c :: s := by
  simp [trimStart, hc]

theorem scanValue_iff {r v rest : Str} : scanValue r = some (v, rest) ↔ ∃ z, r = z ++ ';' :: rest ∧ ';' ∉ z ∧ v = trimEnd z ∧ '\n' ∉ v := by
  induction r generalizing v with
  | nil => simp [scanValue]
  | cons c cs ih =>
    rw [scanValue_cons, scanStep.eq_def]
    obtain ⟨a, ha, hs, hh⟩ := trimStart_cases (c :: cs)
    split
    · rename_i rest' h
      have h := afterSemi_iff.mp h
      rw [h] at hs
      have hna : ';' ∉ a := fun hm => by have := ha _ hm; rw [isWhite_semi] at this; cases this
      constructor
      · intro he
        cases he
        exact ⟨a, hs, hna, (trimEnd_eq_nil.mpr ha).symm, by simp⟩
      · rintro ⟨z, hz, hnz, rfl, _⟩
        have e : a ++ ';' :: rest' = z ++ ';' :: rest := hs.symm.trans hz
        have : a = z ∧ rest' = rest := by
          rcases List.append_eq_append_iff.mp e with ⟨m, h1, h2⟩ | ⟨m, h1, h2⟩
          · cases m with
            | nil => simp at h1 h2; exact ⟨h1.symm, h2⟩
            | cons x m => simp at h2; rw [← h2.1] at h1; exact absurd (by rw [h1]; simp) hnz
          · cases m with
            | nil => simp at h1 h2; exact ⟨h1, h2.symm⟩
            | cons x m => simp at h2; rw [← h2.1] at h1; exact absurd (by rw [h1]; simp) hna
        rw [← this.1, trimEnd_eq_nil.mpr ha, this.2]
    · rename_i hns
      have hns := afterSemi_none hns
      by_cases hc : c = '\n'
      · rw [if_pos hc]
        simp only [reduceCtorEq, false_iff]
        rintro ⟨z, hz, hnz, rfl, hnl⟩
        cases z with
        | nil => simp at hz; rw [hz.1] at hc; cases hc
        | cons x z =>
          simp at hz
          obtain ⟨rfl, rfl⟩ := hz
          rw [trimEnd_cons, hc] at hnl
          split at hnl
          · rename_i hz
            have hw := trimEnd_eq_nil.mp hz
            refine hns rest ?_
            rw [hc, trimStart, List.dropWhile_cons, if_pos (by decide)]
            exact (trimStart_append hw _).trans (trimStart_solid isWhite_semi _)
          · simp at hnl
      · rw [if_neg hc]
        simp only [Option.map_eq_some_iff, Prod.mk.injEq, Prod.exists]
        constructor
        · rintro ⟨v', r', h, rfl, rfl⟩
          obtain ⟨z, rfl, hnz, rfl, hnl⟩ := ih.mp h
          have hcs : c ≠ ';' := by
            rintro rfl
            exact hns _ (trimStart_solid isWhite_semi _)
          refine ⟨c :: z, rfl, by simp [hnz, Ne.symm hcs], ?_, by simp [hnl, Ne.symm hc]⟩
          rw [trimEnd_cons]
          split
          · rename_i hz
            rw [hz]
            split
            · rename_i hw
              exfalso
              refine hns r' ?_
              rw [trimStart, List.dropWhile_cons, if_pos hw]
              exact (trimStart_append (trimEnd_eq_nil.mp hz) _).trans (trimStart_solid isWhite_semi _)
            · rfl
          · rfl
        · rintro ⟨z, hz, hnz, rfl, hnl⟩
          cases z with
          | nil =>
            simp at hz
            exact absurd (by rw [hz.1]; exact trimStart_solid isWhite_semi _) (hns cs)
          | cons x z =>
            simp only [List.cons_append, List.cons.injEq] at hz
            obtain ⟨rfl, rfl⟩ := hz
            simp only [List.mem_cons, not_or] at hnz
            refine ⟨trimEnd z, rest, ih.mpr ⟨z, rfl, hnz.2, rfl, ?_⟩, ?_, rfl⟩
            · intro hm
              apply hnl
              rw [trimEnd_cons]
              split
              · rename_i h; rw [h] at hm; simp at hm
              · exact List.mem_cons_of_mem _ hm
            · rw [trimEnd_cons]
              split
              · rename_i hz
                rw [hz]
                split
                · rename_i hw
                  exfalso
                  refine hns rest ?_
                  rw [trimStart, List.dropWhile_cons, if_pos hw]
                  exact (trimStart_append (trimEnd_eq_nil.mp hz) _).trans (trimStart_solid isWhite_semi _)
                · rfl
              · rfl

def reValue : Re := .seq (.cap 2 (.star false (.cls .any))) reSemi

theorem find_value (caps : List (Nat × Str)) (pre r : Str) (b : Bool) :
    ((Re.star false (.cls .any)).run ⟨b, r, caps⟩).findSome?
        (fun u => (reSemi.run ⟨u.atStart, u.rest, (2, (pre ++ r).take ((pre ++ r).length - u.rest.length)) :: u.caps⟩).head?) =
      (scanValue r).map fun p => ⟨false, p.2, (2, pre ++ p.1) :: caps⟩ := by
  induction r generalizing pre b with
  | nil => simp [run_lazy, head_semi, scanValue, trimStart, afterSemi]
  | cons c cs ih =>
    rw [run_lazy, List.findSome?_cons]
    simp only [head_semi]
    rw [scanValue_cons, scanStep.eq_def]
    cases h : afterSemi (trimStart (c :: cs)) with
    | some rest => simp
    | none =>
      simp only [Option.map_none]
      have ht : Cls.any.test c = decide (c ≠ '\n') := by simp [Cls.test, bne, BEq.beq]
      simp only [ht]
      by_cases hc : c = '\n'
      · simp [hc]
      · have := ih (pre ++ [c]) false
        rw [List.append_assoc, List.singleton_append] at this
        simp only [hc, ne_eq, not_false_eq_true, decide_true, if_true, if_false]
        simp only [head_semi] at this
        rw [this]
        simp [Option.map_map, Function.comp_def]

theorem head_value (b : Bool) (r : Str) (caps : List (Nat × Str)) :
    (reValue.run ⟨b, r, caps⟩).head? = (scanValue r).map fun p => ⟨false, p.2, (2, p.1) :: caps⟩ := by
  rw [reValue, head_seq, Re.run, List.findSome?_map]
  exact find_value caps [] r b

/-- What `\s*(.*?)\s*;` captures and leaves. -/
theorem head_wsValue (b : Bool) (r : Str) (caps : List (Nat × Str)) :
    ((Re.seq reWs reValue).run ⟨b, r, caps⟩).head? = (scanValue (trimStart r)).map fun p => ⟨false, p.2, (2, p.1) :: caps⟩ := by
  rw [head_seq]
  induction r generalizing b with
  | nil => simp [reWs, run_greedy, head_value, trimStart]
  | cons c cs ih =>
    rw [reWs, run_greedy, List.findSome?_append]
    simp only [Cls.test]
    by_cases hc : isWhite c = true
    · simp only [hc, if_true]
      have e : trimStart (c :: cs) = trimStart cs := by simp [trimStart, hc]
      have := ih false
      rw [reWs] at this
      rw [this, e]
      cases h : scanValue (trimStart cs) with
      | some p => simp
      | none =>
        simp only [Option.map_none, Option.none_or, List.findSome?_cons, List.findSome?_nil, head_value]
        cases h' : scanValue (c :: cs) with
        | none => rfl
        | some p =>
          exfalso
          obtain ⟨z, hz, hnz, _, hnl⟩ := scanValue_iff.mp h'
          cases z with
          | nil => simp at hz; rw [hz.1] at hc; revert hc; decide
          | cons x z =>
            simp only [List.cons_append, List.cons.injEq] at hz
            obtain ⟨rfl, rfl⟩ := hz
            obtain ⟨a, ha, hs, _⟩ := trimStart_cases z
            have e2 : trimStart (z ++ ';' :: p.2) = trimStart z ++ ';' :: p.2 := by
              conv => lhs; rw [hs]
              rw [List.append_assoc, trimStart_append ha]
              cases ht : trimStart z with
              | nil => exact trimStart_solid isWhite_semi _
              | cons y ys =>
                rename_i hh
                rw [ht] at hh
                exact trimStart_solid (by simpa using hh) _
            have : scanValue (trimStart (z ++ ';' :: p.2)) = some (trimEnd (trimStart z), p.2) := by
              rw [e2]
              refine scanValue_iff.mpr ⟨trimStart z, rfl, ?_, rfl, ?_⟩
              · intro hm
                apply hnz
                exact List.mem_cons_of_mem _ (by rw [hs]; exact List.mem_append_right _ hm)
              · intro hm
                apply hnl
                rename_i hp _
                rw [hp]
                have h1 : ∀ (a z : Str), '\n' ∈ trimEnd z → '\n' ∈ trimEnd (a ++ z) := by
                  intro a
                  induction a with
                  | nil => exact fun z h => h
                  | cons y a ih =>
                    intro z hz
                    have := ih z hz
                    rw [List.cons_append, trimEnd_cons, if_neg]
                    · exact List.mem_cons_of_mem _ this
                    · intro h; rw [h] at this; simp at this
                have := h1 (c :: a) _ hm
                rwa [List.cons_append, ← hs] at this
            rw [this] at h
            cases h
    · have e : trimStart (c :: cs) = c :: cs := by simp [trimStart, hc]
      simp [hc, e, head_value]

/-! ### Values and pairs -/

theorem trimEnd_split (s : Str) : ∃ b, White b ∧ s = trimEnd s ++ b := by
  induction s with
  | nil => exact ⟨[], (fun _ h => nomatch h), rfl⟩
  | cons c s ih =>
    obtain ⟨b, hb, hs⟩ := ih
    rw [trimEnd_cons]
    split
    · rename_i h
      have hw := trimEnd_eq_nil.mp h
      split
      · rename_i hc
        exact ⟨c :: s, fun x hx => (List.mem_cons.mp hx).elim (fun e => e ▸ hc) (hw x), rfl⟩
      · exact ⟨s, hw, rfl⟩
    · exact ⟨b, hb, by rw [List.cons_append, ← hs]⟩

theorem trimEnd_last (s : Str) : ∀ c, (trimEnd s).getLast? = some c → isWhite c = false := by
  induction s with
  | nil => intro c h; cases h
  | cons x s ih =>
    intro c h
    rw [trimEnd_cons] at h
    split at h
    · split at h
      · cases h
      · rename_i hx
        simp at h
        rw [← h]
        simpa using hx
    · rename_i hs
      refine ih c ?_
      rwa [List.getLast?_cons_of_ne_nil hs] at h

theorem trimEnd_append_white {b : Str} (hb : White b) (s : Str) : trimEnd (s ++ b) = trimEnd s := by
  induction s with
  | nil => exact trimEnd_eq_nil.mpr hb
  | cons c s ih => rw [List.cons_append, trimEnd_cons, ih, ← trimEnd_cons]

theorem trimEnd_of_last {s : Str} (h : ∀ c, s.getLast? = some c → isWhite c = false) : trimEnd s = s := by
  induction s with
  | nil => rfl
  | cons c s ih =>
    rw [trimEnd_cons]
    cases s with
    | nil =>
      have := h c rfl
      simp [trimEnd_nil, this]
    | cons d s =>
      have hd := ih (fun x hx => h x (by rw [List.getLast?_cons_of_ne_nil (by simp)]; exact hx))
      rw [hd, if_neg (by simp)]

theorem valueAt_iff {y v rest : Str} : ValueAt y v rest ↔ scanValue (trimStart y) = some (v, rest) := by
  rw [scanValue_iff]
  constructor
  · rintro ⟨a, b, ha, hb, rfl, h1, ⟨h2, h3⟩, h4⟩
    rw [trimStart_append ha]
    cases v with
    | nil =>
      exact ⟨[], by rw [List.nil_append, trimStart_append hb]; exact trimStart_solid isWhite_semi _, by simp, rfl, by simp⟩
    | cons c v =>
      refine ⟨(c :: v) ++ b, ?_, ?_, ?_, h4⟩
      · rw [List.append_assoc, List.cons_append, trimStart_solid (h2 c rfl)]
      · intro hm
        rcases List.mem_append.mp hm with hm | hm
        · exact h1 hm
        · have := hb _ hm; rw [isWhite_semi] at this; cases this
      · rw [trimEnd_append_white hb, trimEnd_of_last h3]
  · rintro ⟨z, h1, h2, rfl, h3⟩
    obtain ⟨a, ha, hy, hh⟩ := trimStart_cases y
    obtain ⟨b, hb, hz⟩ := trimEnd_split z
    refine ⟨a, b, ha, hb, ?_, ?_, ⟨?_, trimEnd_last z⟩, h3⟩
    · rw [hy, h1]
      congr 1
      rw [← List.append_assoc, ← hz]
    · exact fun hm => h2 (by rw [hz]; exact List.mem_append_left _ hm)
    · intro c hc
      rw [h1, hz] at hh
      cases ht : trimEnd z with
      | nil => rw [ht] at hc; cases hc
      | cons x t =>
        rw [ht] at hc hh
        simp at hc hh
        rw [← hc]; exact hh

/-- What `\s*=\s*(.*?)\s*;` captures and leaves. -/
def scanTail (r : Str) : Option (Str × Str) :=
  match trimStart r with
  | [] => none
  | c :: y => if c = '=' then scanValue (trimStart y) else none

theorem scanTail_iff {r v rest : Str} : scanTail r = some (v, rest) ↔ ∃ w y, White w ∧ r = w ++ '=' :: y ∧ ValueAt y v rest := by
  obtain ⟨a, ha, hr, hh⟩ := trimStart_cases r
  constructor
  · intro h
    rw [scanTail] at h
    split at h
    · cases h
    · rename_i c y hc
      split at h
      · rename_i he
        subst he
        exact ⟨a, y, ha, by rw [hr, hc], valueAt_iff.mpr h⟩
      · cases h
  · rintro ⟨w, y, hw, rfl, hv⟩
    rw [scanTail, trimStart_append hw, trimStart_solid isWhite_eq]
    simpa using valueAt_iff.mp hv

def reTail : Re := .seq reWs <| .seq (reChr '=') <| .seq reWs reValue

theorem head_tail (b : Bool) (r : Str) (caps : List (Nat × Str)) :
    (reTail.run ⟨b, r, caps⟩).head? = (scanTail r).map fun p => ⟨false, p.2, (2, p.1) :: caps⟩ := by
  have hE : ∀ b r caps, ((Re.seq (reChr '=') (.seq reWs reValue)).run ⟨b, r, caps⟩).head? =
      match r with | [] => none | c :: y => if c = '=' then (scanValue (trimStart y)).map fun p => ⟨false, p.2, (2, p.1) :: caps⟩ else none := by
    intro b r caps
    rw [head_seq, reChr, run_cls]
    cases r with
    | nil => rfl
    | cons c y =>
      by_cases h : c = '='
      · simp only [Cls.test, h, BEq.rfl, if_true, List.findSome?_cons, List.findSome?_nil, head_wsValue]
        cases scanValue (trimStart y) <;> rfl
      · simp [Cls.test, h]
  rw [reTail, head_seq]
  obtain ⟨b', h⟩ := find_ws (fun u => ((Re.seq (reChr '=') (.seq reWs reValue)).run u).head?) (by
    intro b c cs caps hc
    simp only [hE]
    rw [if_neg]
    rintro rfl
    rw [isWhite_eq] at hc; cases hc) b r caps
  rw [h, hE, scanTail]
  cases trimStart r with
  | nil => rfl
  | cons c y => dsimp only; split <;> rfl

/-! ### The key -/

/-- One step of `scanKey`. -/
def keyStep (c : Char) (here : Option (Str × Str)) (next : Option (Str × Str × Str)) : Option (Str × Str × Str) :=
  match here with
  | some p => some ([], p)
  | none => if isWhite c then none else next.map fun p => (c :: p.1, p.2)

/-- The shortest key (without its first character) and what follows it. -/
def scanKey : Str → Option (Str × Str × Str)
  | [] => none
  | c :: cs => keyStep c (scanTail (c :: cs)) (scanKey cs)

theorem scanKey_cons (c : Char) (cs : Str) : scanKey (c :: cs) = keyStep c (scanTail (c :: cs)) (scanKey cs) := rfl

theorem scanTail_nil : scanTail [] = none := rfl

theorem scanKey_some {r k v rest : Str} (h : scanKey r = some (k, v, rest)) :
    Solid k ∧ (∃ r', r = k ++ r' ∧ scanTail r' = some (v, rest)) ∧
    ∀ k' r', r = k' ++ r' → scanTail r' ≠ none → k.length ≤ k'.length := by
  induction r generalizing k with
  | nil => cases h
  | cons c cs ih =>
    rw [scanKey_cons, keyStep.eq_def] at h
    split at h
    · rename_i p hp
      cases h
      exact ⟨(fun _ h => nomatch h), ⟨_, rfl, hp⟩, fun _ _ _ _ => Nat.zero_le _⟩
    · rename_i hp
      split at h
      · cases h
      · rename_i hc
        simp only [Option.map_eq_some_iff, Prod.mk.injEq, Prod.exists] at h
        obtain ⟨k', v', r', h, rfl, rfl, rfl⟩ := h
        obtain ⟨h1, ⟨t, h2, h3⟩, h4⟩ := ih h
        refine ⟨?_, ⟨t, by rw [h2, List.cons_append], h3⟩, ?_⟩
        · intro x hx
          rcases List.mem_cons.mp hx with rfl | hx
          · simpa using hc
          · exact h1 x hx
        · intro k'' r'' he hne
          cases k'' with
          | nil => rw [List.nil_append] at he; rw [← he] at hne; exact absurd hp hne
          | cons x k'' =>
            simp only [List.cons_append, List.cons.injEq] at he
            simp only [List.length_cons]
            have := h4 k'' r'' he.2 hne
            omega

theorem scanKey_none {r : Str} (h : scanKey r = none) (k r' : Str) (hk : Solid k) (hr : r = k ++ r') : scanTail r' = none := by
  induction r generalizing k with
  | nil =>
    simp at hr
    rw [hr.2]; rfl
  | cons c cs ih =>
    rw [scanKey_cons, keyStep.eq_def] at h
    split at h
    · cases h
    · rename_i hp
      cases k with
      | nil => rw [List.nil_append] at hr; rw [← hr]; exact hp
      | cons x k =>
        simp only [List.cons_append, List.cons.injEq] at hr
        have hx : isWhite c = false := by rw [hr.1]; exact hk x (List.mem_cons_self ..)
        rw [hx] at h
        simp only [Bool.false_eq_true, if_false, Option.map_eq_none_iff] at h
        exact ih h k (fun y hy => hk y (List.mem_cons_of_mem _ hy)) hr.2

theorem find_key (caps : List (Nat × Str)) (pre r : Str) (b : Bool) :
    ((Re.star false (.cls .nonSpace)).run ⟨b, r, caps⟩).findSome?
        (fun u => (reTail.run ⟨u.atStart, u.rest, (1, (pre ++ r).take ((pre ++ r).length - u.rest.length)) :: u.caps⟩).head?) =
      (scanKey r).map fun p => ⟨false, p.2.2, (2, p.2.1) :: (1, pre ++ p.1) :: caps⟩ := by
  induction r generalizing pre b with
  | nil => simp [run_lazy, head_tail, scanKey, scanTail_nil]
  | cons c cs ih =>
    rw [run_lazy, List.findSome?_cons]
    simp only [head_tail]
    rw [scanKey_cons, keyStep.eq_def]
    cases h : scanTail (c :: cs) with
    | some p => simp
    | none =>
      simp only [Option.map_none]
      by_cases hc : isWhite c = true
      · simp [Cls.test, hc]
      · have := ih (pre ++ [c]) false
        rw [List.append_assoc, List.singleton_append] at this
        simp only [head_tail] at this
        simp only [Cls.test, hc, Bool.not_false, if_true, Bool.false_eq_true, if_false]
        rw [this]
        simp [Option.map_map, Function.comp_def]

theorem head_map (b : Bool) (r : Str) (caps : List (Nat × Str)) :
    (mapRe.run ⟨b, r, caps⟩).head? =
      match r with
      | [] => none
      | c :: cs => if isWhite c then none else (scanKey cs).map fun p => ⟨false, p.2.2, (2, p.2.1) :: (1, c :: p.1) :: caps⟩ := by
  have e : mapRe = .seq (.cap 1 (.plus false (.cls .nonSpace))) reTail := rfl
  rw [e, head_seq]
  cases r with
  | nil => simp [Re.run, Re.plus]
  | cons c cs =>
    rw [Re.run, Re.plus, Re.run, run_cls]
    by_cases hc : isWhite c = true
    · simp [Cls.test, hc]
    · simp only [Cls.test, hc, Bool.not_false, if_true, Bool.false_eq_true, if_false, List.flatMap_cons, List.flatMap_nil, List.append_nil]
      rw [List.findSome?_map]
      exact find_key caps [c] cs false

theorem head_map_some {b : Bool} {s : Str} {t : St} (h : (mapRe.run ⟨b, s, []⟩).head? = some t) :
    ∃ k v rest, FirstPair s k v rest ∧ t = ⟨false, rest, [(2, v), (1, k)]⟩ := by
  rw [head_map] at h
  cases s with
  | nil => cases h
  | cons c cs =>
    simp only at h
    split at h
    · cases h
    · rename_i hc
      simp only [Option.map_eq_some_iff, Prod.exists] at h
      obtain ⟨k, v, rest, h, rfl⟩ := h
      obtain ⟨h1, ⟨r', h2, h3⟩, h4⟩ := scanKey_some h
      have hk : Solid (c :: k) := fun x hx => (List.mem_cons.mp hx).elim (fun e => by rw [e]; simpa using hc) (h1 x)
      obtain ⟨w, y, hw, rfl, hv⟩ := scanTail_iff.mp h3
      refine ⟨c :: k, v, rest, ⟨⟨by simp, hk, w, y, hw, by rw [h2, List.cons_append], hv⟩, ?_⟩, rfl⟩
      rintro k' v' rest' ⟨g1, g2, w', y', hw', g3, g4⟩
      cases k' with
      | nil => exact absurd rfl g1
      | cons x k' =>
        simp only [List.cons_append, List.cons.injEq] at g3
        have := h4 k' _ g3.2 (by rw [scanTail_iff.mpr ⟨w', y', hw', rfl, g4⟩]; simp)
        simp only [List.length_cons]; omega

theorem head_map_none {b : Bool} {s : Str} (h : (mapRe.run ⟨b, s, []⟩).head? = none) (k v rest : Str) : ¬ PairAt s k v rest := by
  rintro ⟨g1, g2, w, y, hw, g3, g4⟩
  rw [head_map] at h
  cases k with
  | nil => exact g1 rfl
  | cons c k =>
    rw [g3] at h
    simp only [List.cons_append] at h
    have hc : isWhite c = false := g2 c (List.mem_cons_self ..)
    rw [hc] at h
    simp only [Bool.false_eq_true, if_false, Option.map_eq_none_iff] at h
    have := scanKey_none h k _ (fun x hx => g2 x (List.mem_cons_of_mem _ hx)) rfl
    rw [scanTail_iff.mpr ⟨w, y, hw, rfl, g4⟩] at this
    cases this

/-! ### All pairs -/

theorem find_step (r : Re) (start : Bool) (s : Str) : r.find start s =
    match (r.run ⟨start, s, []⟩).head? with
    | some t => some ([], t)
    | none => match s with | [] => none | c :: cs => (r.find false cs).map fun p => (c :: p.1, p.2) := by
  rw [Re.find.eq_def]
  dsimp only
  cases r.run ⟨start, s, []⟩ with
  | nil => cases s <;> rfl
  | cons t ts => rfl

theorem find_map_some {b : Bool} {s p : Str} {t : St} (h : mapRe.find b s = some (p, t)) :
    ∃ s' k v rest, s = p ++ s' ∧ FirstPair s' k v rest ∧ t = ⟨false, rest, [(2, v), (1, k)]⟩ ∧
      ∀ x y, p = x ++ y → y ≠ [] → ∀ k' v' r', ¬ PairAt (y ++ s') k' v' r' := by
  induction s generalizing b p with
  | nil =>
    rw [find_step] at h
    split at h
    · rename_i t' ht
      cases h
      obtain ⟨k, v, rest, h1, h2⟩ := head_map_some ht
      exact ⟨[], k, v, rest, rfl, h1, h2, fun x y e hy => by simp at e; exact absurd e.2 hy⟩
    · cases h
  | cons c cs ih =>
    rw [find_step] at h
    split at h
    · rename_i t' ht
      cases h
      obtain ⟨k, v, rest, h1, h2⟩ := head_map_some ht
      exact ⟨c :: cs, k, v, rest, rfl, h1, h2, fun x y e hy => by simp at e; exact absurd e.2 hy⟩
    · rename_i ht
      simp only [Option.map_eq_some_iff, Prod.mk.injEq, Prod.exists] at h
      obtain ⟨p', t', h, rfl, rfl⟩ := h
      obtain ⟨s', k, v, rest, h1, h2, h3, h4⟩ := ih h
      refine ⟨s', k, v, rest, by rw [h1, List.cons_append], h2, h3, ?_⟩
      intro x y e hy k' v' r' hp
      cases x with
      | nil =>
        rw [List.nil_append] at e
        rw [← e, List.cons_append, ← h1] at hp
        exact head_map_none ht _ _ _ hp
      | cons z x =>
        simp only [List.cons_append, List.cons.injEq] at e
        exact h4 x y e.2 hy k' v' r' hp

theorem find_map_none {b : Bool} {s : Str} (h : mapRe.find b s = none) (s' k v r : Str) (hs : s' <:+ s) : ¬ PairAt s' k v r := by
  induction s generalizing b with
  | nil =>
    rw [find_step] at h
    split at h
    · cases h
    · rename_i ht
      rw [List.suffix_nil.mp hs]
      exact head_map_none ht _ _ _
  | cons c cs ih =>
    rw [find_step] at h
    split at h
    · cases h
    · rename_i ht
      simp only [Option.map_eq_none_iff] at h
      rcases List.suffix_cons_iff.mp hs with rfl | hs
      · exact head_map_none ht _ _ _
      · exact ih h hs

theorem pairAt_length {s k v rest : Str} (h : PairAt s k v rest) : rest.length < s.length := by
  obtain ⟨_, _, w, y, _, rfl, a, b, _, _, rfl, _⟩ := h
  simp only [List.length_append, List.length_cons]
  omega

/-- The pairs that the iteration over the matches gives. -/
theorem iter_pairs (n : Nat) (b : Bool) (s : Str) (hn : s.length < n) :
    PairsOf s ((((mapRe.iterAux n b s).1).map Prod.snd).filterMap fun c => (c.get 1).bind fun v1 => (c.get 2).map fun v2 => (v1, v2)) := by
  induction n generalizing b s with
  | zero => omega
  | succ n ih =>
    rw [Re.iterAux]
    cases h : mapRe.find b s with
    | none => exact .nil (fun s' k v r hs => find_map_none h s' k v r hs)
    | some pt =>
      obtain ⟨p, t⟩ := pt
      obtain ⟨s', k, v, rest, rfl, h2, rfl, h4⟩ := find_map_some h
      have hl := pairAt_length h2.1
      rw [List.length_append] at hn
      have := ih false rest (by omega)
      exact .cons h2 h4 this

/-! ### Acceptance -/

theorem mem_plus_cls {g : Bool} {p : Cls} {s t : St} :
    t ∈ (Re.plus g (.cls p)).run s ↔ ∃ w cs, w ≠ [] ∧ s.rest = w ++ cs ∧ (∀ c ∈ w, p.test c = true) ∧ t = ⟨false, cs, s.caps⟩ := by
  rw [Re.plus, mem_seq]
  constructor
  · rintro ⟨u, hu, ht⟩
    obtain ⟨c, cs, h1, h2, rfl⟩ := mem_cls.mp hu
    obtain ⟨w, cs', h3, h4, rfl⟩ := mem_star_cls.mp ht
    refine ⟨c :: w, cs', by simp, by rw [h1]; simp at h3; rw [h3]; rfl, ?_, by simp⟩
    intro x hx
    rcases List.mem_cons.mp hx with rfl | hx
    · exact h2
    · exact h4 x hx
  · rintro ⟨w, cs, h1, h2, h3, rfl⟩
    cases w with
    | nil => exact absurd rfl h1
    | cons c w =>
      refine ⟨⟨false, w ++ cs, s.caps⟩, mem_cls.mpr ⟨c, w ++ cs, h2, h3 c (List.mem_cons_self ..), rfl⟩, ?_⟩
      exact mem_star_cls.mpr ⟨w, cs, rfl, fun x hx => h3 x (List.mem_cons_of_mem _ hx), by simp⟩

theorem any_test (c : Char) : Cls.any.test c = true ↔ c ≠ '\n' := by simp [Cls.test, bne, BEq.beq]

theorem listItem_sound {s t : St} (h : t ∈ mapEntryRe.run s) : ∃ e, ListItem e ∧ s.rest = e ++ t.rest := by
  unfold mapEntryRe at h
  simp only [mem_seq] at h
  obtain ⟨u1, h1, u2, h2, u3, h3, u4, h4, u5, h5, u6, h6, u7, h7, h8⟩ := h
  obtain ⟨k, r1, hk, e1, g1, rfl⟩ := mem_plus_cls.mp h1
  obtain ⟨w, r2, e2, g2, rfl⟩ := mem_ws.mp h2
  obtain ⟨r3, e3, rfl⟩ := mem_chr.mp h3
  obtain ⟨a, r4, e4, g4, rfl⟩ := mem_ws.mp h4
  obtain ⟨v, r5, e5, g5, rfl⟩ := mem_star_cls.mp h5
  obtain ⟨b, r6, e6, g6, rfl⟩ := mem_ws.mp h6
  obtain ⟨r7, e7, rfl⟩ := mem_chr.mp h7
  obtain ⟨w', r8, e8, g8, rfl⟩ := mem_ws.mp h8
  simp only at e2 e3 e4 e5 e6 e7 e8
  refine ⟨_, ⟨k, w, a, v, b, w', hk, ?_, g2, g4, g6, ?_, g8, rfl⟩, ?_⟩
  · intro c hc
    simpa [Cls.test] using g1 c hc
  · intro hm
    exact (any_test _).mp (g5 _ hm) rfl
  · rw [e1, e2, e3, e4, e5, e6, e7, e8]
    simp

theorem listItem_complete {b : Bool} {e rest : Str} {caps : List (Nat × Str)} (h : ListItem e) : ∃ t, t ∈ mapEntryRe.run ⟨b, e ++ rest, caps⟩ ∧ t.rest = rest := by
  obtain ⟨k, w, a, v, b', w', hk, g1, g2, g4, g6, g5, g8, rfl⟩ := h
  refine ⟨⟨false, rest, caps⟩, ?_, rfl⟩
  unfold mapEntryRe
  simp only [mem_seq]
  refine ⟨_, mem_plus_cls.mpr ⟨k, w ++ '=' :: (a ++ (v ++ (b' ++ ';' :: (w' ++ rest)))), hk, by simp, ?_, rfl⟩, ?_⟩
  · intro c hc
    simp [Cls.test, g1 c hc]
  refine ⟨_, mem_ws.mpr ⟨w, _, rfl, g2, rfl⟩, _, mem_chr.mpr ⟨_, rfl, rfl⟩, _, mem_ws.mpr ⟨a, _, rfl, g4, rfl⟩,
    _, mem_star_cls.mpr ⟨v, _, rfl, ?_, rfl⟩, _, mem_ws.mpr ⟨b', _, rfl, g6, rfl⟩, _, mem_chr.mpr ⟨_, rfl, rfl⟩, mem_ws.mpr ⟨w', _, rfl, g8, by simp⟩⟩
  intro c hc
  refine (any_test _).mpr ?_
  rintro rfl
  exact g5 hc

theorem listItem_length {e : Str} (h : ListItem e) : 0 < e.length := by
  obtain ⟨k, w, a, v, b', w', hk, _, _, _, _, _, _, rfl⟩ := h
  simp only [List.length_append, List.length_cons]
  omega

theorem star_entries (i n : Nat) (s : St) (hn : s.rest.length ≤ n) :
    (∃ t ∈ starRun true (Re.cap i mapEntryRe).run n s, t.rest = []) ↔ ∃ es, (∀ e ∈ es, ListItem e) ∧ s.rest = List.flatten es := by
  induction n generalizing s with
  | zero =>
    have : s.rest = [] := List.length_eq_zero_iff.mp (by omega)
    simp only [starRun, List.mem_singleton, exists_eq_left, this, true_iff]
    exact ⟨[], (fun _ h => nomatch h), rfl⟩
  | succ n ih =>
    simp only [starRun, if_true, List.mem_append, List.mem_flatMap, List.mem_filter, decide_eq_true_eq, List.mem_singleton]
    constructor
    · rintro ⟨t, (⟨u, ⟨hu, hlt⟩, ht⟩ | rfl), hr⟩
      · obtain ⟨u', hu', rfl⟩ := mem_cap.mp hu
        obtain ⟨e, he, hs⟩ := listItem_sound hu'
        obtain ⟨es, h1, h2⟩ := (ih _ (by simp only at hlt ⊢; omega)).mp ⟨t, ht, hr⟩
        simp only at h2
        exact ⟨e :: es, fun x hx => (List.mem_cons.mp hx).elim (fun h => h ▸ he) (h1 x), by rw [hs, h2]; rfl⟩
      · exact ⟨[], (fun _ h => nomatch h), hr⟩
    · rintro ⟨es, h1, h2⟩
      cases es with
      | nil => exact ⟨s, .inr rfl, h2⟩
      | cons e es =>
        have he := h1 e (List.mem_cons_self ..)
        obtain ⟨b, r, caps⟩ := s
        simp only [List.flatten_cons] at h2
        subst h2
        obtain ⟨t, ht, htr⟩ := listItem_complete (b := b) (rest := es.flatten) (caps := caps) he
        have hl := listItem_length he
        simp only [List.length_append] at hn
        obtain ⟨t', ht', hr⟩ := (ih ⟨t.atStart, t.rest, (i, (e ++ es.flatten).take ((e ++ es.flatten).length - t.rest.length)) :: t.caps⟩
          (by simp only [htr]; omega)).mpr ⟨es, fun x hx => h1 x (List.mem_cons_of_mem _ hx), htr⟩
        refine ⟨t', .inl ⟨_, ⟨mem_cap.mpr ⟨t, ht, rfl⟩, ?_⟩, ht'⟩, hr⟩
        simp only [htr, List.length_append]
        omega

theorem check_iff (s : Str) : mapCheckRe.isMatch s = true ↔ IsList s := by
  have hnb : ∀ s caps, mapCheckRe.run ⟨false, s, caps⟩ = [] := by
    intro s caps
    simp [mapCheckRe, Re.run]
  have hnf : ∀ s, mapCheckRe.find false s = none := by
    intro s
    induction s with
    | nil => rw [find_step, hnb]; rfl
    | cons c s ih => rw [find_step, hnb]; simp [ih]
  have h1 : mapCheckRe.isMatch s = true ↔ ∃ t, t ∈ mapCheckRe.run ⟨true, s, []⟩ := by
    rw [Re.isMatch, find_step]
    cases h : mapCheckRe.run ⟨true, s, []⟩ with
    | nil => cases s <;> simp [hnf]
    | cons t ts => simp
  rw [h1]
  have h2 : (∃ t, t ∈ mapCheckRe.run ⟨true, s, []⟩) ↔ ∃ w cs, s = w ++ cs ∧ White w ∧ ∃ t ∈ starRun true (Re.cap 1 mapEntryRe).run cs.length ⟨w.isEmpty, cs, []⟩, t.rest = [] := by
    unfold mapCheckRe
    simp only [mem_seq, mem_bol, mem_eol]
    constructor
    · rintro ⟨t, u, ⟨_, rfl⟩, u2, h3, u3, h4, h5, rfl⟩
      obtain ⟨w, cs, h6, h7, rfl⟩ := mem_ws.mp h3
      exact ⟨w, cs, h6, h7, t, by simpa [Re.run] using h4, h5⟩
    · rintro ⟨w, cs, h6, h7, t, h4, h5⟩
      exact ⟨t, _, ⟨trivial, rfl⟩, _, mem_ws.mpr ⟨w, cs, h6, h7, rfl⟩, t, by simpa [Re.run] using h4, h5, rfl⟩
  rw [h2]
  constructor
  · rintro ⟨w, cs, rfl, hw, h⟩
    obtain ⟨es, h1, h2⟩ := (star_entries 1 _ ⟨w.isEmpty, cs, []⟩ (Nat.le_refl _)).mp h
    exact ⟨w, es, hw, h1, by rw [← h2]⟩
  · rintro ⟨w, es, hw, h3, rfl⟩
    exact ⟨w, es.flatten, rfl, hw, (star_entries 1 _ ⟨w.isEmpty, es.flatten, []⟩ (Nat.le_refl _)).mpr ⟨es, h3, rfl⟩⟩

/-! ### The map -/

theorem lookup_insertKV (m : List (Str × Str)) (k v k' : Str) : (insertKV m k v).lookup k' = if k' = k then some v else m.lookup k' := by
  induction m with
  | nil => by_cases h : k' = k <;> simp [insertKV, h, List.lookup]
  | cons p m ih =>
    obtain ⟨a, b⟩ := p
    rw [insertKV]
    by_cases ha : a = k
    · rw [if_pos ha, List.lookup_cons, List.lookup_cons]
      subst ha
      by_cases h : k' = a
      · simp [h]
      · have : (k' == a) = false := by simpa using h
        simp [h, this]
    · rw [if_neg ha, List.lookup_cons, List.lookup_cons, ih]
      by_cases h : k' = a
      · subst h; simp [ha]
      · have : (k' == a) = false := by simpa using h
        simp [this]

theorem lookup_foldl (ps m : List (Str × Str)) (k : Str) :
    (ps.foldl (fun m kv => insertKV m kv.1 kv.2) m).lookup k = (lastValue k ps).or (m.lookup k) := by
  induction ps generalizing m with
  | nil => simp [lastValue]
  | cons p ps ih =>
    rw [List.foldl_cons, ih, lookup_insertKV, lastValue, lastValue, List.reverse_cons, List.lookup_append]
    obtain ⟨a, b⟩ := p
    by_cases h : k = a
    · cases ps.reverse.lookup k <;> simp [h]
    · have : (k == a) = false := by simpa using h
      cases ps.reverse.lookup k <;> simp [h, List.lookup, this]

theorem insertKV_keys (m : List (Str × Str)) (k v : Str) (h : (m.map Prod.fst).Nodup) : ((insertKV m k v).map Prod.fst).Nodup := by
  have hk : ∀ m : List (Str × Str), ∀ x ∈ (insertKV m k v).map Prod.fst, x = k ∨ x ∈ m.map Prod.fst := by
    intro m
    induction m with
    | nil => intro x hx; simp [insertKV] at hx; exact .inl hx
    | cons p m ih =>
      intro x hx
      rw [insertKV] at hx
      split at hx
      · rename_i he; simp at hx ⊢; rcases hx with rfl | hx
        · exact .inl rfl
        · exact .inr (.inr hx)
      · rw [List.map_cons] at hx
        rcases List.mem_cons.mp hx with rfl | hx
        · exact .inr (by simp)
        · rcases ih x hx with h | h
          · exact .inl h
          · exact .inr (List.mem_cons_of_mem _ h)
  induction m with
  | nil => simp [insertKV]
  | cons p m ih =>
    rw [List.map_cons, List.nodup_cons] at h
    rw [insertKV]
    split
    · rename_i he
      rw [List.map_cons, List.nodup_cons]
      exact ⟨by rw [← he]; exact h.1, h.2⟩
    · rename_i he
      rw [List.map_cons, List.nodup_cons]
      refine ⟨?_, ih h.2⟩
      intro hm
      rcases hk m _ hm with h' | h'
      · exact he h'
      · exact h.1 h'

theorem foldl_keys (ps m : List (Str × Str)) (h : (m.map Prod.fst).Nodup) : ((ps.foldl (fun m kv => insertKV m kv.1 kv.2) m).map Prod.fst).Nodup := by
  induction ps generalizing m with
  | nil => exact h
  | cons p ps ih => exact ih _ (insertKV_keys m p.1 p.2 h)

theorem valueAt_unique {y v v' r r' : Str} (h : ValueAt y v r) (h' : ValueAt y v' r') : v = v' ∧ r = r' := by
  have h1 := valueAt_iff.mp h
  rw [valueAt_iff.mp h'] at h1
  simp at h1
  exact ⟨h1.1.symm, h1.2.symm⟩

theorem firstPair_unique {s k k' v v' r r' : Str} (h : FirstPair s k v r) (h' : FirstPair s k' v' r') : k = k' ∧ v = v' ∧ r = r' := by
  have h1 := h.2 _ _ _ h'.1
  have h2 := h'.2 _ _ _ h.1
  obtain ⟨⟨_, _, w, y, hw, e, g⟩, _⟩ := h
  obtain ⟨⟨_, _, w', y', hw', e', g'⟩, _⟩ := h'
  have e2 := e.symm.trans e'
  obtain ⟨rfl, e3⟩ := List.append_inj e2 (by omega)
  have t1 := scanTail_iff.mpr ⟨w, y, hw, rfl, g⟩
  rw [e3, scanTail_iff.mpr ⟨w', y', hw', rfl, g'⟩] at t1
  simp at t1
  exact ⟨rfl, t1.1.symm, t1.2.symm⟩

/-- A text has one list of pairs. -/
theorem pairsOf_unique {s : Str} {ps ps' : List (Str × Str)} (h : PairsOf s ps) (h' : PairsOf s ps') : ps = ps' := by
  induction h generalizing ps' with
  | nil hn =>
    cases h' with
    | nil => rfl
    | @cons skip s k v rest ps hf _ _ => exact absurd hf.1 (hn s k v rest (List.suffix_append ..))
  | @cons skip s k v rest ps hf hs hr ih =>
    generalize he : skip ++ s = t at h'
    cases h' with
    | nil hn => exact absurd hf.1 (hn s k v rest (he ▸ List.suffix_append ..))
    | @cons skip' s' k' v' rest' ps' hf' hs' hr' =>
      have : skip = skip' ∧ s = s' := by
        rcases List.append_eq_append_iff.mp he with ⟨m, h1, h2⟩ | ⟨m, h1, h2⟩
        · cases m with
          | nil => simp at h1 h2; exact ⟨h1.symm, h2⟩
          | cons x m => rw [h2] at hf; exact absurd hf.1 (hs' skip (x :: m) h1 (by simp) _ _ _)
        · cases m with
          | nil => simp at h1 h2; exact ⟨h1, h2.symm⟩
          | cons x m => rw [h2] at hf'; exact absurd hf'.1 (hs skip' (x :: m) h1 (by simp) _ _ _)
      obtain ⟨rfl, rfl⟩ := this
      obtain ⟨rfl, rfl, rfl⟩ := firstPair_unique hf hf'
      rw [ih hr']

/-- Value lists: what is accepted, and the map. -/
theorem parseMap_ok {s : Str} {m : List (Str × Str)} (h : parseMap s = .ok m) :
    IsList s ∧ (m.map Prod.fst).Nodup ∧ ∃ ps, PairsOf s ps ∧ ∀ k, m.lookup k = lastValue k ps := by
  rw [parseMap] at h
  split at h
  · rename_i hc
    simp only [Except.ok.injEq] at h
    subst h
    refine ⟨(check_iff s).mp hc, foldl_keys _ [] (by simp), _, iter_pairs (s.length + 1) true s (by omega), ?_⟩
    intro k
    rw [Re.capturesIter, lookup_foldl]
    simp
  · cases h

theorem parseMap_list {s : Str} (h : IsList s) : ∃ m, parseMap s = .ok m := by
  rw [parseMap, if_pos ((check_iff s).mpr h)]
  exact ⟨_, rfl⟩

theorem parseMap_error {s : Str} (h : ¬ IsList s) : parseMap s = .error (.unexpected 0 (c!"Bad value list definition: `" ++ s ++ c!"`")) := by
  rw [parseMap, if_neg (fun hc => h ((check_iff s).mp hc))]

end Verif
