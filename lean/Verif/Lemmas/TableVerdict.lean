import Verif.Spec.Table
import Verif.Lemmas.FormulaLex
import Verif.Lemmas.TableGrammar

/-! The reports of the table-driven parser. -/

namespace Verif
open Spec

/-! ### Tokens up to the first place that is none -/

theorem lexUntilAux_scans (k : Nat) : ∀ s : Str, s.length ≤ k → Scans s (lexUntilAux k s).1 (lexUntilAux k s).2 := by
  induction k with
  | zero =>
    intro s hs
    have : s = [] := List.eq_nil_of_length_eq_zero (by omega)
    subst this
    exact .nil (fun _ h => nomatch h)
  | succ k ih =>
    intro s hs
    have hsplit : s = s.takeWhile isWhite ++ trimStart s := (List.takeWhile_append_dropWhile ..).symm
    have hw : White (s.takeWhile isWhite) := fun c hc => List.all_eq_true.mp (List.all_takeWhile (p := isWhite) (l := s)) c hc
    have hlen : (trimStart s).length ≤ s.length := by
      have := congrArg List.length hsplit
      rw [List.length_append] at this
      omega
    simp only [lexUntilAux]
    cases ht : trimStart s with
    | nil =>
      rw [hsplit, ht, List.append_nil]
      exact .nil hw
    | cons c cs =>
      dsimp only
      have hc : isWhite c = false := by
        have := List.head?_dropWhile_not isWhite s
        rw [show s.dropWhile isWhite = c :: cs from ht] at this
        simpa using this
      cases hl : lexOne (c :: cs) with
      | none =>
        dsimp only
        rw [hsplit, ht]
        refine .bad hw hc (fun lx tok h hp => ?_)
        have := lexOne_isSome h hp
        rw [hl] at this; cases this
      | some p =>
        obtain ⟨tok, r⟩ := p
        dsimp only
        obtain ⟨lx, he, h1, h2⟩ := lexOne_sound hl
        have hlr : r.length ≤ k := by
          have e1 := congrArg List.length he
          have e2 := List.length_pos_iff.mpr (lexeme_ne_nil h1)
          have e3 := congrArg List.length ht
          simp only [List.length_append] at e1
          omega
        have := ih r hlr
        rw [hsplit, ht, he]
        rw [he] at h2
        exact .cons hw h1 h2 this

theorem lexUntil_scans (s : Str) : Scans s (lexUntil s).1 (lexUntil s).2 := lexUntilAux_scans _ s (Nat.le_refl _)

theorem scans_lexUntilAux {s : Str} {ts : List Tok} {b : Bool} (h : Scans s ts b) : ∀ k, s.length ≤ k → lexUntilAux k s = (ts, b) := by
  have hblank : ∀ {ws : Str}, White ws → trimStart ws = [] := fun h => by
    have := trimStart_white (s := []) h
    simpa [trimStart] using this
  induction h with
  | nil hw =>
    intro k _
    cases k <;> simp [lexUntilAux, hblank hw]
  | @bad ws c cs hw hc hn =>
    intro k hk
    have e : trimStart (ws ++ c :: cs) = c :: cs := by rw [trimStart_white hw]; simp [trimStart, hc]
    cases k with
    | zero => simp at hk
    | succ k =>
      have hl : lexOne (c :: cs) = none := by
        cases hl : lexOne (c :: cs) with
        | none => rfl
        | some p =>
          obtain ⟨lx, he, h1, _⟩ := lexOne_sound (tok := p.1) (r := p.2) hl
          exact absurd (he ▸ List.prefix_append _ _) (hn _ _ h1)
      simp [lexUntilAux, e, hl]
  | @cons ws lx rest tok toks whole hw hl hlong hr ih =>
    intro k hk
    have e := trimStart_lexeme (r := rest) hw hl
    have e2 := List.length_pos_iff.mpr (lexeme_ne_nil hl)
    simp only [List.length_append] at hk
    cases k with
    | zero => omega
    | succ k =>
      have h1 := lexOne_complete hl hlong
      have h2 := ih k (by omega)
      obtain ⟨c, cs, hlx, _⟩ := lexeme_head hl
      simp only [lexUntilAux, e]
      rw [hlx, List.cons_append] at h1 ⊢
      simp [h1, h2]

theorem scans_iff {s : Str} {ts : List Tok} {b : Bool} : Scans s ts b ↔ lexUntil s = (ts, b) := by
  constructor
  · intro h; exact scans_lexUntilAux h _ (Nat.le_refl _)
  · intro h
    have := lexUntil_scans s
    rwa [h] at this

theorem scans_tokens {s : Str} {ts : List Tok} : Scans s ts true ↔ Tokens s ts := by
  constructor
  · intro h
    generalize hb : true = b at h
    induction h with
    | nil h => exact .nil h
    | bad => cases hb
    | cons h1 h2 h3 _ ih => exact .cons h1 h2 h3 (ih hb)
  · intro h
    induction h with
    | nil h => exact .nil h
    | cons h1 h2 h3 _ ih => exact .cons h1 h2 h3 ih

/-! ### Numerals -/

/-- Every numeral is in range. -/
def ValidNums (w : List Tok) : Prop := ∀ ds, Tok.num ds ∈ w → numVal ds ≠ none

theorem derives_valid {nt : NT} {w : List Tok} {t : Node} (h : Derives nt w t) : ValidNums w := by
  induction h with
  | termNum h =>
    intro ds hd
    simp only [List.mem_singleton, Tok.num.injEq] at hd
    subst hd
    rw [h]; simp
  | _ => intro ds hd; simp_all [ValidNums] <;> grind

theorem terminal_digits {a : Tok} (h : a.terminal = .digits) : ∃ ds, a = .num ds := by
  cases a <;> first | exact ⟨_, rfl⟩ | cases h

/-- Terminals decide derivability, if the numerals are in range. -/
theorem der_terminals {xs : List Symbol} {w : List Tok} {vs : List LrValue} (h : Der xs w vs) :
    ∀ {w'}, w.map Tok.terminal = w'.map Tok.terminal → ValidNums w' → ∃ vs', Der xs w' vs' := by
  induction h with
  | nil =>
    intro w' hw _
    have : w' = [] := by simpa using hw.symm
    subst this
    exact ⟨_, .nil⟩
  | @tok t xs w vs _ ih =>
    intro w' hw hv
    cases w' with
    | nil => simp at hw
    | cons t' w' =>
      simp only [List.map_cons, List.cons.injEq] at hw
      obtain ⟨vs', h'⟩ := ih hw.2 (fun ds hd => hv ds (List.mem_cons_of_mem _ hd))
      rw [hw.1]
      exact ⟨_, .tok h'⟩
  | @nt j p w₁ vs₁ v xs w₂ vs hp h1 ha h2 ih1 ih2 =>
    intro w' hw hv
    rw [List.map_append] at hw
    obtain ⟨u₁, u₂, rfl, e1, e2⟩ := List.map_eq_append_iff.mp hw.symm
    obtain ⟨us₁, d1⟩ := ih1 e1.symm (fun ds hd => hv ds (List.mem_append_left _ hd))
    obtain ⟨us₂, d2⟩ := ih2 e2.symm (fun ds hd => hv ds (List.mem_append_right _ hd))
    by_cases hn : p.lhs = .num
    · obtain ⟨rfl, hr⟩ := num_production hp hn
      have hd : ∃ ds, u₁ = [.num ds] := by
        rw [hr] at d1
        generalize hx : [Symbol.t .digits] = ys at d1
        cases d1 with
        | nil => cases hx
        | nt => cases hx
        | @tok t _ _ _ d =>
          simp only [List.cons.injEq, Symbol.t.injEq] at hx
          obtain ⟨ds, rfl⟩ := terminal_digits hx.1.symm
          rw [← hx.2] at d
          cases d
          exact ⟨ds, rfl⟩
      obtain ⟨ds, rfl⟩ := hd
      have hval := hv ds (by simp)
      cases hnv : numVal ds with
      | none => exact absurd hnv hval
      | some x =>
        have hp' : productions[32]? = some ⟨.num, [.t .digits], actDigits⟩ := rfl
        have : p = ⟨.num, [.t .digits], actDigits⟩ := Option.some.inj (hp.symm.trans hp')
        subst this
        exact ⟨_, .nt (v := .num x) hp' (show Der [.t (Tok.num ds).terminal] [.num ds] [.tok (.num ds)] from .tok .nil) (by simp [actDigits, hnv]) d2⟩
    · obtain ⟨v', d⟩ := der_single hp d1 hn
      exact ⟨_, d.append d2⟩

/-! ### Beginnings of formulas -/

theorem begins_left {p q : List Tok} (h : Begins (p ++ q)) : Begins p := by
  obtain ⟨r, t, h⟩ := h
  exact ⟨q ++ r, t, by rwa [List.append_assoc] at h⟩

theorem derives_begins {p : List Tok} {t : Node} (h : Derives .expr p t) : Begins p := ⟨[], t, by rwa [List.append_nil]⟩

theorem begins_iff {p : List Tok} : Begins p ↔ ∃ q t, Der [.a .formula] (p ++ q) [.node t] :=
  ⟨fun ⟨q, t, h⟩ => ⟨q, t, der_derives.mpr h⟩, fun ⟨q, t, h⟩ => ⟨q, t, der_derives.mp h⟩⟩

theorem plain_terminal (a : Tok) : (plain a).terminal = a.terminal := by cases a <;> rfl

theorem begins_plain {p : List Tok} {a : Tok} (h : Begins (p ++ [a])) : Begins (p ++ [plain a]) := by
  obtain ⟨q, t, h⟩ := h
  have hv := derives_valid h
  obtain ⟨vs, d⟩ := der_terminals (der_derives.mpr h) (w' := p ++ [plain a] ++ q) (by simp [plain_terminal]) (by
    intro ds hd
    rcases List.mem_append.mp hd with hd | hd
    · rcases List.mem_append.mp hd with hd | hd
      · exact hv ds (by simp [hd])
      · cases a with
        | num ds' =>
          simp only [plain, List.mem_singleton, Tok.num.injEq] at hd
          subst hd
          decide
        | _ => simp [plain] at hd
    · exact hv ds (by simp [hd]))
  have hl := d.length
  cases vs with
  | nil => simp at hl
  | cons v vs =>
    cases vs with
    | cons => simp at hl
    | nil =>
      obtain ⟨t', rfl⟩ := der_formula d
      exact ⟨q, t', der_derives.mp d⟩

theorem numVal_none {ds : Str} : numVal ds = none ↔ 2 ^ 63 ≤ Nat.ofDigitChars 10 ds 0 := by
  rw [Nat.ofDigitChars_eq_foldl]
  unfold numVal
  show (if digitsVal ds < 2 ^ 63 then _ else _) = none ↔ 2 ^ 63 ≤ digitsVal ds
  split <;> simp <;> omega

theorem not_begins_large {p : List Tok} {ds : Str} (h : numVal ds = none) : ¬ Begins (p ++ [.num ds]) := by
  rintro ⟨q, t, hd⟩
  exact derives_valid hd ds (by simp) h

/-! ### The runs of the parser -/

theorem loop_fix {eof : Bool} {k : Nat} {ts : List Tok} {r : LrResult} (h : lrLoop eof k [] ts = r) (hr : r ≠ .stuck) {r' : LrResult}
    (h' : ∃ k', ∀ f, lrLoop eof (f + k') [] ts = r') : r = r' := by
  obtain ⟨k', h'⟩ := h'
  have := loop_fuel eof (by rw [h]; exact hr) k'
  rw [h' k, h] at this
  exact this.symm

theorem der_extra {p : List Tok} {t : Node} (h : Derives .expr p t) {a : Tok} (ha : a = .rpar ∨ a = .colon) (r : List Tok) :
    ∃ k, ∀ f, lrLoop true (f + k) [] (p ++ a :: r) = .extra (a :: r) := by
  have hd : Der [.a .expr] p [.node t] := derives_der h
  obtain ⟨k, hk⟩ := der_gets hd (st := []) (rest := a :: r) start_mem (s := [⟨1, 1⟩]) (by decide +kernel) (by
    rcases ha with rfl | rfl <;> rfl)
  refine ⟨2 + k, fun f => ?_⟩
  rw [← Nat.add_assoc, hk]
  show lrLoop true (f + 2) [(LrValue.node t, goto startState (.a .expr))] (a :: r) = _
  have hm : move (goto startState (.a .expr)) a.terminal = .reduce 1 := by
    rcases ha with rfl | rfl <;> decide +kernel
  have hm' : move (goto startState (.a .formula)) a.terminal = .reduce 0 := by
    rcases ha with rfl | rfl <;> decide +kernel
  simp [lrLoop, lrStep, topState, nextTerminal, hm, hm', productions, single, actSame]

theorem not_begins_extra {p : List Tok} {t : Node} (h : Derives .expr p t) {a : Tok} (ha : a = .rpar ∨ a = .colon) : ¬ Begins (p ++ [a]) := by
  rintro ⟨q, t', hd⟩
  rw [List.append_assoc] at hd
  obtain ⟨k, hk⟩ := der_extra h ha q
  have := loop_fix (hk 0) (by simp) (der_accepts (der_derives.mpr hd))
  cases this

theorem weight_start (ts : List Tok) : todo [] ts < 14 * ts.length + 14 := by
  simp [todo]

theorem lookahead_expr {a : Tok} (h : a.terminal ∈ lookahead .expr) : a = .rpar ∨ a = .colon := by
  cases a <;> first | exact .inl rfl | exact .inr rfl | (simp [Tok.terminal, lookahead] at h)

theorem loop_verdict (whole : Bool) (ts : List Tok) : Verdict ts whole (lrLoop whole (14 * ts.length + 14) [] ts) := by
  obtain ⟨st, xs, w, rest, hh, hw, hs⟩ := loop_stops whole (k := 14 * ts.length + 14) Holds.nil (by intro x hx; cases hx) (weight_start ts)
  rw [List.nil_append] at hw
  have hb := holds_begins hh
  subst hw
  generalize hr : lrLoop whole (14 * (w ++ rest).length + 14) [] (w ++ rest) = r at hs
  cases hs with
  | accept h1 h2 =>
    subst h1
    rw [List.append_nil]
    exact .accept (der_derives.mp h2)
  | invalid h1 =>
    subst h1
    rw [List.append_nil]
    rcases hb with hb | ⟨_, w₀, ds, rfl, q, t, hb⟩
    · exact .noToken (begins_iff.mpr hb)
    · exact .noTokenAfter ⟨q, t, der_derives.mp (by simpa using hb)⟩
  | unrecognized h1 h2 =>
    have hb' : Begins w := by
      rcases hb with hb | ⟨he, _⟩
      · exact begins_iff.mpr hb
      · rw [he] at h2
        have : ∀ a, move [⟨32, 1⟩] a = .reduce 32 := by intro a; rfl
        rw [this] at h2; cases h2
    cases rest with
    | nil =>
      obtain rfl := h1 rfl
      rw [List.append_nil] at hr ⊢
      refine .early hb' ?_
      rintro ⟨t, ht⟩
      cases loop_fix hr (by simp) (der_accepts (der_derives.mpr ht))
    | cons a r =>
      refine .unexpected hb' ?_ ?_
      · rintro ⟨q, t, ht⟩
        rw [List.append_assoc] at ht
        have := loop_local whole (plain_terminal a).symm (r' := q) (q := w) (r := r) (by rw [hr]; rfl)
        rw [hr] at this
        cases loop_fix this (by simp [LrResult.withRest]) (der_accepts (der_derives.mpr ht))
      · rintro ⟨⟨t, ht⟩, ha⟩
        have := loop_local whole (a := a) rfl (r' := r) (q := w) (r := r) (by rw [hr]; rfl)
        rw [hr] at this
        cases loop_fix this (by simp [LrResult.withRest]) (der_extra ht ha r)
  | @extra _ _ t _ _ h1 h2 h3 =>
    cases rest with
    | nil => exact absurd rfl h1
    | cons a r => exact .extra (der_derives.mp h3) (lookahead_expr h2)
  | @user _ _ w ds ts h1 h2 h3 =>
    rw [List.append_assoc]
    refine .large ?_ (numVal_none.mp h3) h1
    rcases hb with hb | ⟨_, w₀, ds', he, q, t, hb⟩
    · exact absurd (begins_iff.mpr hb) (not_begins_large h3)
    · obtain ⟨rfl, _⟩ := List.append_inj' he rfl
      exact ⟨q, t, der_derives.mp (by simpa using hb)⟩

/-! ### At most one report -/

/-- What is reported at `a`. -/
inductive ReportAt (p : List Tok) : Tok → List Tok → Bool → LrResult → Prop
  | noToken {ds} : Begins (p ++ [.num ['0']]) → ReportAt p (.num ds) [] false .invalidToken
  | large {ds rest whole} : Begins (p ++ [.num ['0']]) → (rest = [] → whole = true) → ReportAt p (.num ds) rest whole (.user rest)
  | extra {t a rest whole} : Derives .expr p t → a = .rpar ∨ a = .colon → ReportAt p a rest whole (.extra (a :: rest))
  | unexpected {a rest whole} : ¬ Begins (p ++ [plain a]) → ¬ ((∃ t, Derives .expr p t) ∧ (a = .rpar ∨ a = .colon)) →
      ReportAt p a rest whole (.unrecognized (a :: rest))

/-- What is reported at the end. -/
inductive ReportEnd (p : List Tok) : Bool → LrResult → Prop
  | accept {t} : Derives .expr p t → ReportEnd p true (.accept t)
  | noToken : ReportEnd p false .invalidToken
  | early : (¬ ∃ t, Derives .expr p t) → ReportEnd p true (.unrecognized [])

theorem verdict_cases {ts : List Tok} {whole : Bool} {r : LrResult} (h : Verdict ts whole r) :
    (Begins ts ∧ ReportEnd ts whole r) ∨ ∃ p a rest, ts = p ++ a :: rest ∧ Begins p ∧ ¬ Begins (p ++ [a]) ∧ ReportAt p a rest whole r := by
  cases h with
  | accept h => exact .inl ⟨derives_begins h, .accept h⟩
  | noToken h => exact .inl ⟨h, .noToken⟩
  | @noTokenAfter p ds h =>
    by_cases hb : Begins (p ++ [.num ds])
    · exact .inl ⟨hb, .noToken⟩
    · exact .inr ⟨p, _, [], rfl, begins_left h, hb, .noToken h⟩
  | early h h' => exact .inl ⟨h, .early h'⟩
  | large h h' h'' => exact .inr ⟨_, _, _, rfl, begins_left h, not_begins_large (numVal_none.mpr h'), .large h h''⟩
  | extra h h' => exact .inr ⟨_, _, _, rfl, derives_begins h, not_begins_extra h h', .extra h h'⟩
  | unexpected h h' h'' => exact .inr ⟨_, _, _, rfl, h, fun hb => h' (begins_plain hb), .unexpected h' h''⟩

theorem first_bad {p p' : List Tok} {a a' : Tok} {r r' : List Tok} (he : p ++ a :: r = p' ++ a' :: r') (hp : Begins p) (ha : ¬ Begins (p ++ [a])) (hp' : Begins p')
    (ha' : ¬ Begins (p' ++ [a'])) : p = p' ∧ a = a' ∧ r = r' := by
  have key : ∀ {p p' : List Tok} {a a' : Tok} {r r' : List Tok}, p ++ a :: r = p' ++ a' :: r' → Begins p' → ¬ Begins (p ++ [a]) → p'.length ≤ p.length := by
    intro p p' a a' r r' he hp' ha
    apply Nat.le_of_not_lt
    intro hlt
    have h1 : p ++ [a] <+: p' := by
      have e1 : p ++ [a] <+: p ++ a :: r := ⟨r, by simp⟩
      have e2 : p' <+: p ++ a :: r := ⟨a' :: r', he.symm⟩
      exact List.prefix_of_prefix_length_le e1 e2 (by simp; omega)
    obtain ⟨q, rfl⟩ := h1
    exact ha (begins_left hp')
  have h1 := key he hp' ha
  have h2 := key he.symm hp ha'
  obtain ⟨rfl, h3⟩ := List.append_inj he (by omega)
  cases h3
  exact ⟨rfl, rfl, rfl⟩

theorem verdict_unique {ts : List Tok} {whole : Bool} {r r' : LrResult} (h : Verdict ts whole r) (h' : Verdict ts whole r') : r = r' := by
  rcases verdict_cases h with ⟨hb, h⟩ | ⟨p, a, rest, rfl, hp, ha, h⟩ <;> rcases verdict_cases h' with ⟨hb', h'⟩ | ⟨p', a', rest', he, hp', ha', h'⟩
  · cases h <;> cases h' <;> first | rfl | skip
    · rename_i h1 _ h2; rw [derives_unique h1 h2]
    · rename_i h1 h2; exact absurd ⟨_, h1⟩ h2
    · rename_i h1 _ h2; exact absurd ⟨_, h2⟩ h1
  · rw [he] at hb
    exact absurd (begins_left (q := rest') (by simpa using hb)) ha'
  · exact absurd (begins_left (q := rest) (by simpa using hb')) ha
  · obtain ⟨rfl, rfl, rfl⟩ := first_bad he hp ha hp' ha'
    cases h with
    | noToken h1 =>
      cases h' with
      | noToken => rfl
      | large _ h2 => exact absurd (h2 rfl) (by simp)
      | extra _ h2 => rcases h2 with h2 | h2 <;> cases h2
      | unexpected h2 => exact absurd h1 h2
    | large h1 h3 =>
      cases h' with
      | noToken => exact absurd (h3 rfl) (by simp)
      | large => rfl
      | extra _ h2 => rcases h2 with h2 | h2 <;> cases h2
      | unexpected h2 => exact absurd h1 h2
    | extra h1 h3 =>
      cases h' with
      | noToken => rcases h3 with h3 | h3 <;> cases h3
      | large => rcases h3 with h3 | h3 <;> cases h3
      | extra => rfl
      | unexpected _ h2 => exact absurd ⟨⟨_, h1⟩, h3⟩ h2
    | unexpected h1 h3 =>
      cases h' with
      | noToken h2 => exact absurd h2 h1
      | large h2 => exact absurd h2 h1
      | extra h2 h4 => exact absurd ⟨⟨_, h2⟩, h4⟩ h3
      | unexpected => rfl

theorem lrParse_iff {s : Str} {ts : List Tok} {whole : Bool} (hs : Scans s ts whole) {r : LrResult} : lrParse s = r ↔ Verdict ts whole r := by
  have h : Verdict ts whole (lrParse s) := by
    unfold lrParse
    rw [scans_iff.mp hs]
    exact loop_verdict whole ts
  exact ⟨fun e => e ▸ h, fun h' => verdict_unique h h'⟩

end Verif
