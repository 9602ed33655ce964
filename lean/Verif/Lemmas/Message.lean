import Verif.Lemmas.MessageNames
import Verif.Spec.Text

/-! The message for a text that is no formula. -/

namespace Verif
open Spec

/-! ### Tokens with their places -/

theorem utf8Len_eq (s : Str) : utf8Len s = bytes s := by
  induction s with
  | nil => rfl
  | cons c cs ih => rw [bytes, ← ih]; simp [utf8Len]

theorem spansAux_spans (k : Nat) : ∀ (o : Nat) (s : Str), s.length ≤ k → Spans o s (spansAux k o s).1 (spansAux k o s).2 := by
  induction k with
  | zero =>
    intro o s hs
    have : s = [] := List.eq_nil_of_length_eq_zero (by omega)
    subst this
    exact .nil (fun _ h => nomatch h)
  | succ k ih =>
    intro o s hs
    have hsplit : s = s.takeWhile isWhite ++ trimStart s := (List.takeWhile_append_dropWhile ..).symm
    have hw : White (s.takeWhile isWhite) := fun c hc => List.all_eq_true.mp (List.all_takeWhile (p := isWhite) (l := s)) c hc
    have hlen : (trimStart s).length ≤ s.length := by
      have := congrArg List.length hsplit
      rw [List.length_append] at this
      omega
    simp only [spansAux, utf8Len_eq]
    generalize s.takeWhile isWhite = ws at hsplit hw
    cases ht : trimStart s with
    | nil =>
      rw [hsplit, ht, List.append_nil]
      exact .nil hw
    | cons c cs =>
      dsimp only
      have hc : isWhite c = false := by
        have := List.head?_dropWhile_not isWhite s
        rw [show s.dropWhile isWhite = c :: cs from ht] at this
        simpa using this
      cases hl : lexOne (c :: cs) with
      | none =>
        dsimp only
        rw [hsplit, ht]
        refine .bad hw hc (fun lx tok h hp => ?_)
        have := lexOne_isSome h hp
        rw [hl] at this; cases this
      | some p =>
        obtain ⟨tok, r⟩ := p
        dsimp only
        obtain ⟨lx, he, h1, h2⟩ := lexOne_sound hl
        have hlr : r.length ≤ k := by
          have e1 := congrArg List.length he
          have e2 := List.length_pos_iff.mpr (lexeme_ne_nil h1)
          have e3 := congrArg List.length ht
          simp only [List.length_append] at e1
          omega
        have htext : (c :: cs).take ((c :: cs).length - r.length) = lx := by
          rw [he, List.length_append, Nat.add_sub_cancel, List.take_left']
          rfl
        rw [htext]
        have := ih (o + bytes ws + bytes lx) r hlr
        rw [hsplit, ht, he]
        rw [he] at h2
        exact .cons hw h1 h2 this

theorem spans_spans (s : Str) : Spans 0 s (spans s).1 (spans s).2 := spansAux_spans _ 0 s (Nat.le_refl _)

theorem spans_eq {o : Nat} {s : Str} {sp : List Span} {bad : Option Nat} (h : Spans o s sp bad) : ∀ k, s.length ≤ k → spansAux k o s = (sp, bad) := by
  have hblank : ∀ {ws : Str}, White ws → trimStart ws = [] := fun h => by
    have := trimStart_white (s := []) h
    simpa [trimStart] using this
  have htake : ∀ {ws : Str} {c : Char} {cs : Str}, White ws → isWhite c = false → (ws ++ c :: cs).takeWhile isWhite = ws := by
    intro ws c cs hw hc
    rw [List.takeWhile_append_of_pos hw]
    simp [hc]
  induction h with
  | nil hw =>
    intro k _
    cases k <;> simp [spansAux, hblank hw]
  | @bad o ws c cs hw hc hn =>
    intro k hk
    have e : trimStart (ws ++ c :: cs) = c :: cs := by rw [trimStart_white hw]; simp [trimStart, hc]
    cases k with
    | zero => simp at hk
    | succ k =>
      have hl : lexOne (c :: cs) = none := by
        cases hl : lexOne (c :: cs) with
        | none => rfl
        | some p =>
          obtain ⟨lx, he, h1, _⟩ := lexOne_sound (tok := p.1) (r := p.2) hl
          exact absurd (he ▸ List.prefix_append _ _) (hn _ _ h1)
      simp [spansAux, e, hl, htake hw hc, utf8Len_eq]
  | @cons o ws lx rest tok toks bad hw hl hlong hr ih =>
    intro k hk
    have e := trimStart_lexeme (r := rest) hw hl
    have e2 := List.length_pos_iff.mpr (lexeme_ne_nil hl)
    simp only [List.length_append] at hk
    cases k with
    | zero => omega
    | succ k =>
      have h1 := lexOne_complete hl hlong
      have h2 := ih k (by omega)
      obtain ⟨c, cs, hlx, hc⟩ := lexeme_head hl
      have h3 : (ws ++ (lx ++ rest)).takeWhile isWhite = ws := by rw [hlx, List.cons_append]; exact htake hw hc
      have h4 : (lx ++ rest).take ((lx ++ rest).length - rest.length) = lx := by
        rw [List.length_append, Nat.add_sub_cancel, List.take_left']
        rfl
      simp only [spansAux, e, h3, utf8Len_eq]
      rw [hlx, List.cons_append] at h1 h4 ⊢
      simp only [h1, h4]
      rw [← hlx, h2]

theorem spans_scans {o : Nat} {s : Str} {sp : List Span} {bad : Option Nat} (h : Spans o s sp bad) : Scans s (toks sp) bad.isNone := by
  induction h with
  | nil hw => exact .nil hw
  | bad hw hc hn => exact .bad hw hc hn
  | cons hw hl hlong _ ih => exact .cons hw hl hlong ih

theorem spans_ne {o : Nat} {s : Str} {sp : List Span} {bad : Option Nat} (hs : s ≠ []) (h : Spans o s sp bad) (ht : Trimmed s) : sp ≠ [] ∨ bad ≠ none := by
  cases h with
  | nil hw =>
    exfalso
    cases s with
    | nil => exact hs rfl
    | cons c s =>
      have := ht.1 c rfl
      rw [hw c (List.mem_cons_self ..)] at this
      cases this
  | bad => exact .inr (by simp)
  | cons => exact .inl (by simp)

/-! ### Reports, by kind -/

theorem verdict_invalid {ts : List Tok} {b : Bool} (h : Verdict ts b .invalidToken) :
    b = false ∧ (Begins ts ∨ ∃ p ds, ts = p ++ [.num ds] ∧ Begins (p ++ [.num ['0']])) := by
  cases h with
  | noToken h => exact ⟨rfl, .inl h⟩
  | noTokenAfter h => exact ⟨rfl, .inr ⟨_, _, rfl, h⟩⟩

theorem verdict_unrecognized {ts r : List Tok} {b : Bool} (h : Verdict ts b (.unrecognized r)) :
    (r = [] ∧ b = true ∧ Begins ts ∧ ¬ ∃ t, Derives .expr ts t) ∨
    ∃ p a rest, r = a :: rest ∧ ts = p ++ a :: rest ∧ Begins p ∧ ¬ Begins (p ++ [plain a]) ∧ ¬ ((∃ t, Derives .expr p t) ∧ (a = .rpar ∨ a = .colon)) := by
  cases h with
  | early h h' => exact .inl ⟨rfl, rfl, h, h'⟩
  | unexpected h h' h'' => exact .inr ⟨_, _, _, rfl, rfl, h, h', h''⟩

theorem verdict_user {ts r : List Tok} {b : Bool} (h : Verdict ts b (.user r)) :
    ∃ p ds, ts = p ++ .num ds :: r ∧ Begins (p ++ [.num ['0']]) ∧ 2 ^ 63 ≤ Nat.ofDigitChars 10 ds 0 ∧ (r = [] → b = true) := by
  cases h with
  | large h h' h'' => exact ⟨_, _, rfl, h, h', h''⟩

theorem verdict_extra {ts r : List Tok} {b : Bool} (h : Verdict ts b (.extra r)) :
    ∃ p t a rest, r = a :: rest ∧ ts = p ++ a :: rest ∧ Derives .expr p t ∧ (a = .rpar ∨ a = .colon) := by
  cases h with
  | extra h h' => exact ⟨_, _, _, _, rfl, rfl, h, h'⟩

theorem verdict_stuck {ts : List Tok} {b : Bool} : ¬ Verdict ts b .stuck := fun h => nomatch h

/-! ### The message by the report -/

/-- The message for a report of the parser. -/
inductive Text (precise : Bool) : List Span → Option Nat → LrResult → Str → Prop
  | invalid {sp o} : Text precise sp (some o) .invalidToken (c!"Invalid token at " ++ dec o)
  | early {sp x line} : ExpectLine precise (toks (sp ++ [x])) none line →
      Text precise (sp ++ [x]) none (.unrecognized []) (c!"Unrecognized EOF found at " ++ dec x.stop ++ line)
  | large {sp bad r} : Text precise sp bad (.user r) (c!"number too large to fit in target type")
  | extra {sp x rest bad} : Text precise (sp ++ x :: rest) bad (.extra (toks (x :: rest)))
      (c!"Extra token " ++ x.text ++ c!" found at " ++ dec x.start ++ c!":" ++ dec x.stop)
  | unexpected {sp x rest bad line} : ExpectLine precise (toks sp) (some x.tok) line → Text precise (sp ++ x :: rest) bad (.unrecognized (toks (x :: rest)))
      (c!"Unrecognized token `" ++ x.text ++ c!"` found at " ++ dec x.start ++ c!":" ++ dec x.stop ++ line)

theorem text_accept {precise : Bool} {sp : List Span} {bad : Option Nat} {t : Node} {m : Str} : ¬ Text precise sp bad (.accept t) m := fun h => nomatch h

theorem toks_append (a b : List Span) : toks (a ++ b) = toks a ++ toks b := List.map_append ..

theorem says_text {precise : Bool} {sp : List Span} {bad : Option Nat} {m : Str} (h : Says precise sp bad m) :
    ∃ r, Verdict (toks sp) bad.isNone r ∧ Text precise sp bad r m := by
  cases h with
  | noToken h => exact ⟨_, .noToken h, .invalid⟩
  | @noTokenAfter sp x ds o hx h =>
    refine ⟨_, ?_, .invalid⟩
    rw [toks_append, show toks [x] = [.num ds] by simp [toks, hx]]
    exact .noTokenAfter h
  | early h h' hl => exact ⟨_, .early h h', .early hl⟩
  | @large sp x ds rest bad hx h h' h'' =>
    refine ⟨.user (toks rest), ?_, .large⟩
    rw [toks_append, show toks (x :: rest) = .num ds :: toks rest by simp [toks, hx]]
    refine .large h h' fun hr => ?_
    rw [h'' (by simpa [toks] using hr)]
    rfl
  | extra h h' =>
    refine ⟨_, ?_, .extra⟩
    rw [toks_append]
    exact .extra h h'
  | unexpected h h' h'' hl =>
    refine ⟨_, ?_, .unexpected hl⟩
    rw [toks_append]
    exact .unexpected h h' h''

theorem text_says {precise : Bool} {sp : List Span} {bad : Option Nat} {r : LrResult} {m : Str} (hv : Verdict (toks sp) bad.isNone r) (h : Text precise sp bad r m) :
    Says precise sp bad m := by
  cases h with
  | @invalid sp o =>
    rcases (verdict_invalid hv).2 with h | ⟨p, ds, he, h⟩
    · exact .noToken h
    · obtain ⟨s₁, s₂, rfl, h1, h2⟩ := List.map_eq_append_iff.mp he
      cases s₂ with
      | nil => cases h2
      | cons x s₂ =>
        simp only [List.map_cons, List.cons.injEq, List.map_eq_nil_iff] at h2
        obtain ⟨h2, rfl⟩ := h2
        exact .noTokenAfter h2 (by rw [show toks s₁ = p from h1]; exact h)
  | @early sp x line hl =>
    rcases verdict_unrecognized hv with ⟨_, _, h, h'⟩ | ⟨_, _, _, hr, _⟩
    · exact .early h h' hl
    · cases hr
  | @large sp bad r =>
    obtain ⟨p, ds, he, h, h', h''⟩ := verdict_user hv
    obtain ⟨s₁, s₂, rfl, h1, h2⟩ := List.map_eq_append_iff.mp he
    cases s₂ with
    | nil => cases h2
    | cons x s₂ =>
      simp only [List.map_cons, List.cons.injEq] at h2
      refine .large h2.1 (by rw [show toks s₁ = p from h1]; exact h) h' ?_
      intro hs
      rw [hs] at h2
      simpa using h'' h2.2.symm
  | @extra sp x rest bad =>
    obtain ⟨p, t, a, rest', hr, he, h, h'⟩ := verdict_extra hv
    rw [toks_append, ← hr] at he
    obtain ⟨rfl, _⟩ := List.append_inj' he rfl
    cases hr
    exact .extra h h'
  | @unexpected sp x rest bad line hl =>
    rcases verdict_unrecognized hv with ⟨hr, _⟩ | ⟨p, a, rest', hr, he, h, h', h''⟩
    · cases hr
    · rw [toks_append, ← hr] at he
      obtain ⟨rfl, _⟩ := List.append_inj' he rfl
      cases hr
      exact .unexpected h h' h'' hl

theorem span_inj {sp sp' rest rest' : List Span} {x x' : Span} (h : sp ++ x :: rest = sp' ++ x' :: rest') (ht : toks (x :: rest) = toks (x' :: rest')) :
    sp = sp' ∧ x = x' ∧ rest = rest' := by
  have hl := congrArg List.length ht
  obtain ⟨h1, h2⟩ := List.append_inj' h (by simpa [toks] using hl)
  cases h2
  exact ⟨h1, rfl, rfl⟩

theorem text_unique {precise : Bool} {sp : List Span} {bad : Option Nat} {r : LrResult} {m m' : Str} (h : Text precise sp bad r m) (h' : Text precise sp bad r m') :
    m = m' := by
  cases h with
  | invalid => cases h'; rfl
  | large => cases h'; rfl
  | @early sp x line hl =>
    generalize hs : sp ++ [x] = sp' at h'
    generalize hr : LrResult.unrecognized [] = r at h'
    cases h' with
    | early hl' =>
      obtain ⟨rfl, h1⟩ := List.append_inj' hs rfl
      cases h1
      rw [expectLine_unique hl hl']
    | unexpected => cases hr
    | _ => cases hr
  | @extra sp x rest bad =>
    generalize hs : sp ++ x :: rest = sp' at h'
    generalize hr : LrResult.extra (toks (x :: rest)) = r at h'
    cases h' with
    | extra =>
      obtain ⟨rfl, rfl, rfl⟩ := span_inj hs (by simpa using hr)
      rfl
    | _ => cases hr
  | @unexpected sp x rest bad line hl =>
    generalize hs : sp ++ x :: rest = sp' at h'
    generalize hr : LrResult.unrecognized (toks (x :: rest)) = r at h'
    cases h' with
    | early hl' => cases hr
    | unexpected hl' =>
      obtain ⟨rfl, rfl, rfl⟩ := span_inj hs (by simpa using hr)
      rw [expectLine_unique hl hl']
    | _ => cases hr

theorem says_unique {precise : Bool} {sp : List Span} {bad : Option Nat} {m m' : Str} (h : Says precise sp bad m) (h' : Says precise sp bad m') : m = m' := by
  obtain ⟨r, h1, h2⟩ := says_text h
  obtain ⟨r', h1', h2'⟩ := says_text h'
  cases verdict_unique h1 h1'
  exact text_unique h2 h2'

/-! ### The message of the model -/

/-- `formulaError` on a text without white space at its ends, with its tokens given. -/
def messageOf (precise : Bool) (sp : List Span) (bad : Option Nat) : Option Str :=
  let fuel := 14 * (toks sp).length + 14
  let expected := fmtExpected (expectedNames precise ((lrEnd bad.isNone fuel [] (toks sp)).map (·.2)))
  match lrLoop bad.isNone fuel [] (toks sp) with
  | .accept _ => none
  | .invalidToken => some (c!"Invalid token at " ++ dec (bad.getD 0))
  | .unrecognized rest =>
    match sp.drop (sp.length - rest.length) with
    | [] => some (c!"Unrecognized EOF found at " ++ dec (((sp.getLast?).map (·.stop)).getD 0) ++ expected)
    | x :: _ => some (c!"Unrecognized token `" ++ x.text ++ c!"` found at " ++ dec x.start ++ c!":" ++ dec x.stop ++ expected)
  | .extra rest =>
    match sp.drop (sp.length - rest.length) with
    | [] => some []
    | x :: _ => some (c!"Extra token " ++ x.text ++ c!" found at " ++ dec x.start ++ c!":" ++ dec x.stop)
  | .user _ => some (c!"number too large to fit in target type")
  | .stuck => some []

theorem formulaError_eq (precise : Bool) (s : Str) : formulaError precise s = if (trim s).isEmpty then none else messageOf precise (spans (trim s)).1 (spans (trim s)).2 := rfl

theorem split_toks {sp : List Span} {p r : List Tok} (h : toks sp = p ++ r) : ∃ s₁ s₂, sp = s₁ ++ s₂ ∧ toks s₁ = p ∧ toks s₂ = r ∧ sp.drop (sp.length - r.length) = s₂ := by
  obtain ⟨s₁, s₂, rfl, h1, h2⟩ := List.map_eq_append_iff.mp h
  refine ⟨s₁, s₂, rfl, h1, h2, ?_⟩
  rw [← h2, List.length_map, List.length_append, Nat.add_sub_cancel]
  simp

/-- **The message**: a tree, or a message that is the one of the grammar. -/
theorem message_says (precise : Bool) {sp : List Span} {bad : Option Nat} (hne : sp ≠ [] ∨ bad ≠ none) :
    (messageOf precise sp bad = none ∧ ∃ t, Verdict (toks sp) bad.isNone (.accept t)) ∨ ∃ m, messageOf precise sp bad = some m ∧ Says precise sp bad m := by
  have hv := loop_verdict bad.isNone (toks sp)
  obtain ⟨xs, w, rest, hc, hw, hs⟩ := loop_ctx bad.isNone (k := 14 * (toks sp).length + 14) (ctx_nil (toks sp)) (weight_start _)
  rw [List.nil_append] at hw
  unfold messageOf
  simp only
  generalize hr : lrLoop bad.isNone (14 * (toks sp).length + 14) [] (toks sp) = r at hv hs
  cases r with
  | accept t => exact .inl ⟨rfl, t, hv⟩
  | invalidToken =>
    refine .inr ⟨_, rfl, text_says hv ?_⟩
    cases bad with
    | none =>
      cases (verdict_invalid hv).1
    | some o => exact .invalid
  | stuck =>
    exact absurd hv verdict_stuck
  | user r' => exact .inr ⟨_, rfl, text_says hv .large⟩
  | extra r' =>
    right
    have : ∃ p, toks sp = p ++ r' ∧ r' ≠ [] := by
      obtain ⟨p, _, a, rest', rfl, he, _⟩ := verdict_extra hv
      exact ⟨p, he, by simp⟩
    obtain ⟨p, hp, hne'⟩ := this
    obtain ⟨s₁, s₂, rfl, h1, h2, h3⟩ := split_toks hp
    simp only [h3]
    cases s₂ with
    | nil => exact absurd h2.symm hne'
    | cons x s₂ => exact ⟨_, rfl, text_says hv (by rw [← h2]; exact .extra)⟩
  | unrecognized r' =>
    right
    obtain ⟨rfl, hm⟩ := step_unrecognized hs
    have hb : Begins w := by
      rcases holds_begins hc.holds with hb | ⟨he, _⟩
      · exact begins_iff.mpr hb
      · rw [he] at hm
        have : ∀ a, move [⟨32, 1⟩] a = .reduce 32 := by intro a; rfl
        rw [this] at hm; cases hm
    have hl := expectLine_of hc hm hb precise
    obtain ⟨s₁, s₂, rfl, h1, h2, h3⟩ := split_toks hw
    simp only [h3]
    cases s₂ with
    | nil =>
      rw [← h2] at hl hv
      rw [← h1] at hl
      simp only [List.append_nil] at hv hl ⊢
      have hbad : bad = none := by
        rcases verdict_unrecognized hv with ⟨_, h, _⟩ | ⟨_, _, _, hr, _⟩
        · simpa using h
        · cases hr
      subst hbad
      rcases List.eq_nil_or_concat s₁ with rfl | ⟨s, x, rfl⟩
      · simp at hne
      · rw [List.concat_eq_append] at hl hv ⊢
        refine ⟨_, rfl, text_says hv ?_⟩
        have := Text.early (precise := precise) hl
        simpa [show toks [] = [] from rfl] using this
    | cons x s₂ =>
      rw [← h2] at hl hv
      refine ⟨_, rfl, text_says hv ?_⟩
      rw [← h1] at hl
      have := Text.unexpected (precise := precise) (sp := s₁) (x := x) (rest := s₂) (bad := bad) hl
      simpa [toks] using this

end Verif
