import Verif.Lemmas.Resume
import Verif.Props.Errors
import Verif.Lemmas.Texts
import Verif.Spec.Resume

/-! C51: streams that go on after having reported the end of input. -/

namespace Verif
open Spec

/-- **C51** Also on a stream that goes on after having reported the end of input, `parse()` returns an error, or a reader that yields finitely many units,
then at most one error, then `None` for ever; nothing panics and the header data stay the same. -/
theorem C51_total (env : Env) (stream : List Event) (later : List (List Event)) :
    (∃ e, Fails (parseResuming env stream later) e) ∨ ∃ hdr us e, Yields (parseResuming env stream later) hdr (results us e) :=
  new_total env _

/-! ### Reports of the end of input that are not noticed -/

/-- Items with reports of the end of input in between, and the items. -/
inductive Joined : List (Option Item) → List Item → Prop
  | nil : Joined [] []
  | cons {x p l} : Joined p l → Joined (some x :: p) (x :: l)
  | stop {n c t p} : Joined (some (.ok (.comment n c t)) :: none :: p) [.ok (.comment n c t)]
  | gap {x y p l} : TextLine x → OpenLine y → Joined p (.ok y :: l) → Joined (some (.ok x) :: none :: p) (.ok x :: .ok y :: l)
  | refuse {x n q s q' s' p l} : TextLine x → lastMarker [x] ≠ some q' →
      Joined (some (.ok x) :: none :: some (.ok (.continuation n q s)) :: p) (.ok x :: .ok (.continuation n q' s') :: l)

/-- The same, or before a continuation line that continues nothing. -/
inductive JoinedNow : List (Option Item) → List Item → Prop
  | here {p l} : Joined p l → JoinedNow p l
  | stuck {n q s q' s' p l} : JoinedNow (some (.ok (.continuation n q s)) :: p) (.ok (.continuation n q' s') :: l)

/-- The same after a comment. -/
inductive JoinedComment : List (Option Item) → List Item → Prop
  | here {p l} : JoinedNow p l → JoinedComment p l
  | stop {p} : JoinedComment (none :: p) []

/-- The same after a text line with the marker `m`. -/
inductive JoinedAfter (m : Str) : List (Option Item) → List Item → Prop
  | here {p l} : Joined p l → JoinedAfter m p l
  | gap {y p l} : OpenLine y → Joined p (.ok y :: l) → JoinedAfter m (none :: p) (.ok y :: l)
  | refuse {n q s q' s' p l} : q' ≠ m → JoinedAfter m (none :: some (.ok (.continuation n q s)) :: p) (.ok (.continuation n q' s') :: l)

theorem joined_contLoop (pfx : Str) {p : List (Option Item)} {l : List Item} (h : JoinedAfter pfx p l) {k k' : Nat} (hk : p.length < k) (hk' : l.length < k')
    (acc : Str) : (contLoop pfx k acc p).1 = (contLoop pfx k' acc l).1 ∧ JoinedNow (contLoop pfx k acc p).2 (contLoop pfx k' acc l).2 := by
  induction k generalizing p l k' acc with
  | zero => omega
  | succ k ih =>
    cases k' with
    | zero => omega
    | succ k' =>
      rw [contLoop_eq, contLoop_eq]
      cases h with
      | gap hy hj => cases ‹PoLine› <;> first | exact absurd hy id | exact ⟨rfl, .here hj⟩
      | refuse hq =>
        show _ = (if _ then _ else _ : _ × _).1 ∧ JoinedNow _ (if _ then _ else _ : _ × _).2
        rw [if_pos hq]
        exact ⟨rfl, .stuck⟩
      | here h =>
        cases h with
        | nil => exact ⟨rfl, .here .nil⟩
        | stop => exact ⟨rfl, .here .stop⟩
        | @cons x p l hj =>
          cases x with
          | error e => exact ⟨rfl, .here hj⟩
          | ok x =>
            cases x with
            | continuation n q s =>
              show (if _ then _ else _ : _ × _).1 = (if _ then _ else _ : _ × _).1 ∧ JoinedNow (if _ then _ else _ : _ × _).2 (if _ then _ else _ : _ × _).2
              by_cases hq : q ≠ pfx
              · rw [if_pos hq, if_pos hq]; exact ⟨rfl, .here (.cons hj)⟩
              · rw [if_neg hq, if_neg hq]
                exact ih (.here hj) (by simpa using hk) (by simpa using hk') _
            | _ => exact ⟨rfl, .here (.cons hj)⟩
        | @gap x y p l hx hy hj =>
          cases x with
          | continuation n q s =>
            show (if _ then _ else _ : _ × _).1 = (if _ then _ else _ : _ × _).1 ∧ JoinedNow (if _ then _ else _ : _ × _).2 (if _ then _ else _ : _ × _).2
            by_cases hq : q ≠ pfx
            · rw [if_pos hq, if_pos hq]; exact ⟨rfl, .here (.gap hx hy hj)⟩
            · rw [if_neg hq, if_neg hq]
              exact ih (.gap hy hj) (by simpa using hk) (by simpa using hk') _
          | _ => exact ⟨rfl, .here (.gap hx hy hj)⟩
        | @refuse x n q s q' s' p l hx hm =>
          cases x with
          | continuation n₁ q₁ s₁ =>
            show (if _ then _ else _ : _ × _).1 = (if _ then _ else _ : _ × _).1 ∧ JoinedNow (if _ then _ else _ : _ × _).2 (if _ then _ else _ : _ × _).2
            by_cases hq : q₁ ≠ pfx
            · rw [if_pos hq, if_pos hq]; exact ⟨rfl, .here (.refuse hx hm)⟩
            · rw [if_neg hq, if_neg hq]
              refine ih (.refuse fun e => hm ?_) (by simpa using hk) (by simpa using hk') _
              rw [e, ← Decidable.of_not_not hq]; rfl
          | _ => exact ⟨rfl, .here (.refuse hx hm)⟩

theorem joined_text {a : Out Str × List (Option Item)} {b : Out Str × List Item} (h : a.1 = b.1 ∧ JoinedNow a.2 b.2) :
    (someText a).1 = (someText b).1 ∧ JoinedNow (someText a).2 (someText b).2 := by
  obtain ⟨a, p⟩ := a
  obtain ⟨b, l⟩ := b
  obtain ⟨h1, h2⟩ := h
  simp only at h1 h2
  subst h1
  cases a <;> exact ⟨rfl, h2⟩

theorem joined_parseMsg (tag : Str) (o : Bool) : Sim JoinedNow (parseMsg tag o) (parseMsg tag o) := by
  intro p l h
  rw [parseMsg_eq, parseMsg_eq]
  cases h with
  | stuck => exact ⟨rfl, .stuck⟩
  | here h =>
  cases h with
  | nil => exact ⟨rfl, .here .nil⟩
  | stop => exact ⟨rfl, .here .stop⟩
  | @cons x p l hj =>
    cases x with
    | error e => exact ⟨rfl, .here hj⟩
    | ok x =>
      cases x with
      | message n q t v =>
        show (if _ then _ else _ : _ × _).1 = (if _ then _ else _ : _ × _).1 ∧ JoinedNow (if _ then _ else _ : _ × _).2 (if _ then _ else _ : _ × _).2
        by_cases hc : t = tag ∧ startsTilde q = o
        · rw [if_pos hc, if_pos hc]
          exact joined_text (joined_contLoop q (.here hj) (Nat.lt_succ_self _) (Nat.lt_succ_self _) v)
        · rw [if_neg hc, if_neg hc]; exact ⟨rfl, .here (.cons hj)⟩
      | _ => exact ⟨rfl, .here (.cons hj)⟩
  | @gap x y p l hx hy hj =>
    cases x with
    | message n q t v =>
      show (if _ then _ else _ : _ × _).1 = (if _ then _ else _ : _ × _).1 ∧ JoinedNow (if _ then _ else _ : _ × _).2 (if _ then _ else _ : _ × _).2
      by_cases hc : t = tag ∧ startsTilde q = o
      · rw [if_pos hc, if_pos hc]
        exact joined_text (joined_contLoop q (.gap hy hj) (Nat.lt_succ_self _) (Nat.lt_succ_self _) v)
      · rw [if_neg hc, if_neg hc]; exact ⟨rfl, .here (.gap hx hy hj)⟩
    | _ => exact ⟨rfl, .here (.gap hx hy hj)⟩
  | @refuse x n q s q' s' p l hx hm =>
    cases x with
    | message n₁ q₁ t v =>
      show (if _ then _ else _ : _ × _).1 = (if _ then _ else _ : _ × _).1 ∧ JoinedNow (if _ then _ else _ : _ × _).2 (if _ then _ else _ : _ × _).2
      by_cases hc : t = tag ∧ startsTilde q₁ = o
      · rw [if_pos hc, if_pos hc]
        exact joined_text (joined_contLoop q₁ (.refuse fun e => hm (by rw [e]; rfl)) (Nat.lt_succ_self _) (Nat.lt_succ_self _) v)
      · rw [if_neg hc, if_neg hc]; exact ⟨rfl, .here (.refuse hx hm)⟩
    | _ => exact ⟨rfl, .here (.refuse hx hm)⟩

theorem joined_expected (e : Str) : Sim JoinedNow (expected e) (expected e) := by
  intro p l h
  cases h with
  | stuck => exact ⟨rfl, .stuck⟩
  | here h =>
  cases h with
  | nil => exact ⟨rfl, .here .nil⟩
  | stop => exact ⟨rfl, .here .stop⟩
  | @cons x p l hj =>
    cases x with
    | error e => exact ⟨rfl, .here hj⟩
    | ok x => cases x <;> exact ⟨rfl, .here (.cons hj)⟩
  | @gap x y p l hx hy hj => cases x <;> exact ⟨rfl, .here (.gap hx hy hj)⟩
  | @refuse x n q s q' s' p l hx hm => cases x <;> exact ⟨rfl, .here (.refuse hx hm)⟩

theorem joined_commentLoop {p : List (Option Item)} {l : List Item} (h : JoinedComment p l) {k k' : Nat} (hk : p.length < k) (hk' : l.length < k') (u : PoUnit) :
    (commentLoop k u p).1 = (commentLoop k' u l).1 ∧ JoinedComment (commentLoop k u p).2 (commentLoop k' u l).2 := by
  induction k generalizing p l k' u with
  | zero => omega
  | succ k ih =>
    cases k' with
    | zero => omega
    | succ k' =>
      rw [commentLoop_eq, commentLoop_eq]
      cases h with
      | stop => exact ⟨rfl, .stop⟩
      | here h =>
        cases h with
        | stuck => exact ⟨rfl, .here .stuck⟩
        | here h =>
        cases h with
        | nil => exact ⟨rfl, .here (.here .nil)⟩
        | stop => exact ih .stop (by simpa using hk) (by simpa using hk') _
        | @cons x p l hj =>
          cases x with
          | error e => exact ⟨rfl, .here (.here (.cons hj))⟩
          | ok x =>
            cases x with
            | comment => exact ih (.here (.here hj)) (by simpa using hk) (by simpa using hk') _
            | _ => exact ⟨rfl, .here (.here (.cons hj))⟩
        | @gap x y p l hx hy hj => cases x <;> first | exact absurd hx id | exact ⟨rfl, .here (.here (.gap hx hy hj))⟩
        | @refuse x n q s q' s' p l hx hm => cases x <;> first | exact absurd hx id | exact ⟨rfl, .here (.here (.refuse hx hm))⟩

theorem joined_parseComments (u : PoUnit) : Sim JoinedComment (parseComments u) (parseComments u) := by
  refine Sim.bind (fun p l h => joined_commentLoop h (Nat.lt_succ_self _) (Nat.lt_succ_self _) u) fun a => ?_
  intro p l h
  cases h with
  | stop => exact ⟨rfl, .stop⟩
  | here h =>
    cases h with
    | stuck => exact ⟨rfl, .here .stuck⟩
    | here h =>
    cases h with
    | nil => exact ⟨rfl, .here (.here .nil)⟩
    | stop => exact ⟨rfl, .here (.here .stop)⟩
    | @cons x p l hj =>
      cases x with
      | error e => exact ⟨rfl, .here (.here hj)⟩
      | ok x => cases x <;> exact ⟨rfl, .here (.here (.cons hj))⟩
    | @gap x y p l hx hy hj => cases x <;> exact ⟨rfl, .here (.here (.gap hx hy hj))⟩
    | @refuse x n q s q' s' p l hx hm => cases x <;> exact ⟨rfl, .here (.here (.refuse hx hm))⟩

/-- The result of `read_line`. -/
theorem readLine_eq {σ L : Type} [Src σ] [LawfulSrc σ] (r : Reader σ L) : readLine r =
    match (Src.peek r.lines).1 with
    | none => (.ok none, { r with lines := (Src.peek r.lines).2 })
    | some (.error e) =>
      match r.nextUnit with
      | some (.error e') => (.err e', { r with lines := (Src.peek r.lines).2, nextUnit := none })
      | _ => (.err e, { r with lines := (Src.next (Src.peek r.lines).2).2, nextUnit := none })
    | some (.ok (.message n p _ _)) => (.ok (some (n, startsTilde p)), { r with lines := (Src.peek r.lines).2 })
    | some (.ok v) => (.ok (some (v.line, false)), { r with lines := (Src.peek r.lines).2 }) := by
  have h := LawfulSrc.next_peek r.lines
  unfold readLine
  show Eff.bind (onLines peekE) _ r = _
  unfold Eff.bind onLines peekE
  simp only
  rcases hp : (Src.peek r.lines).1 with _ | e | p
  · rfl
  · rw [hp] at h
    simp only
    rcases hn : r.nextUnit with _ | _ | _
    · simp only
      show Eff.bind (onLines nextE) _ _ = _
      unfold Eff.bind onLines nextE
      simp only [h]
      rfl
    · rfl
    · simp only
      show Eff.bind (onLines nextE) _ _ = _
      unfold Eff.bind onLines nextE
      simp only [h]
      rfl
  · cases p with
    | message n p t s =>
      simp only
      by_cases ht : startsTilde p
      · rw [if_pos ht, ht]; rfl
      · rw [if_neg ht, eq_false_of_ne_true ht]; rfl
    | _ => rfl

/-- Readers with related sources. -/
theorem rel_lines {σ τ L : Type} {R S : σ → τ → Prop} {r : Reader σ L} {r' : Reader τ L} (h : ReaderRel R r r') {s : σ} {t : τ} (hs : S s t) :
    ReaderRel S { r with lines := s } { r' with lines := t } := ⟨hs, h.2, h.3, h.4, h.5, h.6, h.7⟩

theorem rel_lines_none {σ τ L : Type} {R S : σ → τ → Prop} {r : Reader σ L} {r' : Reader τ L} (h : ReaderRel R r r') {s : σ} {t : τ} (hs : S s t) :
    ReaderRel S { r with lines := s, nextUnit := none } { r' with lines := t, nextUnit := none } := ⟨hs, rfl, h.3, h.4, h.5, h.6, h.7⟩

theorem rel_mono {σ τ L : Type} {R S : σ → τ → Prop} {r : Reader σ L} {r' : Reader τ L} (h : ReaderRel R r r') (hs : S r.lines r'.lines) :
    ReaderRel S r r' := ⟨hs, h.2, h.3, h.4, h.5, h.6, h.7⟩

theorem joined_readLine {L : Type} {r : Reader (List (Option Item)) L} {r' : Reader (List Item) L} (h : ReaderRel JoinedComment r r') :
    (readLine r).1 = (readLine r').1 ∧ ReaderRel JoinedComment (readLine r).2 (readLine r').2 ∧
      ∀ x, (readLine r).1 = .ok (some x) → ReaderRel JoinedNow (readLine r).2 (readLine r').2 := by
  have hj := h.lines
  have hn := h.nextUnit
  rw [readLine_eq, readLine_eq]
  generalize hp : r.lines = p at hj
  generalize hl : r'.lines = l at hj
  cases hj with
  | stop => exact ⟨rfl, rel_lines h .stop, fun x hx => by cases hx⟩
  | here hj =>
    cases hj with
    | stuck => exact ⟨rfl, rel_lines h (.here .stuck), fun x hx => rel_lines h .stuck⟩
    | here hj =>
    cases hj with
    | nil => exact ⟨rfl, rel_lines h (.here (.here .nil)), fun x hx => by cases hx⟩
    | stop => exact ⟨rfl, rel_lines h (.here (.here .stop)), fun x hx => rel_lines h (.here .stop)⟩
    | @cons x p l hj =>
      cases x with
      | error e =>
        rw [← hn]
        rcases r.nextUnit with _ | _ | _
        · exact ⟨rfl, rel_lines_none h (.here (.here hj)), fun x hx => by cases hx⟩
        · exact ⟨rfl, rel_lines_none h (.here (.here (.cons hj))), fun x hx => by cases hx⟩
        · exact ⟨rfl, rel_lines_none h (.here (.here hj)), fun x hx => by cases hx⟩
      | ok x => cases x <;> exact ⟨rfl, rel_lines h (.here (.here (.cons hj))), fun _ _ => rel_lines h (.here (.cons hj))⟩
    | @gap x y p l hx hy hj => cases x <;> exact ⟨rfl, rel_lines h (.here (.here (.gap hx hy hj))), fun _ _ => rel_lines h (.here (.gap hx hy hj))⟩
    | @refuse x n q s q' s' p l hx hm =>
      cases x <;> exact ⟨rfl, rel_lines h (.here (.here (.refuse hx hm))), fun _ _ => rel_lines h (.here (.refuse hx hm))⟩

theorem joined_readUnit (L : Type) (first : Bool) : Sim (ReaderRel (L := L) JoinedComment) (readUnit first) (readUnit first) := by
  refine Sim.bind (sim_onLines (joined_parseComments _)) fun a => ?_
  intro r r' h
  obtain ⟨h1, h2, h3⟩ := joined_readLine h
  show (Eff.bind readLine _ r).1 = (Eff.bind readLine _ r').1 ∧ ReaderRel _ (Eff.bind readLine _ r).2 (Eff.bind readLine _ r').2
  unfold Eff.bind
  rcases hx : readLine r with ⟨x, s⟩
  rcases hy : readLine r' with ⟨y, t⟩
  rw [hx, hy] at h1 h2 h3
  simp only at h1 h2 h3
  subst h1
  rcases x with _ | e | _
  · rename_i o
    cases o with
    | none => exact ⟨rfl, h2⟩
    | some lo =>
      have key : Sim (ReaderRel (L := L) JoinedNow)
          (do match ← parseUnit { a with obsolete := lo.2 } first with
              | none => Eff.pure none
              | some unit =>
                match finishUnit first lo.1 unit with
                | .error e => Eff.err e
                | .ok u => Eff.pure (some u))
          (do match ← parseUnit { a with obsolete := lo.2 } first with
              | none => Eff.pure none
              | some unit =>
                match finishUnit first lo.1 unit with
                | .error e => Eff.err e
                | .ok u => Eff.pure (some u)) := by
        refine Sim.bind (sim_parseUnit ⟨joined_parseMsg, joined_expected⟩ _ _) fun c => ?_
        cases c with
        | none => exact Sim.pure _
        | some unit =>
          simp only
          cases finishUnit first lo.1 unit with
          | error e => exact Sim.err _
          | ok u => exact Sim.pure _
      obtain ⟨k1, k2⟩ := key s t (h3 _ rfl)
      exact ⟨k1, rel_mono k2 (.here k2.lines)⟩
  · exact ⟨rfl, h2⟩
  · exact ⟨rfl, h2⟩

/-! ### The lines of such streams -/

theorem flatten_append {a : List Event} (h : (flatten a).2 = none) (b : List Event) : flatten (a ++ b) = ((flatten a).1 ++ (flatten b).1, (flatten b).2) := by
  induction a with
  | nil => rfl
  | cons e a ih =>
    cases e with
    | interrupted => exact ih h
    | fail c => cases h
    | data x xs =>
      rw [List.cons_append, flatten, flatten, ih h]
      simp

theorem byteLines_append' (a b : List UInt8) (h : (byteLines a).2 = []) : byteLines (a ++ b) = ((byteLines a).1 ++ (byteLines b).1, (byteLines b).2) := by
  induction a with
  | nil => rfl
  | cons c a ih =>
    rw [byteLines] at h
    rw [List.cons_append, byteLines, byteLines]
    by_cases hc : c = 10
    · simp only [if_pos hc] at h ⊢
      rw [ih h]; rfl
    · simp only [if_neg hc] at h ⊢
      cases hl : (byteLines a).1 with
      | nil => rw [hl] at h; simp at h
      | cons l ls =>
        rw [hl] at h
        rw [ih h, hl]; rfl

theorem byteLines_end (a : List UInt8) : (byteLines (a ++ [10])).2 = [] ∧ (byteLines (a ++ [10])).1 =
    if (byteLines a).2 = [] then (byteLines a).1 ++ [[10]] else (byteLines a).1 ++ [(byteLines a).2 ++ [10]] := by
  induction a with
  | nil => exact ⟨rfl, rfl⟩
  | cons c a ih =>
    obtain ⟨h1, h2⟩ := ih
    rw [List.cons_append, byteLines, byteLines]
    by_cases hc : c = 10
    · simp only [if_pos hc]
      refine ⟨h1, ?_⟩
      rw [h2]
      split <;> rfl
    · simp only [if_neg hc]
      rw [h2, h1]
      by_cases hb : (byteLines a).2 = []
      · simp only [hb, if_true]
        cases hl : (byteLines a).1 with
        | nil => simp
        | cons l ls => simp
      · simp only [if_neg hb]
        cases hl : (byteLines a).1 with
        | nil => simp
        | cons l ls => simp [hb]

theorem byteLines_open {a : List UInt8} {b : UInt8} (hb : b ≠ 10) : ∃ r, (byteLines (a ++ [b])).2 = r ++ [b] := by
  induction a with
  | nil => exact ⟨[], by simp [byteLines, hb]⟩
  | cons c a ih =>
    obtain ⟨r, h⟩ := ih
    rw [List.cons_append, byteLines]
    split
    · exact ⟨r, h⟩
    · split
      · exact ⟨c :: r, by rw [h]; rfl⟩
      · exact ⟨r, h⟩

theorem utf8_end {t : Str} {a : List UInt8} (h : utf8 t = a ++ [10]) : ∃ t', t = t' ++ ['\n'] ∧ utf8 t' = a := by
  have hne : t ≠ [] := by rintro rfl; simp [utf8] at h
  obtain ⟨t', c, rfl⟩ : ∃ t' c, t = t' ++ [c] := ⟨t.dropLast, t.getLast hne, (List.dropLast_concat_getLast hne).symm⟩
  rw [utf8_append, utf8_cons] at h
  have hc : c = '\n' := by
    have h3 := congrArg List.getLast? h
    simp only [utf8, List.flatMap_nil, List.append_nil, List.getLast?_append, List.getLast?_singleton, Option.some_or] at h3
    rw [List.getLast?_eq_some_getLast (encodeChar_ne_nil c), Option.some_or, ← List.getLast?_eq_some_getLast (encodeChar_ne_nil c)] at h3
    have h4 := mem_encodeChar (List.mem_of_getLast? h3)
    have h10 : (10 : UInt8).toNat = 10 := rfl
    rw [h10] at h4
    apply Char.toNat_inj.mp
    show c.toNat = 10
    omega
  subst hc
  refine ⟨t', rfl, ?_⟩
  simp only [utf8_nl, utf8, List.flatMap_nil, List.append_nil] at h ⊢
  exact List.append_cancel_right h

theorem lineText_open {r : List UInt8} {b : UInt8} (hb : b ≠ 10) (hb' : b ≠ 13) : lineText ((r ++ [b]) ++ [10]) = lineText (r ++ [b]) := by
  refine lineText_iff.mpr ?_
  by_cases h : ∃ s, r ++ [b] = utf8 s
  · obtain ⟨s, hs⟩ := h
    have hl : ∀ c, s.getLast? = some c → b ∈ String.utf8EncodeChar c := by
      intro c hc
      obtain ⟨s', rfl⟩ : ∃ s', s = s' ++ [c] := by
        obtain ⟨h1, h2⟩ := List.getLast?_eq_some_iff.mp hc
        exact ⟨h1, h2⟩
      rw [utf8_append, utf8_cons] at hs
      have := congrArg List.getLast? hs
      simp only [utf8, List.flatMap_nil, List.append_nil, List.getLast?_append, List.getLast?_singleton, Option.some_or] at this
      rw [List.getLast?_eq_some_getLast (encodeChar_ne_nil c), Option.some_or, ← List.getLast?_eq_some_getLast (encodeChar_ne_nil c)] at this
      exact List.mem_of_getLast? this.symm
    have h1 : s.getLast? ≠ some '\r' := by
      intro hc
      have := hl _ hc
      have : b = 13 := by simpa [show String.utf8EncodeChar '\r' = [13] from rfl] using this
      exact hb' this
    have h2 : s.getLast? ≠ some '\n' := by
      intro hc
      have := hl _ hc
      have : b = 10 := by simpa [show String.utf8EncodeChar '\n' = [10] from rfl] using this
      exact hb this
    rw [hs, (lineText_iff.mpr (.open h2) : lineText (utf8 s) = .ok s)]
    have : utf8 s ++ [10] = utf8 (s ++ ['\n']) := by rw [utf8_append]; rfl
    rw [this]
    exact .lf h1
  · rw [(lineText_iff.mpr (.bad fun s hs => h ⟨s, hs⟩) : lineText (r ++ [b]) = .error .invalidUtf8)]
    refine .bad fun s hs => ?_
    obtain ⟨t', _, ht⟩ := utf8_end hs.symm
    exact h ⟨t', ht.symm⟩

theorem rawLines_between {s : List Event} {bs : List UInt8} (h : Delivers s (bs ++ [10])) (t : List Event) :
    rawLines (flatten (s ++ t)) = rawLines (flatten s) ++ rawLines (flatten t) := by
  have hb := (byteLines_end bs).1
  unfold Delivers at h
  rw [flatten_append (by rw [h]), h]
  unfold rawLines
  simp only
  rw [byteLines_append' _ _ hb, hb]
  simp

theorem rawLines_inside {s : List Event} {bs : List UInt8} {b : UInt8} (h : Delivers s (bs ++ [b])) (hb : b ≠ 10) (hb' : b ≠ 13) (t : List Event) :
    rawLines (flatten (s ++ .data 10 [] :: t)) = rawLines (flatten s) ++ rawLines (flatten t) := by
  obtain ⟨r, hr⟩ := byteLines_open (a := bs) hb
  obtain ⟨h1, h2⟩ := byteLines_end (bs ++ [b])
  rw [hr, if_neg (by simp)] at h2
  unfold Delivers at h
  rw [flatten_append (by rw [h]), h, flatten]
  have : (bs ++ [b]) ++ (([10] : List UInt8) ++ (flatten t).1) = (bs ++ [b] ++ [10]) ++ (flatten t).1 := by simp
  unfold rawLines
  simp only
  rw [this, byteLines_append' _ _ h1, h2, hr]
  rw [List.map_append, List.map_append, List.map_singleton, if_neg (show ¬(r ++ [b] = []) by simp), lineText_open hb hb']
  simp

theorem pollItems_append {n : Nat} {rs : List (Except IoErr Str)} (h : ∀ e, .error e ∉ items n rs) (q : List (Option (Except IoErr Str))) :
    pollItems n (rs.map some ++ q) = (items n rs).map some ++ pollItems (n + rs.length) q := by
  induction rs generalizing n with
  | nil => rfl
  | cons r rs ih =>
    cases r with
    | error e => exact absurd (by simp [items]) (h (.io n e))
    | ok s =>
      rw [List.map_cons, List.cons_append, pollItems]
      rw [items] at h ⊢
      rw [show n + (Except.ok s :: rs).length = n + 1 + rs.length from by simp; omega]
      cases hp : parseLine s n with
      | none => rw [hp] at h; exact absurd (by simp) (h (.parse (n + 1) s []))
      | some p =>
        rw [hp] at h
        cases p <;> simp only at h ⊢
        · exact ih h
        all_goals rw [ih (fun e he => h e (List.mem_cons_of_mem _ he))]; rfl

theorem pollItems_error {n : Nat} {rs : List (Except IoErr Str)} {e : Err} (h : .error e ∈ items n rs) (q : List (Option (Except IoErr Str))) :
    pollItems n (rs.map some ++ q) = (items n rs).map some := by
  induction rs generalizing n with
  | nil => simp [items] at h
  | cons r rs ih =>
    cases r with
    | error x => rfl
    | ok s =>
      rw [List.map_cons, List.cons_append, pollItems]
      simp only [items] at h ⊢
      cases hp : parseLine s n with
      | none => rfl
      | some p =>
        rw [hp] at h
        cases p <;> simp only at h ⊢
        · exact ih h
        all_goals
          simp only [List.mem_cons, reduceCtorEq, false_or] at h
          rw [ih h]; rfl

theorem joined_map {p : List (Option Item)} {l : List Item} (a : List Item) (h : Joined p l) : Joined (a.map some ++ p) (a ++ l) := by
  induction a with
  | nil => exact h
  | cons x a ih => exact .cons ih

theorem joined_gap {p : List (Option Item)} {l a : List Item} {x y : PoLine} (h : Joined p l) (ha : a.getLast? = some (.ok x)) (hx : TextLine x)
    (hl : l.head? = some (.ok y)) (hy : OpenLine y) : Joined (a.map some ++ none :: p) (a ++ l) := by
  obtain ⟨a', rfl⟩ : ∃ a', a = a' ++ [.ok x] := by
    obtain ⟨h1, h2⟩ := List.getLast?_eq_some_iff.mp ha
    exact ⟨h1, h2⟩
  cases l with
  | nil => cases hl
  | cons z l =>
    cases hl
    rw [List.map_append, List.append_assoc, List.append_assoc]
    exact joined_map a' (.gap hx hy h)

theorem parseLine_renumber {s : Str} (h : '\n' ∉ s) (n m : Nat) : parseLine s m = (parseLine s n).map fun ln => match ln with
      | .blank => .blank
      | .comment _ c t => .comment m c t
      | .message _ p k t => .message m p k t
      | .continuation _ p t => .continuation m p t :=
  (C06_line_classification s m h _).mpr (classified_renumber ((C06_line_classification s n h _).mp rfl) m)

/-- Two items of the same kind. -/
def SameKind : Item → Item → Prop
  | .ok p, .ok q => (TextLine p ↔ TextLine q) ∧ (OpenLine p ↔ OpenLine q) ∧ lastMarker [p] = lastMarker [q]
  | .error _, .error _ => True
  | _, _ => False

/-- Item by item the same kinds. -/
inductive SameKinds : List Item → List Item → Prop
  | nil : SameKinds [] []
  | cons {x y a b} : SameKind x y → SameKinds a b → SameKinds (x :: a) (y :: b)

theorem items_kind {rs : List (Except IoErr Str)} (hn : ∀ s, .ok s ∈ rs → '\n' ∉ s) (n m : Nat) :
    SameKinds (items n rs) (items m rs) := by
  induction rs generalizing n m with
  | nil => exact .nil
  | cons r rs ih =>
    have ih := fun n m => ih (fun s hs => hn s (List.mem_cons_of_mem _ hs)) n m
    cases r with
    | error e => exact .cons trivial .nil
    | ok s =>
      simp only [items]
      rw [parseLine_renumber (hn s (by simp)) n m]
      cases parseLine s n with
      | none => exact .cons trivial .nil
      | some p =>
        cases p with
        | blank => exact ih _ _
        | _ => exact .cons ⟨Iff.rfl, Iff.rfl, rfl⟩ (ih _ _)

theorem kind_head {a b : List Item} (h : SameKinds a b) {q : PoLine} (ha : a.head? = some (.ok q)) (hq : OpenLine q) :
    ∃ q', b.head? = some (.ok q') ∧ OpenLine q' := by
  cases h with
  | nil => cases ha
  | @cons x y a b hxy h =>
    cases ha
    cases y with
    | error e => exact absurd hxy id
    | ok q' => exact ⟨q', rfl, hxy.2.1.mp hq⟩

theorem kind_last {a b : List Item} (h : SameKinds a b) {q : PoLine} (ha : a.getLast? = some (.ok q)) (hq : TextLine q) :
    ∃ q', b.getLast? = some (.ok q') ∧ TextLine q' ∧ lastMarker [q'] = lastMarker [q] := by
  induction h with
  | nil => cases ha
  | @cons x y a b hxy h ih =>
    cases h with
    | nil =>
      cases ha
      cases y with
      | error e => exact absurd hxy id
      | ok q' => exact ⟨q', rfl, hxy.1.mp hq, hxy.2.2.symm⟩
    | cons h1 h2 =>
      rw [List.getLast?_cons_cons] at ha ⊢
      exact ih ha

theorem kind_error {a b : List Item} (h : SameKinds a b) {e : Err} (ha : .error e ∈ a) : ∃ e, .error e ∈ b := by
  induction h with
  | nil => cases ha
  | @cons x y a b hxy h ih =>
    cases ha with
    | head =>
      cases y with
      | error e' => exact ⟨e', List.mem_cons_self ..⟩
      | ok q => exact absurd hxy id
    | tail _ ha =>
      obtain ⟨e', h⟩ := ih ha
      exact ⟨e', List.mem_cons_of_mem _ h⟩

theorem no_error_of_last {n : Nat} {rs : List (Except IoErr Str)} {q : PoLine} (h : (items n rs).getLast? = some (.ok q)) (e : Err) : .error e ∉ items n rs := by
  intro he
  induction rs generalizing n with
  | nil => simp [items] at he
  | cons r rs ih =>
    cases r with
    | error x => simp [items] at h
    | ok s =>
      rw [items] at h he
      cases hp : parseLine s n with
      | none => rw [hp] at h; simp at h
      | some p =>
        rw [hp] at h he
        cases p with
        | blank => exact ih h he
        | _ =>
          simp only [List.mem_cons, reduceCtorEq, false_or] at he
          simp only at h
          cases hi : items (n + 1) rs with
          | nil => rw [hi] at he; simp at he
          | cons x xs =>
            rw [hi, List.getLast?_cons_cons, ← hi] at h
            exact ih h he

theorem joined_stop {p : List (Option Item)} {a : List Item} {n : Nat} {c : Char} {t : Str} (ha : a.getLast? = some (.ok (.comment n c t))) :
    Joined (a.map some ++ none :: p) a := by
  obtain ⟨a', rfl⟩ : ∃ a', a = a' ++ [.ok (.comment n c t)] := by
    obtain ⟨h1, h2⟩ := List.getLast?_eq_some_iff.mp ha
    exact ⟨h1, h2⟩
  rw [List.map_append, List.append_assoc]
  exact joined_map a' .stop

theorem kind_comment {a b : List Item} (h : SameKinds a b) {n : Nat} {c : Char} {t : Str} (ha : a.getLast? = some (.ok (.comment n c t))) :
    ∃ n c t, b.getLast? = some (.ok (.comment n c t)) := by
  induction h with
  | nil => cases ha
  | @cons x y a b hxy h ih =>
    cases h with
    | nil =>
      cases ha
      cases y with
      | error e => exact absurd hxy id
      | ok q' =>
        cases q' with
        | comment n c t => exact ⟨n, c, t, rfl⟩
        | blank => exact absurd (hxy.2.1.mp trivial) id
        | message => exact absurd (hxy.1.mpr trivial) id
        | continuation => exact absurd (hxy.1.mpr trivial) id
    | cons h1 h2 =>
      rw [List.getLast?_cons_cons] at ha ⊢
      exact ih ha

theorem readAs_head {s : List Event} {later : List (List Event)} {t : List Event} (h : ReadAs s later t) {q : PoLine}
    (hq : (streamItems s).head? = some (.ok q)) (ho : OpenLine q) (n : Nat) :
    ∃ q', (items n (rawLines (flatten t))).head? = some (.ok q') ∧ OpenLine q' := by
  have key : ∀ rs, rawLines (flatten t) = rawLines (flatten s) ++ rs →
      ∃ q', (items n (rawLines (flatten t))).head? = some (.ok q') ∧ OpenLine q' := by
    intro rs hrs
    rw [streamItems_code] at hq
    obtain ⟨q', h1, h2⟩ := kind_head (items_kind (fun _ hs => rawLines_no_nl hs) 1 n) hq ho
    refine ⟨q', ?_, h2⟩
    rw [hrs]
    by_cases hne : ∃ e, .error e ∈ items n (rawLines (flatten s))
    · obtain ⟨e, he⟩ := hne
      rw [items_error he]; exact h1
    · rw [items_append fun e he => hne ⟨e, he⟩]
      cases hi : items n (rawLines (flatten s)) with
      | nil => rw [hi] at h1; cases h1
      | cons x xs => rw [hi] at h1; exact h1
  cases h with
  | last => exact key [] (by simp)
  | error => exact key [] (by simp)
  | stop => exact key [] (by simp)
  | between hd _ _ _ _ _ => exact key _ (rawLines_between hd _)
  | refused hd _ _ _ _ _ => exact key _ (rawLines_between hd _)
  | inside hd hb hb' _ => exact key _ (rawLines_inside hd hb hb' _)

theorem continuation_head {rs : List (Except IoErr Str)} (hn : ∀ s, .ok s ∈ rs → '\n' ∉ s) {k n : Nat} {q x : Str}
    (h : (items k rs).head? = some (.ok (.continuation n q x))) : ∃ j, n = k + j ∧ ∀ m, (items m rs).head? = some (.ok (.continuation (m + j) q x)) := by
  induction rs generalizing k with
  | nil => cases h
  | cons r rs ih =>
    cases r with
    | error e => cases h
    | ok s =>
      have hr := parseLine_renumber (hn s (by simp)) k
      simp only [items] at h ⊢
      have hk := hr k
      cases hp : parseLine s k with
      | none => rw [hp] at h; cases h
      | some p =>
        rw [hp] at h hk
        cases p with
        | blank =>
          obtain ⟨j, h1, h2⟩ := ih (fun s hs => hn s (List.mem_cons_of_mem _ hs)) h
          refine ⟨1 + j, by omega, fun m => ?_⟩
          rw [hr m, hp, ← Nat.add_assoc]
          exact h2 (m + 1)
        | comment => cases h
        | message => cases h
        | continuation n' q' x' =>
          cases h
          simp only [Option.map_some, Option.some.injEq, PoLine.continuation.injEq] at hk
          exact ⟨0, hk.1, fun m => by rw [hr m, hp]; rfl⟩

theorem head_cons {α : Type} {l : List α} {x : α} (h : l.head? = some x) : ∃ t, l = x :: t := by
  cases l with
  | nil => cases h
  | cons y t => cases h; exact ⟨t, rfl⟩

theorem polls_head {s : List Event} (later : List (List Event)) {m : Nat} {y : Item} (h : (items m (rawLines (flatten s))).head? = some y) :
    ∃ p, pollItems m (rawPolls (flatten s) later) = some y :: p := by
  obtain ⟨t, ht⟩ := head_cons h
  obtain ⟨q, hq⟩ : ∃ q, rawPolls (flatten s) later = (rawLines (flatten s)).map some ++ q := by
    cases later with
    | nil => exact ⟨[], by rw [rawPolls, List.append_nil]⟩
    | cons => exact ⟨_, rfl⟩
  rw [hq]
  by_cases hne : ∃ e, .error e ∈ items m (rawLines (flatten s))
  · obtain ⟨e, he⟩ := hne
    rw [pollItems_error he, ht]; exact ⟨_, rfl⟩
  · rw [pollItems_append fun e he => hne ⟨e, he⟩, ht]; exact ⟨_, rfl⟩

theorem readAs_joined {s : List Event} {later : List (List Event)} {t : List Event} (h : ReadAs s later t) (n : Nat) :
    Joined (pollItems n (rawPolls (flatten s) later)) (items n (rawLines (flatten t))) := by
  induction h generalizing n with
  | last =>
    rw [rawPolls, pollItems_some]
    have := joined_map (items n (rawLines (flatten ‹List Event›))) .nil
    simpa using this
  | @error s e later he =>
    have he' : ∃ e, .error e ∈ items n (rawLines (flatten s)) := by
      rw [streamItems_code] at he
      obtain ⟨e', h⟩ := kind_error (items_kind (fun _ hs => rawLines_no_nl hs) 1 n) he
      exact ⟨e', h⟩
    obtain ⟨e', he'⟩ := he'
    have hm := joined_map (items n (rawLines (flatten s))) .nil
    simp only [List.append_nil] at hm
    cases later with
    | nil => rw [rawPolls, pollItems_some]; exact hm
    | cons s' later => rw [rawPolls, pollItems_error he']; exact hm
  | @stop s bs n' c x later hd hp =>
    have hd' : flatten s = (bs ++ [10], none) := hd
    rw [streamItems_code] at hp
    obtain ⟨n'', c', t', hp'⟩ := kind_comment (items_kind (fun _ hs => rawLines_no_nl hs) 1 n) hp
    cases later with
    | nil =>
      rw [rawPolls, pollItems_some]
      have hm := joined_map (items n (rawLines (flatten s))) .nil
      simpa only [List.append_nil] using hm
    | cons s' later =>
      rw [rawPolls, hd', if_neg (by simp), if_pos (byteLines_end bs).1, ← hd', List.singleton_append, pollItems_append (no_error_of_last hp'), pollItems]
      exact joined_stop hp'
  | @between s bs s' later t p q hd hp hpt hq hqo hu ih =>
    have hd' : flatten s = (bs ++ [10], none) := hd
    rw [rawLines_between hd, rawPolls, hd', if_neg (by simp), if_pos (byteLines_end bs).1, ← hd', List.singleton_append]
    rw [streamItems_code] at hp
    obtain ⟨p', hp', hpt', _⟩ := kind_last (items_kind (fun _ hs => rawLines_no_nl hs) 1 n) hp hpt
    have hne := no_error_of_last hp'
    rw [pollItems_append hne, items_append hne, pollItems]
    obtain ⟨q', hq', hqo'⟩ := readAs_head hu hq hqo (n + (rawLines (flatten s)).length)
    exact joined_gap (ih _) hp' hpt' hq' hqo'
  | @refused s bs s' later t p n' q x q' x' hd hp hpt hs ht hm =>
    have hd' : flatten s = (bs ++ [10], none) := hd
    rw [rawLines_between hd, rawPolls, hd', if_neg (by simp), if_pos (byteLines_end bs).1, ← hd', List.singleton_append]
    rw [streamItems_code] at hp hs ht
    obtain ⟨p', hp', hpt', hm'⟩ := kind_last (items_kind (fun _ hs => rawLines_no_nl hs) 1 n) hp hpt
    obtain ⟨j, hj, hs⟩ := continuation_head (fun _ hs => rawLines_no_nl hs) hs
    obtain ⟨j', hj', ht⟩ := continuation_head (fun _ hs => rawLines_no_nl hs) ht
    obtain rfl : j = j' := by omega
    have hne := no_error_of_last hp'
    rw [pollItems_append hne, items_append hne, pollItems]
    generalize n + (rawLines (flatten s)).length = m
    obtain ⟨p₁, h1⟩ := polls_head later (hs m)
    obtain ⟨l₁, h2⟩ := head_cons (ht m)
    rw [h1, h2]
    obtain ⟨a, ha⟩ := List.getLast?_eq_some_iff.mp hp'
    rw [ha, List.map_append, List.append_assoc, List.append_assoc]
    refine joined_map a ?_
    exact .refuse hpt' (by rw [hm']; exact hm)
  | @inside s bs b s' later t hd hb hb' hu ih =>
    have hd' : flatten s = (bs ++ [b], none) := hd
    obtain ⟨r, hr⟩ := byteLines_open (a := bs) hb
    rw [rawLines_inside hd hb hb', rawPolls, hd', if_neg (by simp), if_neg (by rw [hr]; simp), ← hd', List.nil_append]
    by_cases hne : ∃ e, .error e ∈ items n (rawLines (flatten s))
    · obtain ⟨e, he⟩ := hne
      rw [pollItems_error he, items_error he]
      have := joined_map (items n (rawLines (flatten s))) .nil
      simpa using this
    · have hne : ∀ e, .error e ∉ items n (rawLines (flatten s)) := fun e he => hne ⟨e, he⟩
      rw [pollItems_append hne, items_append hne]
      exact joined_map _ (ih _)

/-- **C51** How a stream is read that goes on after a report of the end of input.  A report after a comment line ends the reading; a report between a
keyword or continuation line and a keyword or comment line is not noticed, and reading goes on; a continuation line after a report continues nothing and
is refused like one with a foreign marker; a report inside a line cuts the line. -/
theorem C51_read (env : Env) {s : List Event} {later : List (List Event)} {t : List Event} (h : ReadAs s later t) (k : Nat) :
    observe k (parseResuming env s later) = observe k (parse env t) := by
  rw [observe_resuming, observe_parse, streamItems_code]
  exact observe_new joined_readUnit env k _ _ (.here (.here (readAs_joined h 1)))

theorem readAs_pieces {s : List Event} {later : List (List Event)} (h : ∀ x ∈ s :: later, Piece x) : ReadAs s later (s ++ later.flatten) := by
  induction later generalizing s with
  | nil => rw [List.flatten_nil, List.append_nil]; exact .last
  | cons s' later ih =>
    obtain ⟨⟨bs, hd⟩, _, p, hp, hpt⟩ := h s (by simp)
    obtain ⟨_, ⟨q, hq, hqo⟩, _⟩ := h s' (by simp)
    rw [List.flatten_cons]
    exact .between hd hp hpt hq hqo (ih fun x hx => h x (List.mem_cons_of_mem _ hx))

/-- **C51** A catalogue that arrives in pieces, with a report of the end of input after each (a file that grows by whole entries), is read as a whole. -/
theorem C51_pieces (env : Env) {s : List Event} {later : List (List Event)} (h : ∀ x ∈ s :: later, Piece x) (k : Nat) :
    observe k (parseResuming env s later) = observe k (parse env (s ++ later.flatten)) := C51_read env (readAs_pieces h) k

/-- **C51** A report of the end of input at the beginning, or after blank lines only, ends the reading. -/
theorem C51_blank (env : Env) {s : List Event} (h : Delivers s [] ∨ ∃ bs, Delivers s (bs ++ [10])) (hi : streamItems s = []) (later : List (List Event)) (k : Nat) :
    observe k (parseResuming env s later) = observe k (parse env s) := by
  rw [observe_resuming, observe_parse, hi]
  rw [streamItems_code] at hi
  refine observe_new joined_readUnit env k _ _ ?_
  cases later with
  | nil => rw [rawPolls, pollItems_some, hi]; exact .here (.here .nil)
  | cons s' later =>
    have hb : (flatten s).2 = none ∧ (byteLines (flatten s).1).2 = [] := by
      rcases h with h | ⟨bs, h⟩ <;> unfold Delivers at h <;> rw [h]
      · exact ⟨rfl, rfl⟩
      · exact ⟨rfl, (byteLines_end bs).1⟩
    rw [rawPolls, hb.1, if_neg (by simp), if_pos hb.2, List.singleton_append, pollItems_append (by rw [hi]; simp), hi, pollItems]
    exact .stop


/-! ### Examples -/

theorem text_delivers {ls : List Str} (h : ls ≠ []) :
    Delivers (textStream ls) (utf8 ((ls.dropLast.flatMap fun l => l ++ ['\n']) ++ ls.getLast h) ++ [10]) := by
  unfold Delivers
  rw [textStream_flatten]
  conv => lhs; rw [← List.dropLast_concat_getLast h, List.flatMap_append]
  simp [utf8, String.utf8EncodeChar]

theorem observe_flatten (env : Env) {s t : List Event} (h : flatten s = flatten t) (k : Nat) : observe k (parse env s) = observe k (parse env t) := by
  rw [observe_parse, observe_parse, streamItems_code, streamItems_code, h]

def entryAB : List Str := [c!"msgid \"a\"", c!"msgstr \"b\""]
def entryCD : List Str := [c!"", c!"msgid \"c\"", c!"msgstr \"d\""]

-- the end of input is reported after the first entry: the second one is read nevertheless
theorem first_more : ReadAs (textStream entryAB) [textStream entryCD] (textStream entryAB ++ textStream entryCD) :=
  .between (p := .message 2 [] (c!"msgstr") (c!"b")) (q := .message 2 [] (c!"msgid") (c!"c")) (text_delivers (by decide))
    (by rw [streamItems_text _ (by decide)]; rfl) trivial (by rw [streamItems_text _ (by decide)]; rfl) trivial .last

example : Yields (parseResuming demoEnv (textStream entryAB) [textStream entryCD]) (noHeader demoEnv)
    (results [unitAB (c!"a") (c!"b"), unitAB (c!"c") (c!"d")] none) := by
  intro k
  rw [C51_read demoEnv first_more, observe_flatten demoEnv (t := textStream (entryAB ++ entryCD)) (by
    rw [flatten_append (by rw [textStream_flatten]), textStream_flatten, textStream_flatten, textStream_flatten]
    simp [utf8_append])]
  exact yields_text (res := ⟨noHeader demoEnv, none, [unitAB (c!"a") (c!"b"), unitAB (c!"c") (c!"d")], none⟩) (by decide) (by rfl) k

example : Piece (textStream entryCD) :=
  ⟨⟨_, text_delivers (by decide)⟩, ⟨.message 2 [] (c!"msgid") (c!"c"), by rw [streamItems_text _ (by decide)]; rfl, trivial⟩,
    ⟨.message 3 [] (c!"msgstr") (c!"d"), by rw [streamItems_text _ (by decide)]; rfl, trivial⟩⟩

-- the end of input is reported after a comment: the entry behind it is not read
example : Yields (parseResuming demoEnv (textStream [c!"# x"]) [textStream entryAB]) (noHeader demoEnv) (results [] none) := by
  intro k
  rw [C51_read demoEnv (.stop (n := 1) (c := ' ') (x := c!"x") (text_delivers (by decide)) (by rw [streamItems_text _ (by decide)]; rfl))]
  exact yields_text (res := ⟨noHeader demoEnv, none, [], none⟩) (by decide) (by rfl) k

-- at the beginning
example : Yields (parseResuming demoEnv (textStream [c!""]) [textStream entryAB]) (noHeader demoEnv) (results [] none) := by
  intro k
  rw [C51_blank demoEnv (.inr ⟨_, text_delivers (by decide)⟩) (by rw [streamItems_text _ (by decide)]; rfl)]
  exact yields_text (res := ⟨noHeader demoEnv, none, [], none⟩) (by decide) (by rfl) k

-- a report inside a line: `msgstr "b"` | `"c"` is read as two lines
example : ReadAs [.data 109 [115]] [[.data 103 []]] [.data 109 [115], .data 10 [], .data 103 []] :=
  .inside (s := [.data 109 [115]]) (bs := [109]) (b := 115) rfl (by decide) (by decide) .last

-- a report before a continuation line: the entry is complete, the line is refused
example : Yields (parseResuming demoEnv (textStream entryAB) [textStream [c!"\"c\"", c!"msgid \"z\""]]) (noHeader demoEnv)
    (results [unitAB (c!"a") (c!"b")] (some (.parse 3 (c!"\"") (c!"msgid")))) := by
  intro k
  have h : ReadAs (textStream entryAB) [textStream [c!"\"c\"", c!"msgid \"z\""]] (textStream entryAB ++ textStream [c!"#| \"c\""]) :=
    .refused (p := .message 2 [] (c!"msgstr") (c!"b")) (n := 1) (q := []) (x := c!"c") (q' := c!"|") (x' := c!"c") (text_delivers (by decide))
      (by rw [streamItems_text _ (by decide)]; rfl) trivial (by rw [streamItems_text _ (by decide)]; rfl) (by rw [streamItems_text _ (by decide)]; rfl)
      (by decide)
  rw [C51_read demoEnv h, observe_flatten demoEnv (t := textStream (entryAB ++ [c!"#| \"c\""])) (by
    rw [flatten_append (by rw [textStream_flatten]), textStream_flatten, textStream_flatten, textStream_flatten]
    simp [utf8_append])]
  exact yields_text (res := ⟨noHeader demoEnv, none, [unitAB (c!"a") (c!"b")], some (.parse 3 (c!"\"") (c!"msgid"))⟩) (by decide) (by rfl) k

-- `C51_pieces`: two pieces
example (k : Nat) := C51_pieces demoEnv (s := textStream entryAB) (later := [textStream entryCD]) (k := k) (by
  intro x hx
  simp only [List.mem_cons, List.not_mem_nil, or_false] at hx
  rcases hx with rfl | rfl
  · exact ⟨⟨_, text_delivers (by decide)⟩, ⟨.message 1 [] (c!"msgid") (c!"a"), by rw [streamItems_text _ (by decide)]; rfl, trivial⟩,
      ⟨.message 2 [] (c!"msgstr") (c!"b"), by rw [streamItems_text _ (by decide)]; rfl, trivial⟩⟩
  · exact ⟨⟨_, text_delivers (by decide)⟩, ⟨.message 2 [] (c!"msgid") (c!"c"), by rw [streamItems_text _ (by decide)]; rfl, trivial⟩,
      ⟨.message 3 [] (c!"msgstr") (c!"d"), by rw [streamItems_text _ (by decide)]; rfl, trivial⟩⟩)

end Verif
