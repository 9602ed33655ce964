import Verif.Lemmas.Drain
import Verif.Spec.Entry
import Verif.Lemmas.Text

/-! The reading functions against the entry grammar: fields. -/

namespace Verif
open Spec

theorem msgstrTag_eq (i : Nat) : msgstrTag i = valueKeyword i := rfl

theorem valueKeyword_inj {i j : Nat} (h : valueKeyword i = valueKeyword j) : i = j := by
  unfold valueKeyword at h
  have := List.append_cancel_right h
  have := List.append_cancel_left this
  have h2 := congrArg (fun l => Nat.ofDigitChars 10 l 0) this
  simpa [Nat.ofDigitChars_ten_toDigits] using h2

theorem tilde_iff (p : Str) : startsTilde p = true ↔ Tilde p := by
  unfold startsTilde Tilde
  cases p <;> simp

theorem tilde_eq {p : Str} {o : Bool} : startsTilde p = o ↔ (o = true ↔ Tilde p) := by
  rw [← tilde_iff]
  cases startsTilde p <;> cases o <;> simp

/-- What follows a field with marker `p`. -/
def FieldStops (p : Str) (rest : List Item) : Prop :=
  (∀ e, rest.head? ≠ some (.error e)) ∧ ∀ n s, rest.head? ≠ some (.ok (.continuation n p s))

/-- No field `kw` starts here. -/
def NoField (kw : Str) (o : Bool) (l : List Item) : Prop :=
  (∀ e, l.head? ≠ some (.error e)) ∧ ∀ n p s, l.head? = some (.ok (.message n p kw s)) → startsTilde p ≠ o

theorem takeCont_spec (p : Str) (l : List Item) : ∃ cs : List (Nat × Str),
    l = (cs.map fun c => PoLine.continuation c.1 p c.2).map .ok ++ (takeCont p l).2 ∧
    (takeCont p l).1 = (cs.map Prod.snd).flatten ∧ ∀ n s, (takeCont p l).2.head? ≠ some (.ok (.continuation n p s)) := by
  induction l with
  | nil => exact ⟨[], by simp [takeCont]⟩
  | cons x l ih =>
    rcases x with e | ln
    · exact ⟨[], by simp [takeCont]⟩
    · cases ln with
      | continuation n q s =>
        simp only [takeCont]
        split
        · rename_i hq
          subst hq
          obtain ⟨cs, h1, h2, h3⟩ := ih
          refine ⟨(n, s) :: cs, ?_, ?_, h3⟩
          · simp only [List.map_cons, List.cons_append, ← h1]
          · simp [h2]
        · rename_i hq
          exact ⟨[], by simp, by simp, by simp [hq]⟩
      | _ => exact ⟨[], by simp [takeCont]⟩

theorem takeCont_block (p : Str) (cs : List (Nat × Str)) (rest : List Item)
    (h : ∀ n s, rest.head? ≠ some (.ok (.continuation n p s))) :
    takeCont p ((cs.map fun c => PoLine.continuation c.1 p c.2).map .ok ++ rest) = ((cs.map Prod.snd).flatten, rest) := by
  induction cs with
  | nil =>
    rcases rest with _ | ⟨e | ln, tl⟩
    · rfl
    · rfl
    · cases ln with
      | continuation n q s =>
        have : q ≠ p := by rintro rfl; exact h n s rfl
        simp [takeCont, this]
      | _ => rfl
  | cons c cs ih => simp only [List.map_cons, List.cons_append, takeCont, ih, if_true, List.flatten_cons]

theorem afterField_ok {α : Type} {v v' : α} {rest rest' : List Item} : afterField v rest = (.ok v', rest') ↔
    v = v' ∧ rest = rest' ∧ ∀ e, rest.head? ≠ some (.error e) := by
  rcases rest with _ | ⟨e | ln, tl⟩ <;> simp [afterField]

theorem parseMsg_some {kw : Str} {o : Bool} {l rest : List Item} {v : Str} : parseMsg kw o l = (.ok (some v), rest) ↔
    ∃ p b, FieldLines kw p b v ∧ startsTilde p = o ∧ l = b.map .ok ++ rest ∧ FieldStops p rest := by
  rw [parseMsg_list]
  constructor
  · intro h
    rcases l with _ | ⟨e | ln, tl⟩
    · simp at h
    · simp at h
    · cases ln with
      | message n p t s =>
        simp only at h
        split at h
        · rename_i ht
          obtain ⟨rfl, hp⟩ := ht
          obtain ⟨h1, h2, h3⟩ := afterField_ok.mp h
          obtain ⟨cs, e1, e2, e3⟩ := takeCont_spec p tl
          rw [h2] at e1 e3 h3
          rw [e2] at h1
          refine ⟨p, .message n p t s :: cs.map fun c => .continuation c.1 p c.2, ⟨n, s, cs, rfl, (by simpa using h1.symm)⟩, hp, ?_, h3, e3⟩
          rw [List.map_cons, List.cons_append, ← e1]
        · simp at h
      | _ => simp at h
  · rintro ⟨p, b, ⟨n, s, cs, rfl, rfl⟩, hp, rfl, h1, h2⟩
    simp only [List.map_cons, List.cons_append, hp, and_self, if_true]
    rw [takeCont_block p cs rest h2]
    exact afterField_ok.mpr ⟨rfl, rfl, h1⟩

theorem parseMsg_none {kw : Str} {o : Bool} {l rest : List Item} : parseMsg kw o l = (.ok none, rest) ↔ rest = l ∧ NoField kw o l := by
  rw [parseMsg_list]
  unfold NoField
  rcases l with _ | ⟨e | ln, tl⟩
  · simp [eq_comm]
  · simp
  · cases ln with
    | message n p t s =>
      simp only
      split
      · rename_i ht
        constructor
        · intro h
          have := (afterField_ok.mp h).1
          simp at this
        · rintro ⟨_, _, h⟩
          exact absurd ht.2 (h n p s (by simp [ht.1]))
      · rename_i ht
        constructor
        · intro h
          refine ⟨by simpa [eq_comm] using h, by simp, ?_⟩
          intro n' p' s' h' hp
          simp only [List.head?_cons, Option.some.injEq, Except.ok.injEq, PoLine.message.injEq] at h'
          obtain ⟨_, rfl, rfl, _⟩ := h'
          exact ht ⟨rfl, hp⟩
        · rintro ⟨rfl, _⟩; rfl
    | _ => simp [eq_comm]

/-- Errors while reading a field are error items. -/
theorem parseMsg_err {kw : Str} {o : Bool} {l rest : List Item} {e : Err} (h : parseMsg kw o l = (.err e, rest)) :
    ∃ b : List PoLine, l = b.map .ok ++ .error e :: rest := by
  rw [parseMsg_list] at h
  rcases l with _ | ⟨e' | ln, tl⟩
  · simp at h
  · simp only [Prod.mk.injEq, Out.err.injEq] at h
    exact ⟨[], by simp [h]⟩
  · cases ln with
    | message n p t s =>
      simp only at h
      split at h
      · obtain ⟨cs, e1, e2, e3⟩ := takeCont_spec p tl
        refine ⟨.message n p t s :: cs.map fun c => .continuation c.1 p c.2, ?_⟩
        rcases h2 : (takeCont p tl).2 with _ | ⟨e' | ln, tl'⟩
        · rw [h2] at h; simp [afterField] at h
        · rw [h2] at h
          simp only [afterField, Prod.mk.injEq, Out.err.injEq] at h
          rw [h2, h.1, h.2] at e1
          rw [List.map_cons, List.cons_append, ← e1]
        · rw [h2] at h; simp [afterField] at h
      · simp at h
    | _ => simp at h

theorem field_head {kw p : Str} {b : List PoLine} {v : Str} (h : FieldLines kw p b v) :
    ∃ n s tl, b = .message n p kw s :: tl := by
  obtain ⟨n, s, cs, rfl, _⟩ := h
  exact ⟨n, s, _, rfl⟩

/-- Where an optional field is not of keyword `kw`, no field `kw` starts. -/
theorem noField_of_head {kw kw' : Str} {o : Bool} {n p s} {tl : List Item} (h : kw ≠ kw') :
    NoField kw o (.ok (.message n p kw' s) :: tl) := by
  refine ⟨by simp, ?_⟩
  intro n' p' s' h'
  simp only [List.head?_cons, Option.some.injEq, Except.ok.injEq, PoLine.message.injEq] at h'
  exact absurd h'.2.2.1.symm h

theorem stops_of_message {p : Str} {n q t s} {tl : List Item} : FieldStops p (.ok (.message n q t s) :: tl) := by
  constructor <;> simp

/-- The relation computed by the loop over `msgstr[i]`. -/
inductive ValuesR (o : Bool) : Nat → Nat → List Item → List Str → List Item → Prop
  | zero {i l} : ValuesR o 0 i l [] l
  | skip {k i l ws rest} : NoField (valueKeyword i) o l → ValuesR o k (i + 1) l ws rest → ValuesR o (k + 1) i l ws rest
  | take {k i p v b l ws rest} : FieldLines (valueKeyword i) p b v → startsTilde p = o → FieldStops p l →
      ValuesR o k (i + 1) l ws rest → ValuesR o (k + 1) i (b.map .ok ++ l) (v :: ws) rest

theorem valuesLoop_iff {o : Bool} {k i : Nat} {vs vs' : List Str} {l rest : List Item} :
    valuesLoop o k i vs l = (.ok vs', rest) ↔ ∃ ws, vs' = vs ++ ws ∧ ValuesR o k i l ws rest := by
  induction k generalizing i vs l with
  | zero =>
    rw [valuesLoop]
    constructor
    · intro h
      simp only [Eff.pure, Prod.mk.injEq, Out.ok.injEq] at h
      obtain ⟨rfl, rfl⟩ := h
      exact ⟨[], by simp, .zero⟩
    · rintro ⟨ws, rfl, h⟩
      cases h
      simp [Eff.pure]
  | succ k ih =>
    constructor
    · intro h
      obtain ⟨a, l1, h1, h2⟩ := bind_ok h
      cases a with
      | none =>
        obtain ⟨ws, h3, h4⟩ := ih.mp h2
        obtain ⟨rfl, h5⟩ := parseMsg_none.mp h1
        exact ⟨ws, h3, .skip h5 h4⟩
      | some v =>
        obtain ⟨ws, h3, h4⟩ := ih.mp h2
        obtain ⟨p, b, h5, h6, rfl, h7⟩ := parseMsg_some.mp h1
        exact ⟨v :: ws, by simp [h3], .take h5 h6 h7 h4⟩
    · rintro ⟨ws, rfl, h⟩
      rw [valuesLoop, bind_eq]
      cases h with
      | skip h1 h2 =>
        rw [msgstrTag_eq, parseMsg_none.mpr ⟨rfl, h1⟩]
        exact ih.mpr ⟨ws, rfl, h2⟩
      | take h1 h2 h3 h4 =>
        rw [msgstrTag_eq, parseMsg_some.mpr ⟨_, _, h1, h2, rfl, h3⟩]
        exact ih.mpr ⟨_, by simp, h4⟩

theorem Spec.FieldLines.ne_nil {kw p : Str} {b : List PoLine} {v : Str} (h : FieldLines kw p b v) : b ≠ [] := by
  obtain ⟨n, s, cs, rfl, _⟩ := h
  simp

theorem Spec.FieldLines.lastMarker {kw p : Str} {b : List PoLine} {v : Str} (h : FieldLines kw p b v) : lastMarker b = some p := by
  obtain ⟨n, s, cs, rfl, _⟩ := h
  unfold Spec.lastMarker
  rcases List.eq_nil_or_concat cs with rfl | ⟨cs', c, rfl⟩
  · rfl
  · simp [List.getLast?_cons]

theorem lastMarker_append {a b : List PoLine} (h : b ≠ []) : lastMarker (a ++ b) = lastMarker b := by
  unfold lastMarker
  rw [List.getLast?_append, List.getLast?_eq_some_getLast h]
  rfl

theorem Spec.FieldLines.lastKeyword {kw p : Str} {b : List PoLine} {v : Str} (h : FieldLines kw p b v) : lastKeyword b = some kw := by
  obtain ⟨n, s, cs, rfl, _⟩ := h
  unfold Spec.lastKeyword
  have : List.filterMap keywordOf (cs.map fun c : Nat × Str => PoLine.continuation c.1 p c.2) = [] := by
    rw [List.filterMap_eq_nil_iff]; intro a ha
    obtain ⟨c, _, rfl⟩ := List.mem_map.mp ha
    rfl
  rw [List.filterMap_cons_some (f := keywordOf) (b := kw) rfl, this]; rfl

theorem lastKeyword_append {a b : List PoLine} {k : Str} (h : lastKeyword b = some k) : lastKeyword (a ++ b) = some k := by
  unfold lastKeyword at *
  rw [List.filterMap_append, List.getLast?_append, h]; rfl

/-- What the loop over `msgstr[i]` needs after the last value `msgstr[i]` with marker `p`. -/
def ValuesEnd (o : Bool) (hi : Nat) (block : List PoLine) (rest : List Item) : Prop :=
  (∀ e, rest.head? ≠ some (.error e)) ∧ (∀ n p s, rest.head? = some (.ok (.continuation n p s)) → lastMarker block ≠ some p) ∧
  ∀ n p t s, rest.head? = some (.ok (.message n p t s)) → (o = true ↔ Tilde p) → ∀ j, j < hi → t = valueKeyword j →
    ∃ i, j ≤ i ∧ lastKeyword block = some (valueKeyword i)

theorem ValuesR.nil_inv {o : Bool} {k i : Nat} {l rest : List Item} {ws : List Str} (h : ValuesR o k i l ws rest) (hw : ws = []) :
    rest = l ∧ ∀ j, i ≤ j → j < i + k → NoField (valueKeyword j) o l := by
  induction h with
  | zero => exact ⟨rfl, fun j h1 h2 => by omega⟩
  | @skip k i l ws rest h1 h2 ih =>
    obtain ⟨e1, e2⟩ := ih hw
    refine ⟨e1, fun j hj1 hj2 => ?_⟩
    by_cases hji : j = i
    · subst hji; exact h1
    · exact e2 j (by omega) (by omega)
  | take => simp at hw

theorem ValuesR.sound {o : Bool} {k i : Nat} {l rest : List Item} {ws : List Str} (h : ValuesR o k i l ws rest) :
    ∃ b : List PoLine, l = b.map .ok ++ rest ∧ ValueFields o (i + k) i b ws ∧
      (ws ≠ [] → b ≠ [] ∧ ValuesEnd o (i + k) b rest) := by
  induction h with
  | zero => exact ⟨[], by simp, .nil, by simp⟩
  | @skip k i l ws rest h1 h2 ih =>
    obtain ⟨b, e1, e2, e3⟩ := ih
    have hk : i + (k + 1) = i + 1 + k := by omega
    refine ⟨b, e1, ?_, ?_⟩
    · rw [hk]
      cases e2 with
      | nil => exact .nil
      | cons a1 a2 a3 a4 => exact .cons (by omega) a2 a3 a4
    · rw [hk]; exact e3
  | @take k i p v b l ws rest h1 h2 h3 h4 ih =>
    obtain ⟨bs, e1, e2, e3⟩ := ih
    have hk : i + (k + 1) = i + 1 + k := by omega
    refine ⟨b ++ bs, by rw [e1]; simp, ?_, ?_⟩
    · rw [hk]
      exact .cons (Nat.le_refl _) (by omega) ⟨p, h1, tilde_eq.mp h2⟩ e2
    · intro _
      refine ⟨by simp [h1.ne_nil], ?_⟩
      rw [hk]
      by_cases hw : ws = []
      · subst hw
        obtain ⟨hl, hn⟩ := h4.nil_inv rfl
        subst hl
        have hbs : bs = [] := by
          have := congrArg List.length e1
          simp at this
          exact this
        subst hbs
        rw [List.append_nil]
        refine ⟨h3.1, ?_, ?_⟩
        · intro n q s hq hm
          rw [h1.lastMarker] at hm
          simp only [Option.some.injEq] at hm
          subst hm
          exact h3.2 n s hq
        · intro n q t s hq ho j hj htj
          subst htj
          refine ⟨i, ?_, h1.lastKeyword⟩
          by_cases hji : j ≤ i
          · exact hji
          · exact absurd (tilde_eq.mpr ho) ((hn j (by omega) hj).2 n q s hq)
      · obtain ⟨hne, e4, e5, e6⟩ := e3 hw
        refine ⟨e4, ?_, ?_⟩
        · intro n q s hq
          rw [lastMarker_append hne]
          exact e5 n q s hq
        · intro n q t s hq ho j hj htj
          obtain ⟨i', hi1, hi2⟩ := e6 n q t s hq ho j hj htj
          exact ⟨i', hi1, lastKeyword_append hi2⟩

theorem ValuesEnd.of_append {o : Bool} {hi : Nat} {a b : List PoLine} {k : Str} {rest : List Item} (hb : b ≠ [])
    (hk : lastKeyword b = some k) (h : ValuesEnd o hi (a ++ b) rest) : ValuesEnd o hi b rest := by
  obtain ⟨h1, h2, h3⟩ := h
  refine ⟨h1, ?_, ?_⟩
  · intro n p s hq; rw [← lastMarker_append (a := a) hb]; exact h2 n p s hq
  · intro n p t s hq ho j hj htj
    obtain ⟨i, hi1, hi2⟩ := h3 n p t s hq ho j hj htj
    rw [lastKeyword_append hk] at hi2
    exact ⟨i, hi1, hk.trans hi2⟩

theorem Spec.ValueFields.lastKeyword {o : Bool} {hi lo : Nat} {b : List PoLine} {ws : List Str} (h : ValueFields o hi lo b ws) (hw : ws ≠ []) :
    b ≠ [] ∧ ∃ i, lo ≤ i ∧ lastKeyword b = some (valueKeyword i) := by
  induction h with
  | nil => simp at hw
  | @cons lo i b v bs vs h1 h2 h3 h4 ih =>
    obtain ⟨p, hp, _⟩ := h3
    by_cases hvs : vs = []
    · subst hvs
      cases h4
      rw [List.append_nil]
      exact ⟨hp.ne_nil, i, h1, hp.lastKeyword⟩
    · obtain ⟨e1, j, e2, e3⟩ := ih hvs
      exact ⟨by simp [e1], j, by omega, lastKeyword_append e3⟩

theorem ValuesR.nil {o : Bool} {k i : Nat} {l : List Item} (h : ∀ j, i ≤ j → j < i + k → NoField (valueKeyword j) o l) :
    ValuesR o k i l [] l := by
  induction k generalizing i with
  | zero => exact .zero
  | succ k ih => exact .skip (h i (by omega) (by omega)) (ih fun j h1 h2 => h j (by omega) (by omega))

theorem ValuesR.complete {o : Bool} {k i : Nat} {b : List PoLine} {ws : List Str} {rest : List Item}
    (h : ValueFields o (i + k) i b ws) (hw : ws ≠ []) (he : ValuesEnd o (i + k) b rest) : ValuesR o k i (b.map .ok ++ rest) ws rest := by
  induction k generalizing i b ws with
  | zero =>
    cases h with
    | nil => simp at hw
    | cons h1 h2 => omega
  | succ k ih =>
    have hk : i + (k + 1) = i + 1 + k := by omega
    cases h with
    | nil => simp at hw
    | @cons _ i' b v bs vs h1 h2 h3 h4 =>
      obtain ⟨p, hp, ho⟩ := h3
      by_cases hii : i' = i
      · subst hii
        rw [List.map_append, List.append_assoc]
        refine .take hp (tilde_eq.mpr ho) ?_ ?_
        · by_cases hvs : vs = []
          · subst hvs
            cases h4
            simp only [List.append_nil, List.map_nil, List.nil_append] at he ⊢
            refine ⟨he.1, ?_⟩
            intro n s hq
            exact he.2.1 n p s hq hp.lastMarker
          · cases h4 with
            | nil => simp at hvs
            | cons _ _ h5 _ =>
              obtain ⟨p', hp', _⟩ := h5
              obtain ⟨n, s, tl, rfl⟩ := field_head hp'
              exact stops_of_message
        · by_cases hvs : vs = []
          · subst hvs
            cases h4
            simp only [List.append_nil, List.map_nil, List.nil_append] at he ⊢
            refine ValuesR.nil fun j h5 h6 => ⟨he.1, ?_⟩
            intro n q s hq hq'
            obtain ⟨i2, e1, e2⟩ := he.2.2 n q _ s hq (tilde_eq.mp hq') j (by omega) rfl
            rw [hp.lastKeyword] at e2
            have := valueKeyword_inj (Option.some.inj e2)
            omega
          · obtain ⟨e1, j, e2, e3⟩ := h4.lastKeyword hvs
            refine ih (by rw [← hk]; exact h4) hvs ?_
            rw [← hk]
            exact he.of_append e1 e3
      · obtain ⟨n, s, tl, rfl⟩ := field_head hp
        refine .skip ?_ (ih (by rw [← hk]; exact .cons (by omega) h2 ⟨p, hp, ho⟩ h4) hw (by rw [← hk]; exact he))
        simp only [List.cons_append, List.map_cons]
        exact noField_of_head (fun h => hii (valueKeyword_inj h).symm)

end Verif
