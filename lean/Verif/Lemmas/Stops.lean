import Verif.Lemmas.EntryComplete
import Verif.Spec.Run

/-! Soundness of the ways in which reading stops. -/

namespace Verif
open Spec

/-- The line is the beginning of a field `kw` of an entry of kind `o`. -/
def StartsField (kw : Str) (o : Bool) (ln : PoLine) : Prop := ∃ n p s, ln = .message n p kw s ∧ (o = true ↔ Tilde p)

/-- The line can be the first line of the translation part of an entry. -/
def StartsText (forms : Option PluralForms) (o : Bool) (idPl : Option Str) (ln : PoLine) : Prop :=
  match idPl with
  | none => StartsField (c!"msgstr") o ln
  | some _ => ∃ i < nplurals forms, StartsField (valueKeyword i) o ln

/-- The ways in which reading stops at the items `l`, and the items that are left; sound, but not exact (`Spec.Stops` is). -/
inductive StopR (forms : Option PluralForms) (first : Bool) : List Item → Option Err → List Item → Prop
  | endsInHead {o block} : EntryHead o block → (first = true → ∀ x ∈ block, IsComment x) → StopR forms first (block.map .ok) none []
  | endsAfterIds {o idPl block} : EntryIds o idPl block → StopR forms first (block.map .ok) none []
  | unreadableHead {o block e tl} : EntryHead o block → StopR forms first (block.map .ok ++ .error e :: tl) (some e) tl
  | unreadableIds {o idPl block e tl} : EntryIds o idPl block → StopR forms first (block.map .ok ++ .error e :: tl) (some e) tl
  | unreadableAfter {u block e tl} : Entry forms block u → StopR forms first (block.map .ok ++ .error e :: tl) (some e) tl
  | noId {o block ln tl} : first = false → EntryHead o block → ln ≠ .blank →
      StopR forms first (block.map .ok ++ .ok ln :: tl) (some (missing (c!"msgid") ln)) (.ok ln :: tl)
  | noText {o idPl block ln tl} : EntryIds o idPl block → ln ≠ .blank → ¬ StartsText forms o idPl ln →
      StopR forms first (block.map .ok ++ .ok ln :: tl) (some (missing (textKeyword idPl) ln)) (.ok ln :: tl)
  | noSource {cs ln block u rest t} : first = false → Entry forms (cs ++ ln :: block) u → (∀ c ∈ cs, IsComment c) → ¬ IsComment ln → u.message = .simple [] t →
      EndsBefore forms u (cs ++ ln :: block) (nextLine rest) → NoErr rest →
      StopR forms first ((cs ++ ln :: block).map .ok ++ rest) (some (.unexpected ln.line (c!"Source should not be empty"))) rest

/-- No blank line among the items. -/
def NoBlank (l : List Item) : Prop := ∀ x ∈ l, x ≠ .ok .blank

theorem items_noBlank (n : Nat) (raw : List (Except IoErr Str)) : NoBlank (Verif.items n raw) := by
  induction raw generalizing n with
  | nil => intro x hx; simp [Verif.items] at hx
  | cons r raw ih =>
    intro x hx
    cases r with
    | error e => simp only [Verif.items, List.mem_singleton] at hx; subst hx; simp
    | ok s =>
      simp only [Verif.items] at hx
      split at hx
      · simp only [List.mem_singleton] at hx; subst hx; simp
      · exact ih _ x hx
      · rename_i p hp h
        rcases List.mem_cons.mp hx with rfl | hx
        · intro h'
          cases h'
          exact hp rfl
        · exact ih _ x hx

theorem parseMsg_err_opt {kw : Str} {o : Bool} {l rest : List Item} {e : Err} (h : parseMsg kw o l = (.err e, rest)) :
    ∃ (b : List PoLine) (v : Option Str), OptField kw o b v ∧ l = b.map .ok ++ .error e :: rest := by
  rw [parseMsg_list] at h
  rcases l with _ | ⟨e' | ln, tl⟩
  · simp at h
  · simp only [Prod.mk.injEq, Out.err.injEq] at h
    exact ⟨[], none, .none, by simp [h]⟩
  · cases ln with
    | message n p t s =>
      simp only at h
      split at h
      · rename_i ht
        obtain ⟨rfl, ho⟩ := ht
        obtain ⟨cs, e1, e2, e3⟩ := takeCont_spec p tl
        refine ⟨.message n p t s :: cs.map fun c => .continuation c.1 p c.2, _, .some ⟨p, ⟨n, s, cs, rfl, rfl⟩, tilde_eq.mp ho⟩, ?_⟩
        rcases h2 : (takeCont p tl).2 with _ | ⟨e' | ln, tl'⟩
        · rw [h2] at h; simp [afterField] at h
        · rw [h2] at h
          simp only [afterField, Prod.mk.injEq, Out.err.injEq] at h
          rw [h2, h.1, h.2] at e1
          rw [List.map_cons, List.cons_append, ← e1]
        · rw [h2] at h; simp [afterField] at h
      · simp at h
    | _ => simp at h

theorem noField_starts {kw : Str} {o : Bool} {ln : PoLine} {tl : List Item} (h : NoField kw o (.ok ln :: tl)) : ¬ StartsField kw o ln := by
  rintro ⟨n, p, s, rfl, ho⟩
  exact h.2 n p s rfl (tilde_eq.mpr ho)

theorem bind_err {α β : Type} {x : Eff (List Item) α} {f : α → Eff (List Item) β} {l e l'} (h : (x >>= f) l = (.err e, l')) :
    x l = (.err e, l') ∨ ∃ a l1, x l = (.ok a, l1) ∧ f a l1 = (.err e, l') := by
  rw [bind_eq] at h
  rcases hx : x l with ⟨o, l1⟩
  rw [hx] at h
  cases o with
  | ok a => exact .inr ⟨a, l1, rfl, h⟩
  | err e => exact .inl (by simpa using h)
  | panic => simp at h

theorem bind_err_of {σ α β : Type} {x : Eff σ α} {f : α → Eff σ β} {s s' : σ} {e : Err} (h : x s = (.err e, s')) :
    (x >>= f) s = (.err e, s') := by
  rw [bind_eq, h]

theorem expected_err {exp : Str} {l rest : List Item} {e : Err} (h : expected exp l = (.err e, rest)) :
    l = .error e :: rest ∨ ∃ ln tl, l = .ok ln :: tl ∧ ln ≠ .blank ∧ e = missing exp ln ∧ rest = l := by
  rw [expected_list] at h
  rcases l with _ | ⟨e' | ln, tl⟩
  · simp at h
  · simp only [Prod.mk.injEq, Out.err.injEq] at h
    exact .inl (by simp [h])
  · refine .inr ⟨ln, tl, rfl, ?_⟩
    cases ln with
    | blank => simp at h
    | _ =>
      simp only [Prod.mk.injEq, Out.err.injEq] at h
      exact ⟨by simp, h.1.symm, h.2.symm⟩

/-- Errors of the loop over `msgstr[i]`. -/
theorem valuesLoop_err {o : Bool} {k i : Nat} {vs : List Str} {l rest : List Item} {e : Err} (h : valuesLoop o k i vs l = (.err e, rest)) :
    ∃ b ws, l = b.map .ok ++ .error e :: rest ∧ ValueFields o (i + k) i b ws := by
  induction k generalizing i vs l with
  | zero => simp [valuesLoop, Eff.pure] at h
  | succ k ih =>
    have hk : i + (k + 1) = i + 1 + k := by omega
    rw [valuesLoop] at h
    rcases bind_err h with h1 | ⟨a, l1, h1, h2⟩
    · obtain ⟨b, v, hv, rfl⟩ := parseMsg_err_opt h1
      cases hv with
      | none => exact ⟨[], [], by simp, .nil⟩
      | @some _ v hf =>
        refine ⟨b, [v], rfl, ?_⟩
        rw [← List.append_nil b]
        exact .cons (Nat.le_refl _) (by omega) hf .nil
    · cases a with
      | none =>
        obtain ⟨rfl, _⟩ := parseMsg_none.mp h1
        obtain ⟨b, ws, e1, e2⟩ := ih h2
        refine ⟨b, ws, e1, ?_⟩
        rw [hk]
        cases e2 with
        | nil => exact .nil
        | cons a1 a2 a3 a4 => exact .cons (by omega) a2 a3 a4
      | some v =>
        obtain ⟨p, b, f1, f2, rfl, _⟩ := parseMsg_some.mp h1
        obtain ⟨bs, ws, rfl, e2⟩ := ih h2
        refine ⟨b ++ bs, v :: ws, by simp, ?_⟩
        rw [hk]
        exact .cons (Nat.le_refl _) (by omega) ⟨p, f1, tilde_eq.mp f2⟩ e2

/-- Reading a field. -/
theorem parseMsg_cases (kw : Str) (o : Bool) (l : List Item) :
    (∃ v b rest, parseMsg kw o l = (.ok v, rest) ∧ l = b.map .ok ++ rest ∧ OptField kw o b v ∧ (v = none → NoField kw o l ∧ rest = l)) ∨
    (∃ e v b rest, parseMsg kw o l = (.err e, rest) ∧ l = b.map .ok ++ .error e :: rest ∧ OptField kw o b v) := by
  rcases h : parseMsg kw o l with ⟨v | e | _, rest⟩
  · obtain ⟨b, h1, h2⟩ := parseMsg_opt h
    refine .inl ⟨v, b, rest, rfl, h1, h2, ?_⟩
    rintro rfl
    obtain ⟨h3, h4⟩ := parseMsg_none.mp h
    exact ⟨h4, h3⟩
  · obtain ⟨b, v, h1, h2⟩ := parseMsg_err_opt h
    exact .inr ⟨e, v, b, rest, rfl, h2, h1⟩
  · have := (good_parseMsg kw o l).1
    rw [h] at this
    exact absurd rfl this

/-- Complete fields make an entry. -/
theorem entry_of_fields {forms : Option PluralForms} {o : Bool} (cs : List (Nat × Char × Str)) {b1 b2 b3 b4 b5 b6 b7 : List PoLine}
    {prevCtx prevId prevPl ctx : Option Str} {id : Str} {idPl : Option Str} {m : Message}
    (f1 : OptField (c!"|msgctxt") o b1 prevCtx) (f2 : OptField (c!"|msgid") o b2 prevId)
    (f3 : OptField (c!"|msgid_plural") o b3 prevPl) (g3 : prevId = none → prevPl = none)
    (f4 : OptField (c!"msgctxt") o b4 ctx) (f5 : Field (c!"msgid") o b5 id)
    (f6 : OptField (c!"msgid_plural") o b6 idPl) (f7 : TextFields forms o id idPl b7 m) :
    ∃ u, Entry forms (cs.map commentLine ++ (b1 ++ (b2 ++ (b3 ++ (b4 ++ (b5 ++ (b6 ++ b7))))))) u ∧ u.obsolete = o ∧ u.message = m ∧
      u.prevContext = prevCtx ∧ u.context = ctx := by
  have hcd := collect_data (cs.map Prod.snd)
  have hcs := collect_state (cs.map Prod.snd)
  have hst := stateRule_finish (u := { collect (cs.map Prod.snd) with
    obsolete := o, prevContext := prevCtx, prevMessage := previousMessage forms prevId prevPl, context := ctx, message := m }) hcs
  refine ⟨_, ⟨cs, b1, b2, b3, b4, b5, b6, b7, prevId, prevPl, id, idPl, rfl, ?_, ?_, ?_, g3, ?_, ?_, ?_, ?_, ?_, ?_, hst⟩, rfl, rfl, rfl, rfl⟩
  · exact f1
  · exact f2
  · exact f3
  · exact f4
  · exact f5
  · exact f6
  · exact f7
  · rfl
  · exact ⟨hcd.1, hcd.2, hcd.3, hcd.4⟩

/-- The translation part: how it can be missing. -/
theorem newMessage_stop {forms : Option PluralForms} {o : Bool} {id : Str} {idPl : Option Str} {l : List Item} (hb : NoBlank l) :
    (∀ rest, newMessage forms o (some id) idPl l = (.ok none, rest) → l = [] ∧ rest = []) ∧
    (∀ e rest, newMessage forms o (some id) idPl l = (.err e, rest) →
      (l = .error e :: rest) ∨ (∃ ln tl, l = .ok ln :: tl ∧ ln ≠ .blank ∧ ¬ StartsText forms o idPl ln ∧ e = missing (textKeyword idPl) ln ∧ rest = l) ∨
      ∃ b m, l = b.map .ok ++ .error e :: rest ∧ TextFields forms o id idPl b m) := by
  unfold newMessage
  cases idPl with
  | some pl =>
    simp only
    rw [count_eq]
    have hnil : ∀ l1, valuesLoop o (nplurals forms) 0 [] l = (.ok [], l1) → l1 = l ∧ ∀ ln tl, l = .ok ln :: tl → ¬ StartsText forms o (some pl) ln := by
      intro l1 h1
      obtain ⟨ws, hw, hv⟩ := valuesLoop_iff.mp h1
      rw [List.nil_append] at hw
      obtain ⟨rfl, hn⟩ := hv.nil_inv hw.symm
      refine ⟨rfl, ?_⟩
      rintro ln tl rfl ⟨i, hi, hs⟩
      exact noField_starts (hn i (by omega) (by omega)) hs
    constructor
    · intro rest h
      obtain ⟨vs, l1, h1, h2⟩ := bind_ok h
      cases vs with
      | cons v vs => cases h2
      | nil =>
        obtain ⟨rfl, _⟩ := hnil l1 h1
        obtain ⟨_, l2, h3, h4⟩ := bind_ok h2
        cases h4
        obtain ⟨hr, h | ⟨tl, h⟩⟩ := expected_none h3
        · exact ⟨h, hr.trans h⟩
        · rw [h] at hb; exact absurd rfl (hb _ (by simp))
    · intro e rest h
      rcases bind_err h with h1 | ⟨vs, l1, h1, h2⟩
      · obtain ⟨b, ws, e1, e2⟩ := valuesLoop_err h1
        rw [Nat.zero_add] at e2
        cases ws with
        | nil => cases e2; exact .inl (by simpa using e1)
        | cons w ws => exact .inr (.inr ⟨b, _, e1, .plural e2 (by simp)⟩)
      · cases vs with
        | cons v vs => cases h2
        | nil =>
          obtain ⟨rfl, hs⟩ := hnil l1 h1
          rcases bind_err h2 with h3 | ⟨_, l2, h3, h4⟩
          · rcases expected_err h3 with h | ⟨ln, tl, h5, h6, h7, h8⟩
            · exact .inl h
            · exact .inr (.inl ⟨ln, tl, h5, h6, hs ln tl h5, h7, h8⟩)
          · cases h4
  | none =>
    simp only
    constructor
    · intro rest h
      obtain ⟨t, l1, h1, h2⟩ := bind_ok h
      cases t with
      | some t => cases h2
      | none =>
        obtain ⟨rfl, _⟩ := parseMsg_none.mp h1
        obtain ⟨_, l2, h3, h4⟩ := bind_ok h2
        cases h4
        obtain ⟨hr, h | ⟨tl, h⟩⟩ := expected_none h3
        · exact ⟨h, hr.trans h⟩
        · rw [h] at hb; exact absurd rfl (hb _ (by simp))
    · intro e rest h
      rcases bind_err h with h1 | ⟨t, l1, h1, h2⟩
      · obtain ⟨b, v, hv, e1⟩ := parseMsg_err_opt h1
        cases hv with
        | none => exact .inl (by simpa using e1)
        | some hf => exact .inr (.inr ⟨b, _, e1, .simple hf⟩)
      · cases t with
        | some t => cases h2
        | none =>
          obtain ⟨rfl, hn⟩ := parseMsg_none.mp h1
          rcases bind_err h2 with h3 | ⟨_, l2, h3, h4⟩
          · rcases expected_err h3 with h | ⟨ln, tl, h5, h6, h7, h8⟩
            · exact .inl h
            · refine .inr (.inl ⟨ln, tl, h5, h6, ?_, h7, h8⟩)
              rw [h5] at hn
              exact noField_starts hn
          · cases h4

theorem entryHead_comments (o : Bool) (cs : List (Nat × Char × Str)) : EntryHead o (cs.map commentLine) :=
  ⟨cs, [], [], [], [], none, none, none, none, by simp, .none, .none, .none, fun _ => rfl, .none⟩

theorem NoBlank.append {a : List PoLine} {l : List Item} (h : NoBlank (a.map .ok ++ l)) : NoBlank l :=
  fun x hx => h x (List.mem_append_right _ hx)

theorem not_comment_field {kw : Str} {o : Bool} {b : List PoLine} {v : Option Str} (h : OptField kw o b v) (hc : ∀ x ∈ b, IsComment x) : b = [] := by
  cases h with
  | none => rfl
  | some h =>
    obtain ⟨p, h1, _⟩ := h
    obtain ⟨n, s, tl, rfl⟩ := field_head h1
    obtain ⟨c, hc⟩ := hc _ (List.mem_cons_self ..)
    cases hc

/-- **Soundness of the fields, when they do not make a unit.** -/
theorem fields_stop {forms : Option PluralForms} {first : Bool} {u : PoUnit} {v : PoLine} {tl : List Item} {cs : List (Nat × Char × Str)}
    (hb : NoBlank (.ok v :: tl)) {out : Out (Option PoUnit)} {rest : List Item}
    (h : parseMessageFields forms u first (.ok v :: tl) = (out, rest)) :
    (out = .ok none → StopR forms first ((cs.map commentLine).map .ok ++ .ok v :: tl) none rest) ∧
    (∀ e, out = .err e → StopR forms first ((cs.map commentLine).map .ok ++ .ok v :: tl) (some e) rest ∨
      first = true ∧ ∃ block, StrayPlural block ∧ (cs.map commentLine).map .ok ++ .ok v :: tl = block.map .ok ++ .error e :: rest) := by
  unfold parseMessageFields at h
  generalize ho : u.obsolete = o at *
  generalize hl : (Except.ok v :: tl : List Item) = l at *
  -- previous context
  rcases parseMsg_cases (c!"|msgctxt") o l with ⟨a1, b1, l1, p1, e1, f1, n1⟩ | ⟨e, a1, b1, l1, p1, e1, f1⟩
  rotate_left
  · rw [bind_eq, p1] at h
    cases h
    refine ⟨by simp, ?_⟩
    rintro e h; cases h; left
    rw [e1, ← List.append_assoc, ← List.map_append]
    exact .unreadableHead ⟨cs, b1, [], [], [], _, none, none, none, by simp, f1, .none, .none, fun _ => rfl, .none⟩
  rw [bind_of p1] at h
  -- previous id
  rcases parseMsg_cases (c!"|msgid") o l1 with ⟨a2, b2, l2, p2, e2, f2, n2⟩ | ⟨e, a2, b2, l2, p2, e2, f2⟩
  rotate_left
  · rw [bind_eq, p2] at h
    cases h
    refine ⟨by simp, ?_⟩
    rintro e h; cases h; left
    rw [e1, e2]; simp only [← List.append_assoc, ← List.map_append]
    exact .unreadableHead ⟨cs, b1, b2, [], [], _, _, none, none, by simp, f1, f2, .none, fun _ => rfl, .none⟩
  rw [bind_of p2] at h
  -- previous plural id
  have hp3 : (∃ a3 b3 l3, (match a2 with
      | some _ => parseMsg (c!"|msgid_plural") o
      | none => Eff.pure none : Eff (List Item) (Option Str)) l2 = (.ok a3, l3) ∧ l2 = b3.map .ok ++ l3 ∧
        OptField (c!"|msgid_plural") o b3 a3 ∧ (a2 = none → a3 = none)) ∨
      (∃ e a3 b3 l3, (match a2 with
      | some _ => parseMsg (c!"|msgid_plural") o
      | none => Eff.pure none : Eff (List Item) (Option Str)) l2 = (.err e, l3) ∧ l2 = b3.map .ok ++ .error e :: l3 ∧
        OptField (c!"|msgid_plural") o b3 a3 ∧ (a2 = none → a3 = none)) := by
    cases a2 with
    | none => exact .inl ⟨none, [], l2, rfl, by simp, .none, fun _ => rfl⟩
    | some x =>
      rcases parseMsg_cases (c!"|msgid_plural") o l2 with ⟨a3, b3, l3, p3, e3, f3, n3⟩ | ⟨e, a3, b3, l3, p3, e3, f3⟩
      · exact .inl ⟨a3, b3, l3, p3, e3, f3, by simp⟩
      · exact .inr ⟨e, a3, b3, l3, p3, e3, f3, by simp⟩
  rcases hp3 with ⟨a3, b3, l3, p3, e3, f3, g3⟩ | ⟨e, a3, b3, l3, p3, e3, f3, g3⟩
  rotate_left
  · have h := (bind_err_of p3).symm.trans h
    cases h
    refine ⟨by simp, ?_⟩
    rintro e h; cases h; left
    rw [e1, e2, e3]; simp only [← List.append_assoc, ← List.map_append]
    exact .unreadableHead ⟨cs, b1, b2, b3, [], _, _, _, none, by simp, f1, f2, f3, g3, .none⟩
  have h := (bind_of p3).symm.trans h
  -- context
  rcases parseMsg_cases (c!"msgctxt") o l3 with ⟨a4, b4, l4, p4, e4, f4, n4⟩ | ⟨e, a4, b4, l4, p4, e4, f4⟩
  rotate_left
  · rw [bind_eq, p4] at h
    cases h
    refine ⟨by simp, ?_⟩
    rintro e h; cases h; left
    rw [e1, e2, e3, e4]; simp only [← List.append_assoc, ← List.map_append]
    exact .unreadableHead ⟨cs, b1, b2, b3, b4, _, _, _, _, by simp, f1, f2, f3, g3, f4⟩
  rw [bind_of p4] at h
  have hhead : EntryHead o (cs.map commentLine ++ (b1 ++ (b2 ++ (b3 ++ b4)))) := ⟨cs, b1, b2, b3, b4, _, _, _, _, rfl, f1, f2, f3, g3, f4⟩
  have hb4 : NoBlank l4 := by
    rw [e1, e2, e3, e4] at hb
    exact hb.append.append.append.append
  have hl4 : (cs.map commentLine).map .ok ++ l = (cs.map commentLine ++ (b1 ++ (b2 ++ (b3 ++ b4)))).map .ok ++ l4 := by
    rw [e1, e2, e3, e4]; simp
  -- id
  rcases parseMsg_cases (c!"msgid") o l4 with ⟨a5, b5, l5, p5, e5, f5, n5⟩ | ⟨e, a5, b5, l5, p5, e5, f5⟩
  rotate_left
  · rw [bind_eq, p5] at h
    cases h
    refine ⟨by simp, ?_⟩
    rintro e h; cases h; left
    rw [hl4, e5, ← List.append_assoc, ← List.map_append]
    cases f5 with
    | none => rw [List.append_nil]; exact .unreadableHead hhead
    | some f5 => exact .unreadableIds (idPl := none) ⟨_, b5, [], _, by simp, hhead, f5, .none⟩
  rw [bind_of p5] at h
  cases a5 with
  | none =>
    obtain ⟨hn5, rfl⟩ := n5 rfl
    cases first with
    | false =>
      simp only [Bool.not_false, Option.isNone_none, Bool.and_self, if_true] at h
      constructor
      · rintro rfl
        obtain ⟨_, l6, h1, h2⟩ := bind_ok h
        cases h2
        obtain ⟨hr, h | ⟨tl, h⟩⟩ := expected_none h1
        · rw [hl4, hr, h, List.append_nil]; exact .endsInHead hhead (by simp)
        · rw [h] at hb4; exact absurd rfl (hb4 _ (by simp))
      · rintro e rfl
        rcases bind_err h with h1 | ⟨_, l6, h1, h2⟩
        · rcases expected_err h1 with h | ⟨ln, tl', h5, h6, h7, h8⟩
          · exact absurd (by rw [h]; rfl) (hn5.1 e)
          · left; rw [hl4, h7, h8, h5]
            exact .noId rfl hhead h6
        · cases h2
    | true =>
      simp only [Bool.not_true, Bool.false_and, Bool.false_eq_true, if_false] at h
      rcases parseMsg_cases (c!"msgid_plural") o l5 with ⟨a6, b6, l6, p6, e6, f6, n6⟩ | ⟨e, a6, b6, l6, p6, e6, f6⟩
      · rw [bind_of p6] at h
        cases h
        exact ⟨by simp, by simp⟩
      · rw [bind_eq, p6] at h
        cases h
        refine ⟨by simp, ?_⟩
        rintro e h; cases h
        cases f6 with
        | none => left; rw [hl4, e6]; exact .unreadableHead hhead
        | some f6 => exact .inr ⟨rfl, _, ⟨o, _, b6, _, rfl, hhead, f6⟩, by rw [hl4, e6]; simp⟩
  | some id =>
    simp only [Option.isNone_some, Bool.and_false, Bool.false_eq_true, if_false] at h
    have f5' : Field (c!"msgid") o b5 id := by cases f5; assumption
    rcases parseMsg_cases (c!"msgid_plural") o l5 with ⟨a6, b6, l6, p6, e6, f6, n6⟩ | ⟨e, a6, b6, l6, p6, e6, f6⟩
    rotate_left
    · rw [bind_eq, p6] at h
      cases h
      refine ⟨by simp, ?_⟩
      rintro e h; cases h; left
      rw [hl4, e5, e6]; simp only [← List.append_assoc, ← List.map_append]
      exact .unreadableIds ⟨_, b5, b6, _, by simp, hhead, f5', f6⟩
    rw [bind_of p6] at h
    have hids : EntryIds o a6 (cs.map commentLine ++ (b1 ++ (b2 ++ (b3 ++ b4))) ++ (b5 ++ b6)) := ⟨_, b5, b6, _, rfl, hhead, f5', f6⟩
    have hl6 : (cs.map commentLine).map .ok ++ l = (cs.map commentLine ++ (b1 ++ (b2 ++ (b3 ++ b4))) ++ (b5 ++ b6)).map .ok ++ l6 := by
      rw [hl4, e5, e6]; simp
    have hb6 : NoBlank l6 := by
      rw [e5, e6] at hb4
      exact hb4.append.append
    have hnm := newMessage_stop (forms := forms) (o := o) (id := id) (idPl := a6) hb6
    constructor
    · rintro rfl
      obtain ⟨m, l7, h1, h2⟩ := bind_ok h
      cases m with
      | some m => cases h2
      | none =>
        cases h2
        obtain ⟨g1, g2⟩ := hnm.1 _ h1
        rw [hl6, g1, g2, List.append_nil]; exact .endsAfterIds hids
    · rintro e rfl
      rcases bind_err h with h1 | ⟨m, l7, h1, h2⟩
      · rcases hnm.2 _ _ h1 with h | ⟨ln, tl', g1, g2, g3', g4, g5⟩ | ⟨b7, m, g1, g2⟩
        · left; rw [hl6, h]; exact .unreadableIds hids
        · left; rw [hl6, g4, g5, g1]; exact .noText hids g2 g3'
        · obtain ⟨u', hu', _⟩ := entry_of_fields cs f1 f2 f3 g3 f4 f5' f6 g2
          left; rw [hl6, g1]; simp only [← List.append_assoc, ← List.map_append]
          refine .unreadableAfter (u := u') ?_
          simpa using hu'
      · cases m <;> cases h2


/-- The number of the first line after the comments. -/
theorem isComment_commentLine {x : PoLine} {cs : List (Nat × Char × Str)} (h : x ∈ cs.map commentLine) : IsComment x := by
  obtain ⟨c, _, rfl⟩ := List.mem_map.mp h
  exact ⟨c, rfl⟩

theorem isEmpty_iff (m : Message) : m.isEmpty = true ↔ ∃ t, m = .simple [] t := by
  cases m with
  | simple id t => cases id <;> simp [Message.isEmpty]
  | plural p => simp [Message.isEmpty]

theorem hasSource_iff (m : Message) : m.isEmpty = false ↔ HasSource m := by
  cases m with
  | simple id t => cases id <;> simp [Message.isEmpty, HasSource]
  | plural p => simp [Message.isEmpty, HasSource]

/-- The unit that `finishUnit` is asked about. -/
theorem entry_eq {forms : Option PluralForms} {first : Bool} {l l0 : List Item} {u0 : PoUnit} {v : PoLine} {tl : List Item}
    (h0 : parseComments .default l = (.ok u0, l0)) (hl0 : l0 = .ok v :: tl) : entry forms first l =
      match parseMessageFields forms { u0 with obsolete := lineObsolete v } first l0 with
      | (.err e, l2) => (.err e, l2)
      | (.panic, l2) => (.panic, l2)
      | (.ok none, l2) => (.ok none, l2)
      | (.ok (some u'), l2) =>
        match finishUnit first v.line u' with
        | .error e => (.err e, l2)
        | .ok u2 => (.ok (some u2), l2) := by
  unfold entry
  rw [h0]
  simp only [hl0]
  rfl

/-- An entry has a line that is not a comment. -/
theorem Spec.Entry.hasKeyword {forms : Option PluralForms} {block : List PoLine} {u : PoUnit} (h : Entry forms block u) :
    ∃ x, x ∈ block ∧ ¬ IsComment x := by
  obtain ⟨cs, b1, b2, b3, b4, b5, b6, b7, prevId, prevPl, id, idPl, rfl, f1, f2, f3, g3, f4, f5, f6, f7, f8, f9, f10⟩ := h
  obtain ⟨p, f5, _⟩ := f5
  obtain ⟨n, s, tl, rfl⟩ := field_head f5
  exact ⟨.message n p (c!"msgid") s, by simp, fun ⟨c, hc⟩ => by cases hc⟩

/-- Fields that make a unit make an entry. -/
theorem fields_entry {forms : Option PluralForms} {cs : List (Nat × Char × Str)} {o : Bool} {u1 : PoUnit} {l rest : List Item}
    (hf : parseMessageFields forms { collect (cs.map Prod.snd) with obsolete := o } false l = (.ok (some u1), rest)) :
    ∃ b u, l = b.map .ok ++ rest ∧ Entry forms (cs.map commentLine ++ b) u ∧ u.message = u1.message ∧ EntryEnd forms u (cs.map commentLine ++ b) rest := by
  unfold parseMessageFields at hf
  obtain ⟨pc, l1, h1, hf⟩ := bind_ok hf
  obtain ⟨pid, l2, h2, hf⟩ := bind_ok hf
  obtain ⟨ppl, l3, h3, hf⟩ := bind_ok hf
  obtain ⟨ctx, l4, h4, hf⟩ := bind_ok hf
  obtain ⟨id, l5, h5, hf⟩ := bind_ok hf
  obtain ⟨b1, e1, f1⟩ := parseMsg_opt h1
  obtain ⟨b2, e2, f2⟩ := parseMsg_opt h2
  have hpp : ∃ b3 : List PoLine, l2 = b3.map .ok ++ l3 ∧ OptField (c!"|msgid_plural") o b3 ppl ∧ (pid = none → ppl = none) := by
    cases pid with
    | none => cases h3; exact ⟨[], by simp, .none, fun _ => rfl⟩
    | some x => obtain ⟨b, e, f⟩ := parseMsg_opt h3; exact ⟨b, e, f, by simp⟩
  obtain ⟨b3, e3, f3, g3⟩ := hpp
  obtain ⟨b4, e4, f4⟩ := parseMsg_opt h4
  cases id with
  | none =>
    obtain ⟨_, _, _, hf⟩ := bind_ok hf
    cases hf
  | some id =>
    obtain ⟨b5, e5, f5⟩ := parseMsg_opt h5
    simp only [Option.isNone_some, Bool.and_false] at hf
    obtain ⟨idPl, l6, h6, hf⟩ := bind_ok hf
    obtain ⟨b6, e6, f6⟩ := parseMsg_opt h6
    obtain ⟨m, l7, h7, hf⟩ := bind_ok hf
    cases m with
    | none => cases hf
    | some m =>
      simp only [Eff.pure, Prod.mk.injEq, Out.ok.injEq, Option.some.injEq] at hf
      obtain ⟨hu1, rfl⟩ := hf
      obtain ⟨b7, e7, f7, g7⟩ := newMessage_sound h7
      have f5' : Field (c!"msgid") o b5 id := by cases f5; assumption
      obtain ⟨u, hu, ho, hm, _⟩ := entry_of_fields cs f1 f2 f3 g3 f4 f5' f6 f7
      refine ⟨b1 ++ (b2 ++ (b3 ++ (b4 ++ (b5 ++ (b6 ++ b7))))), u, ?_, hu, ?_, ?_⟩
      · rw [e1, e2, e3, e4, e5, e6, e7]; simp
      · rw [hm, ← hu1]
      · obtain ⟨hne, k, hk⟩ := TextFields_ne_nil f7
        simp only [← List.append_assoc]
        rw [entryEnd_append hne hk, ← textEnd_iff, ho, hm]
        exact g7

/-- **Soundness of `entry`, when it does not give a unit.** -/
theorem entry_stop {forms : Option PluralForms} {first : Bool} {l : List Item} (hb : NoBlank l) {out : Out (Option PoUnit)} {rest : List Item}
    (h : entry forms first l = (out, rest)) :
    (out = .ok none → StopR forms first l none rest) ∧
    (∀ e, out = .err e → StopR forms first l (some e) rest ∨
      first = true ∧ ∃ block, StrayPlural block ∧ l = block.map .ok ++ .error e :: rest) := by
  rcases h0 : parseComments .default l with ⟨u0 | e | _, l0⟩
  · obtain ⟨cs, hl, hu0, hne, hnc⟩ := parseComments_iff.mp h0
    rcases hl0 : l0 with _ | ⟨e | v, tl⟩
    · unfold entry at h
      rw [h0] at h
      simp only [hl0] at h
      cases h
      refine ⟨fun _ => ?_, by simp⟩
      rw [hl, hl0, List.append_nil]
      exact .endsInHead (entryHead_comments false cs) (fun _ x hx => isComment_commentLine hx)
    · rw [hl0] at hne
      exact absurd rfl (hne e)
    · rw [entry_eq h0 hl0] at h
      have hb0 : NoBlank (.ok v :: tl) := by rw [hl, hl0] at hb; exact hb.append
      rw [hl0] at h
      rcases hf : parseMessageFields forms { u0 with obsolete := lineObsolete v } first (.ok v :: tl) with ⟨o2, l2⟩
      have hs := fields_stop (cs := cs) hb0 hf
      rw [hl, hl0]
      rw [hf] at h
      rcases o2 with (_ | u1) | e | _
      · cases h
        exact ⟨fun _ => hs.1 rfl, by simp⟩
      · simp only at h
        cases hfin : finishUnit first v.line u1 with
        | ok u2 => rw [hfin] at h; cases h; exact ⟨by simp, by simp⟩
        | error e =>
          rw [hfin] at h
          cases h
          refine ⟨by simp, ?_⟩
          rintro e h; cases h
          left
          unfold finishUnit at hfin
          split at hfin
          · rename_i hem
            cases hfin
            simp only [Bool.and_eq_true, Bool.not_eq_true'] at hem
            obtain ⟨rfl, hem⟩ := hem
            subst hu0
            obtain ⟨b, u, e1, e2, e3, e4⟩ := fields_entry (cs := cs) hf
            rw [← e3] at hem
            obtain ⟨t, ht⟩ := (isEmpty_iff _).mp hem
            cases b with
            | nil =>
              obtain ⟨x, hx⟩ := e2.hasKeyword
              simp only [List.append_nil] at hx
              exact absurd (isComment_commentLine hx.1) hx.2
            | cons v' b =>
              simp only [List.map_cons, List.cons_append, List.cons.injEq, Except.ok.injEq] at e1
              obtain ⟨rfl, rfl⟩ := e1
              have := StopR.noSource (rest := rest) rfl e2 (fun c hc => isComment_commentLine hc) (fun ⟨c, hc⟩ => hnc c.1 c.2.1 c.2.2 (by rw [hl0, hc]; rfl)) ht
                e4.2 e4.1
              simpa using this
          · split at hfin <;> cases hfin
      · cases h
        exact ⟨by simp, hs.2⟩
      · cases h; exact ⟨by simp, by simp⟩
  · unfold entry at h
    rw [h0] at h
    cases h
    refine ⟨by simp, ?_⟩
    rintro e h; cases h
    rw [parseComments_list] at h0
    obtain ⟨cs, h1, h2⟩ := takeComments_spec l
    left
    rcases h3 : (takeComments l).2 with _ | ⟨e' | ln, tl⟩
    · rw [h3] at h0; simp [afterField] at h0
    · rw [h3] at h0
      simp only [afterField, Prod.mk.injEq, Out.err.injEq] at h0
      obtain ⟨rfl, rfl⟩ := h0
      rw [h1, h3]
      exact .unreadableHead (entryHead_comments false cs)
    · rw [h3] at h0; simp [afterField] at h0
  · unfold entry at h
    rw [h0] at h
    cases h
    exact ⟨by simp, by simp⟩

end Verif
