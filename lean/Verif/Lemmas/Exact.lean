import Verif.Lemmas.Local

/-! The specification of runs is exact. -/

namespace Verif
open Spec

/-- Nothing comes, or a keyword line of an entry of kind `o` whose keyword satisfies `P`. -/
def EStarts (P : Str → Prop) (o : Bool) (l : List Item) : Prop := l = [] ∨ Starts P o l

theorem EStarts.noField {P : Str → Prop} {o : Bool} {l : List Item} (h : EStarts P o l) {kw : Str} (hk : ¬ P kw) : NoField kw o l := by
  rcases h with rfl | h
  · exact ⟨by simp, by simp⟩
  · exact h.noField hk

theorem EStarts.stops {P : Str → Prop} {o : Bool} {l : List Item} (h : EStarts P o l) (p : Str) : FieldStops p l := by
  rcases h with rfl | h
  · exact ⟨by simp, by simp⟩
  · exact h.stops p

theorem efield_step {kw : Str} {o : Bool} {b : List PoLine} {v : Str} {P : Str → Prop} {l : List Item} (h : Field kw o b v)
    (hs : EStarts P o l) : parseMsg kw o (b.map .ok ++ l) = (.ok (some v), l) := by
  obtain ⟨p, h1, h2⟩ := h
  exact parseMsg_some.mpr ⟨p, b, h1, tilde_eq.mpr h2, rfl, hs.stops p⟩

theorem eopt_step {kw : Str} {o : Bool} {b : List PoLine} {v : Option Str} {P : Str → Prop} {l : List Item} (h : OptField kw o b v)
    (hs : EStarts P o l) (hk : ¬ P kw) :
    parseMsg kw o (b.map .ok ++ l) = (.ok v, l) ∧ EStarts (fun k => k = kw ∨ P k) o (b.map .ok ++ l) := by
  cases h with
  | none =>
    refine ⟨parseMsg_none.mpr ⟨rfl, hs.noField hk⟩, ?_⟩
    rcases hs with rfl | ⟨n, p, k, s, tl, h0, h1, h2⟩
    · exact .inl rfl
    · exact .inr ⟨n, p, k, s, tl, h0, .inr h1, h2⟩
  | some h => exact ⟨efield_step h hs, .inr (field_starts h (.inl rfl) l)⟩

/-- The part of `parseMessageFields` after the context. -/
def restFields (forms : Option PluralForms) (first : Bool) (u : PoUnit) (pc : Option Str) (pm : Message) (ctx : Option Str) :
    Eff (List Item) (Option PoUnit) := do
  let msgid ← parseMsg (c!"msgid") u.obsolete
  if !first && msgid.isNone then do
    expected (c!"msgid")
    Eff.pure none
  else do
    let msgidPl ← parseMsg (c!"msgid_plural") u.obsolete
    match ← newMessage forms u.obsolete msgid msgidPl with
    | none => Eff.pure none
    | some message => Eff.pure (some { u with prevContext := pc, prevMessage := pm, context := ctx, message := message })

theorem good_restFields (forms : Option PluralForms) (first : Bool) (u : PoUnit) (pc : Option Str) (pm : Message) (ctx : Option Str) :
    Good (restFields forms first u pc pm ctx) := by
  refine Good.bind (good_parseMsg _ _) fun e => ?_
  split
  · exact Good.bind (good_expected _) fun _ => Good.pure _
  · refine Good.bind (good_parseMsg _ _) fun g => ?_
    refine Good.bind (good_newMessage _ _ _ _) fun m => ?_
    split
    · exact Good.pure _
    · exact Good.pure _

/-- Reading the fields of a head goes on with what follows. -/
theorem fields_head {forms : Option PluralForms} {first : Bool} {u : PoUnit} {b1 b2 b3 b4 : List PoLine} {pc pid ppl ctx : Option Str} {l : List Item}
    (f1 : OptField (c!"|msgctxt") u.obsolete b1 pc) (f2 : OptField (c!"|msgid") u.obsolete b2 pid)
    (f3 : OptField (c!"|msgid_plural") u.obsolete b3 ppl) (g3 : pid = none → ppl = none) (f4 : OptField (c!"msgctxt") u.obsolete b4 ctx)
    {P : Str → Prop} (hs : EStarts P u.obsolete l) (n1 : ¬ P (c!"|msgctxt")) (n2 : ¬ P (c!"|msgid")) (n3 : ¬ P (c!"|msgid_plural"))
    (n4 : ¬ P (c!"msgctxt")) :
    parseMessageFields forms u first (b1.map .ok ++ (b2.map .ok ++ (b3.map .ok ++ (b4.map .ok ++ l)))) =
      restFields forms first u pc (newPrevious forms pid ppl) ctx l ∧
    EStarts (fun k => k = c!"|msgctxt" ∨ k = c!"|msgid" ∨ k = c!"|msgid_plural" ∨ k = c!"msgctxt" ∨ P k) u.obsolete
      (b1.map .ok ++ (b2.map .ok ++ (b3.map .ok ++ (b4.map .ok ++ l)))) := by
  obtain ⟨p4, s4⟩ := eopt_step f4 hs n4
  have p3 : (match (generalizing := false) pid with
      | some _ => parseMsg (c!"|msgid_plural") u.obsolete
      | none => Eff.pure none : Eff (List Item) (Option Str)) (b3.map .ok ++ (b4.map .ok ++ l)) =
      (.ok ppl, b4.map .ok ++ l) := by
    cases hp : pid with
    | some x => exact (eopt_step f3 s4 (by rintro (h | h); exact absurd h (by decide); exact n3 h)).1
    | none =>
      have := g3 hp
      subst this
      cases f3
      rfl
  have s3 := (eopt_step f3 s4 (by rintro (h | h); exact absurd h (by decide); exact n3 h)).2
  obtain ⟨p2, s2⟩ := eopt_step f2 s3 (by rintro (h | h | h); exact absurd h (by decide); exact absurd h (by decide); exact n2 h)
  obtain ⟨p1, s1⟩ := eopt_step f1 s2 (by
    rintro (h | h | h | h)
    · exact absurd h (by decide)
    · exact absurd h (by decide)
    · exact absurd h (by decide)
    · exact n1 h)
  refine ⟨?_, s1⟩
  unfold parseMessageFields
  rw [bind_eq, p1]
  simp only
  rw [bind_eq, p2]
  simp only
  refine (bind_of p3).trans ?_
  rw [bind_eq, p4]
  rfl

/-- The rest after `entry` is that of the fields. -/
theorem entry_rest {forms : Option PluralForms} {first : Bool} {cs : List (Nat × Char × Str)} {v : PoLine} {tl : List Item} (hv : ¬ IsComment v)
    {o : Out (Option PoUnit)} {rest : List Item}
    (h : parseMessageFields forms { collect (cs.map Prod.snd) with obsolete := lineObsolete v } first (.ok v :: tl) = (o, rest)) :
    (entry forms first ((cs.map commentLine).map .ok ++ .ok v :: tl)).2 = rest := by
  have h0 : parseComments .default ((cs.map commentLine).map .ok ++ .ok v :: tl) = (.ok (collect (cs.map Prod.snd)), .ok v :: tl) := by
    refine parseComments_iff.mpr ⟨cs, rfl, rfl, by simp, ?_⟩
    intro n k s hh
    simp only [List.head?_cons, Option.some.injEq, Except.ok.injEq] at hh
    exact hv ⟨(n, k, s), hh⟩
  rw [entry_eq h0 rfl, h]
  rcases o with (_ | u1) | e | _
  · rfl
  · simp only
    cases finishUnit first v.line u1 <;> rfl
  · rfl
  · rfl

theorem entry_comments (forms : Option PluralForms) (first : Bool) (cs : List (Nat × Char × Str)) :
    entry forms first ((cs.map commentLine).map .ok) = (.ok none, []) := by
  have h0 : parseComments .default ((cs.map commentLine).map .ok : List Item) = (.ok (collect (cs.map Prod.snd)), []) :=
    parseComments_iff.mpr ⟨cs, by simp, rfl, by simp, by simp⟩
  unfold entry
  rw [h0]

theorem starts_not_comment {P : Str → Prop} {o : Bool} {l : List Item} (h : Starts P o l) :
    ∃ v tl, l = .ok v :: tl ∧ ¬ IsComment v ∧ lineObsolete v = o := by
  obtain ⟨n, p, k, s, tl, rfl, _, h⟩ := h
  exact ⟨_, tl, rfl, fun ⟨c, hc⟩ => (by cases hc), h⟩

/-- The rest after reading a head and what follows. -/
theorem head_rest {forms : Option PluralForms} {first : Bool} {o : Bool} {cs : List (Nat × Char × Str)} {b1 b2 b3 b4 : List PoLine} {pc pid ppl ctx : Option Str}
    {l rest : List Item} (f1 : OptField (c!"|msgctxt") o b1 pc) (f2 : OptField (c!"|msgid") o b2 pid)
    (f3 : OptField (c!"|msgid_plural") o b3 ppl) (g3 : pid = none → ppl = none) (f4 : OptField (c!"msgctxt") o b4 ctx)
    (hs : EStarts (fun k => k = c!"msgid") o l)
    (h : ∀ u, u.obsolete = o → (restFields forms first u pc (newPrevious forms pid ppl) ctx l).2 = rest) (hnil : l = [] → rest = []) :
    (entry forms first ((cs.map commentLine ++ (b1 ++ (b2 ++ (b3 ++ b4)))).map .ok ++ l)).2 = rest := by
  have key := fields_head (forms := forms) (first := first) (u := { collect (cs.map Prod.snd) with obsolete := o }) f1 f2 f3 g3 f4 hs
    (by decide) (by decide) (by decide) (by decide)
  simp only [List.map_append, List.append_assoc]
  obtain ⟨k1, k2⟩ := key
  rcases k2 with k2 | k2
  · rw [k2, List.append_nil, entry_comments]
    simp only [List.append_eq_nil_iff] at k2
    exact (hnil k2.2.2.2.2).symm
  · obtain ⟨v, tl, e1, e2, e3⟩ := starts_not_comment k2
    rw [e1] at k1 ⊢
    subst e3
    refine entry_rest e2 (o := (parseMessageFields forms { collect (cs.map Prod.snd) with obsolete := lineObsolete v } first (.ok v :: tl)).1) ?_
    refine Prod.ext rfl ?_
    rw [k1]
    exact h _ rfl

/-- A beginning of an entry is read to its end. -/
theorem prefix_rest {forms : Option PluralForms} {block : List PoLine} (h : EntryPrefix forms block) (first : Bool) :
    (entry forms first (block.map .ok)).2 = [] := by
  rcases h with ⟨o, cs, b1, b2, b3, b4, pc, pid, ppl, ctx, rfl, f1, f2, f3, g3, f4⟩ | ⟨o, idPl, b, b5, b6, id, rfl, ⟨cs, b1, b2, b3, b4, pc, pid, ppl, ctx, rfl, f1, f2, f3, g3, f4⟩, f5, f6⟩ |
    ⟨u, cs, b1, b2, b3, b4, b5, b6, b7, pid, ppl, id, idPl, rfl, f1, f2, f3, g3, f4, f5, f6, f7, _⟩
  · have := head_rest (forms := forms) (first := first) (cs := cs) (l := []) (rest := []) f1 f2 f3 g3 f4 (.inl rfl)
      (fun u _ => by simpa using (good_restFields forms first u pc (newPrevious forms pid ppl) ctx []).2) (fun _ => rfl)
    rwa [List.append_nil] at this
  · have s6 := (eopt_step f6 (P := fun _ => False) (l := []) (.inl rfl) (by simp))
    rw [List.append_nil] at s6
    have p5 := efield_step f5 s6.2
    have := head_rest (forms := forms) (first := first) (cs := cs) (l := b5.map .ok ++ b6.map .ok) (rest := []) f1 f2 f3 g3 f4 (.inr (field_starts f5 (P := fun k => k = c!"msgid") rfl _))
      (fun u hu => by
        subst hu
        unfold restFields
        rw [bind_of p5]
        simp only [Option.isNone_some, Bool.and_false, Bool.false_eq_true, if_false]
        rw [bind_of s6.1]
        have hg : Good (newMessage forms u.obsolete (some id) idPl >>= fun m => match m with
          | none => Eff.pure none
          | some message => Eff.pure (some { u with prevContext := pc, prevMessage := newPrevious forms pid ppl, context := ctx, message := message })) := by
          refine Good.bind (good_newMessage _ _ _ _) fun m => ?_
          split
          · exact Good.pure _
          · exact Good.pure _
        have := (hg []).2
        exact List.suffix_nil.mp this) (fun _ => rfl)
    simpa using this
  · have s7 := textFields_starts f7 []
    obtain ⟨p6, s6⟩ := opt_step f6 s7 (not_textKw (by decide) (by decide))
    have p5 := field_step f5 s6
    have s5 := field_starts f5 (P := fun k => k = c!"msgid") rfl (b6.map .ok ++ (b7.map .ok ++ []))
    have hend : TextEnd forms u.obsolete u.message.isPlural b7 [] := textEnd_iff.mpr ⟨by simp [NoErr], trivial⟩
    have p7 := newMessage_complete f7 hend
    have := head_rest (forms := forms) (first := first) (cs := cs) (rest := []) f1 f2 f3 g3 f4 (.inr s5)
      (fun u' hu => by
        rw [← hu] at p5 p6 p7
        unfold restFields
        rw [bind_of p5]
        simp only [Option.isNone_some, Bool.and_false, Bool.false_eq_true, if_false]
        rw [bind_of p6, bind_of p7]
        rfl) (fun h => by simp at h; exact absurd h.2.2 (TextFields_ne_nil f7).1)
    simpa using this

end Verif
