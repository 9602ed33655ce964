import Verif.Spec.Layout
import Verif.Lemmas.Positions

/-! Reading does not depend on the layout. -/

namespace Verif
open Spec

/-- The items do not start with a continuation line with marker `p`. -/
def NotCont (p : Str) (l : List Item) : Prop := ∀ n s tl, l ≠ .ok (.continuation n p s) :: tl

/-- Continuation lines with marker `p`. -/
def contItems (p : Str) (cs : List (Nat × Str)) : List Item := cs.map fun c => .ok (.continuation c.1 p c.2)

/-- Items that are the same except for line numbers and for how texts are cut into continuation lines. -/
inductive SameText : List Item → List Item → Prop
  | nil : SameText [] []
  | error {e e' tl tl'} : SameErr e e' → SameText (.error e :: tl) (.error e' :: tl')
  | comment {n n' c s l l'} : SameText l l' → SameText (.ok (.comment n c s) :: l) (.ok (.comment n' c s) :: l')
  | stray {n n' p s l l'} : SameText l l' → SameText (.ok (.continuation n p s) :: l) (.ok (.continuation n' p s) :: l')
  | field {n n' p kw s s' cs cs' l l'} : s ++ (cs.map Prod.snd).flatten = s' ++ (cs'.map Prod.snd).flatten → NotCont p l → SameText l l' →
      SameText (.ok (.message n p kw s) :: (contItems p cs ++ l)) (.ok (.message n' p kw s') :: (contItems p cs' ++ l'))

theorem SameText.notCont {l l' : List Item} (h : SameText l l') {p : Str} (hn : NotCont p l) : NotCont p l' := by
  cases h with
  | stray h =>
    intro m t tl he
    cases he
    exact hn _ _ _ rfl
  | _ => intro m t tl he; cases he

theorem takeCont_conts {p : Str} (cs : List (Nat × Str)) {l : List Item} (h : NotCont p l) :
    takeCont p (contItems p cs ++ l) = ((cs.map Prod.snd).flatten, l) := by
  induction cs with
  | nil =>
    rw [contItems, List.map_nil, List.nil_append]
    unfold takeCont
    split
    · rename_i n q s tl
      rw [if_neg]
      · rfl
      · rintro rfl; exact h _ _ _ rfl
    · rfl
  | cons c cs ih =>
    rw [contItems, List.map_cons, List.cons_append, takeCont, if_pos rfl]
    rw [contItems] at ih
    rw [ih]
    simp

/-- Outcomes that are the same up to line numbers in errors. -/
inductive SameOut {α : Type} : Out α → Out α → Prop
  | ok (a) : SameOut (.ok a) (.ok a)
  | err {e e'} : SameErr e e' → SameOut (.err e) (.err e')
  | panic : SameOut .panic .panic

/-- A computation that gives the same on lists with the same text. -/
def Inv {α : Type} (x : Eff (List Item) α) : Prop :=
  ∀ l l', SameText l l' → SameOut (x l).1 (x l').1 ∧ (∀ a, (x l).1 = .ok a → SameText (x l).2 (x l').2)

theorem Inv.pure {α : Type} (a : α) : Inv (Eff.pure a) := fun _ _ h => ⟨.ok a, fun _ _ => h⟩

theorem Inv.bind {α β : Type} {x : Eff (List Item) α} {f : α → Eff (List Item) β} (hx : Inv x) (hf : ∀ a, Inv (f a)) : Inv (x >>= f) := by
  intro l l' h
  obtain ⟨h1, h2⟩ := hx l l' h
  rw [bind_eq, bind_eq]
  rcases e1 : x l with ⟨o, r⟩
  rcases e2 : x l' with ⟨o', r'⟩
  rw [e1, e2] at h1 h2
  simp only at h1 h2
  cases h1 with
  | ok a => exact hf a _ _ (h2 a rfl)
  | err h => exact ⟨.err h, by simp⟩
  | panic => exact ⟨.panic, by simp⟩

theorem inv_afterField {α : Type} (v : α) {r r' : List Item} (h : SameText r r') :
    SameOut (afterField v r).1 (afterField v r').1 ∧ (∀ a, (afterField v r).1 = .ok a → SameText (afterField v r).2 (afterField v r').2) := by
  cases h with
  | error he => exact ⟨.err he, by simp [afterField]⟩
  | nil => exact ⟨.ok _, fun _ _ => .nil⟩
  | comment h => exact ⟨.ok _, fun _ _ => .comment h⟩
  | stray h => exact ⟨.ok _, fun _ _ => .stray h⟩
  | field h1 h2 h3 => exact ⟨.ok _, fun _ _ => .field h1 h2 h3⟩

theorem inv_parseMsg (tag : Str) (o : Bool) : Inv (parseMsg tag o) := by
  intro l l' h
  rw [parseMsg_list, parseMsg_list]
  cases h with
  | nil => exact ⟨.ok _, fun _ _ => .nil⟩
  | error he => exact ⟨.err he, by simp⟩
  | comment h => exact ⟨.ok _, fun _ _ => .comment h⟩
  | stray h => exact ⟨.ok _, fun _ _ => .stray h⟩
  | @field n n' p kw s s' cs cs' l l' h1 h2 h3 =>
    simp only
    split
    · rw [takeCont_conts cs h2, takeCont_conts cs' (h3.notCont h2), h1]
      exact inv_afterField _ h3
    · exact ⟨.ok _, fun _ _ => .field h1 h2 h3⟩

theorem inv_expected (exp : Str) : Inv (expected exp) := by
  intro l l' h
  rw [expected_list, expected_list]
  cases h with
  | nil => exact ⟨.ok _, fun _ _ => .nil⟩
  | error he => exact ⟨.err he, by simp⟩
  | comment h => exact ⟨.err rfl, by simp⟩
  | stray h => exact ⟨.err rfl, by simp⟩
  | field h => exact ⟨.err rfl, by simp⟩

theorem inv_valuesLoop (o : Bool) (k i : Nat) (vs : List Str) : Inv (valuesLoop o k i vs) := by
  induction k generalizing i vs with
  | zero => exact Inv.pure _
  | succ k ih =>
    refine Inv.bind (inv_parseMsg _ _) fun a => ?_
    split
    · exact ih _ _
    · exact ih _ _

theorem inv_newMessage (f : Option PluralForms) (o : Bool) (a b : Option Str) : Inv (newMessage f o a b) := by
  unfold newMessage
  split
  · exact Inv.pure _
  · split
    · refine Inv.bind (inv_valuesLoop _ _ _ _) fun c => ?_
      split
      · exact Inv.bind (inv_expected _) fun _ => Inv.pure _
      · exact Inv.pure _
    · refine Inv.bind (inv_parseMsg _ _) fun c => ?_
      split
      · exact Inv.pure _
      · exact Inv.bind (inv_expected _) fun _ => Inv.pure _

theorem inv_parseMessageFields (f : Option PluralForms) (u : PoUnit) (first : Bool) : Inv (parseMessageFields f u first) := by
  refine Inv.bind (inv_parseMsg _ _) fun a => ?_
  refine Inv.bind (inv_parseMsg _ _) fun b => ?_
  refine Inv.bind (by split; exact inv_parseMsg _ _; exact Inv.pure _) fun c => ?_
  refine Inv.bind (inv_parseMsg _ _) fun d => ?_
  refine Inv.bind (inv_parseMsg _ _) fun e => ?_
  split
  · exact Inv.bind (inv_expected _) fun _ => Inv.pure _
  · refine Inv.bind (inv_parseMsg _ _) fun g => ?_
    refine Inv.bind (inv_newMessage _ _ _ _) fun m => ?_
    split
    · exact Inv.pure _
    · exact Inv.pure _

theorem sameText_comments {l l' : List Item} (h : SameText l l') :
    (takeComments l).1 = (takeComments l').1 ∧ SameText (takeComments l).2 (takeComments l').2 := by
  induction h with
  | nil => exact ⟨rfl, .nil⟩
  | error h => exact ⟨rfl, .error h⟩
  | comment h ih => exact ⟨by simp only [takeComments]; rw [ih.1], ih.2⟩
  | stray h ih => exact ⟨rfl, .stray h⟩
  | field h1 h2 h3 ih => exact ⟨rfl, .field h1 h2 h3⟩

theorem inv_parseComments (u : PoUnit) : Inv (parseComments u) := by
  intro l l' h
  rw [parseComments_list, parseComments_list]
  obtain ⟨h1, h2⟩ := sameText_comments h
  rw [h1]
  exact inv_afterField _ h2

/-- The rest of an entry, from its first line that is not a comment. -/
def entryTail (f : Option PluralForms) (u : PoUnit) (first : Bool) (v : PoLine) (l : List Item) : Out (Option PoUnit) × List Item :=
  match parseMessageFields f { u with obsolete := lineObsolete v } first l with
  | (.err e, l2) => (.err e, l2)
  | (.panic, l2) => (.panic, l2)
  | (.ok none, l2) => (.ok none, l2)
  | (.ok (some u'), l2) =>
    match finishUnit first v.line u' with
    | .error e => (.err e, l2)
    | .ok u2 => (.ok (some u2), l2)

theorem inv_entryTail (f : Option PluralForms) (u : PoUnit) (first : Bool) {v v' : PoLine} {l l' : List Item} (hs : SameText l l')
    (ho : lineObsolete v = lineObsolete v') : SameOut (entryTail f u first v l).1 (entryTail f u first v' l').1 ∧
      (∀ a, (entryTail f u first v l).1 = .ok a → SameText (entryTail f u first v l).2 (entryTail f u first v' l').2) := by
  unfold entryTail
  rw [ho]
  obtain ⟨k1, k2⟩ := inv_parseMessageFields f { u with obsolete := lineObsolete v' } first _ _ hs
  generalize parseMessageFields f { u with obsolete := lineObsolete v' } first l = y at *
  generalize parseMessageFields f { u with obsolete := lineObsolete v' } first l' = y' at *
  obtain ⟨o, r⟩ := y
  obtain ⟨o', r'⟩ := y'
  simp only at k1 k2
  cases k1 with
  | err h => exact ⟨.err h, by simp⟩
  | panic => exact ⟨.panic, by simp⟩
  | ok a =>
    have k3 := k2 a rfl
    cases a with
    | none => exact ⟨.ok _, fun _ _ => k3⟩
    | some u' =>
      simp only [finishUnit]
      by_cases hc : (!first && u'.message.isEmpty) = true
      · rw [if_pos hc, if_pos hc]; exact ⟨.err rfl, by simp⟩
      · rw [if_neg hc, if_neg hc]
        by_cases hd : u'.state = State.empty ∧ u'.message.isBlank = false
        · rw [if_pos hd]; exact ⟨.ok _, fun _ _ => k3⟩
        · rw [if_neg hd]; exact ⟨.ok _, fun _ _ => k3⟩

theorem inv_entry (f : Option PluralForms) (first : Bool) : Inv (entry f first) := by
  intro l l' h
  unfold entry
  obtain ⟨h1, h2⟩ := inv_parseComments .default l l' h
  rcases e1 : parseComments .default l with ⟨o, r⟩
  rcases e2 : parseComments .default l' with ⟨o', r'⟩
  rw [e1, e2] at h1 h2
  simp only at h1 h2
  cases h1 with
  | err h => exact ⟨.err h, by simp⟩
  | panic => exact ⟨.panic, by simp⟩
  | ok u =>
    simp only
    have h3 := h2 u rfl
    cases h3 with
    | nil => exact ⟨.ok _, fun _ _ => .nil⟩
    | error h => exact ⟨.panic, by simp⟩
    | comment h => exact inv_entryTail f u first (.comment h) rfl
    | stray h => exact inv_entryTail f u first (.stray h) rfl
    | field k1 k2 k3 => exact inv_entryTail f u first (.field k1 k2 k3) rfl

theorem inv_drain (forms : Option PluralForms) (k : Nat) : ∀ l l' : List Item, l.length < k → SameText l l' →
    (drain forms l).1 = (drain forms l').1 ∧ SameEnd (drain forms l).2 (drain forms l').2 := by
  induction k with
  | zero => intro l l' h; omega
  | succ k ih =>
    intro l l' hk h
    rw [drain_eq, drain_eq]
    obtain ⟨h1, h2⟩ := inv_entry forms false l l' h
    have hc := consumes_entry forms l
    rcases e1 : entry forms false l with ⟨o, r⟩
    rcases e2 : entry forms false l' with ⟨o', r'⟩
    rw [e1] at hc
    rw [e1, e2] at h1 h2
    simp only at h1 h2
    cases h1 with
    | err h => exact ⟨rfl, congrArg some h⟩
    | panic => exact ⟨rfl, rfl⟩
    | ok a =>
      cases a with
      | none => exact ⟨rfl, rfl⟩
      | some u =>
        have hlt := hc u r rfl
        obtain ⟨h3, h4⟩ := ih r r' (by omega) (h2 _ rfl)
        exact ⟨by simp only; rw [h3], h4⟩

/-- Reading two streams whose items have the same text gives the same. -/
theorem same_results (env : Env) {stream stream' : List Event} (h : SameText (streamItems stream) (streamItems stream')) :
    SameResults (parse env stream) (parse env stream') := by
  have hp := parse_stream env stream
  have hp' := parse_stream env stream'
  unfold readAll at hp hp'
  obtain ⟨h1, h2⟩ := inv_entry none true _ _ h
  rcases e1 : entry none true (streamItems stream) with ⟨o, r⟩
  rcases e2 : entry none true (streamItems stream') with ⟨o', r'⟩
  rw [e1] at hp
  rw [e2] at hp'
  rw [e1, e2] at h1 h2
  simp only at h1 h2 hp hp'
  cases h1 with
  | err h => exact .inl ⟨_, _, hp, hp', h⟩
  | panic => exact .inr ⟨_, _, _, _, hp, hp', rfl⟩
  | ok a =>
    cases a with
    | none => exact .inr ⟨_, _, _, _, hp, hp', rfl⟩
    | some u =>
      have hs := h2 _ rfl
      have hd := fun f => inv_drain f (r.length + 1) r r' (by omega) hs
      simp only at hp hp'
      by_cases hem : u.message.isEmpty = true
      · rw [if_pos hem] at hp hp'
        cases hh : headerData env u with
        | error e =>
          rw [hh] at hp hp'
          exact .inl ⟨_, _, hp, hp', rfl⟩
        | ok x =>
          obtain ⟨hdr, forms⟩ := x
          rw [hh] at hp hp'
          obtain ⟨k1, k2⟩ := hd forms
          simp only at hp hp'
          rw [k1] at hp
          exact .inr ⟨_, _, _, _, hp, hp', k2⟩
      · rw [if_neg hem] at hp hp'
        obtain ⟨k1, k2⟩ := hd none
        rw [k1] at hp
        exact .inr ⟨_, _, _, _, hp, hp', k2⟩

/-! ### From layouts of lines to items -/

theorem sameText_field {n n' : Nat} {p kw s s' : Str} {cs cs' : List (Nat × Str)} {l l' : List Item} (h : SameText l l')
    (he : s ++ (cs.map Prod.snd).flatten = s' ++ (cs'.map Prod.snd).flatten) :
    SameText (.ok (.message n p kw s) :: (contItems p cs ++ l)) (.ok (.message n' p kw s') :: (contItems p cs' ++ l')) := by
  induction h generalizing cs cs' with
  | nil => exact .field he (by simp [NotCont]) .nil
  | error h => exact .field he (by simp [NotCont]) (.error h)
  | comment h _ => exact .field he (by simp [NotCont]) (.comment h)
  | field h1 h2 h3 _ => exact .field he (by simp [NotCont]) (.field h1 h2 h3)
  | @stray m m' q t l l' h ih =>
    by_cases hq : q = p
    · subst hq
      have hc : ∀ (cs : List (Nat × Str)) (m : Nat) (l : List Item),
          contItems q cs ++ .ok (.continuation m q t) :: l = contItems q (cs ++ [(m, t)]) ++ l := by
        intro cs m l; simp [contItems]
      rw [hc, hc]
      refine ih ?_
      simp only [List.map_append, List.flatten_append, ← List.append_assoc, he]
      rfl
    · refine .field he ?_ (.stray h)
      intro n s tl hx
      cases hx
      exact hq rfl

theorem classified_unique {s : Str} (hn : '\n' ∉ s) {n : Nat} {x y : Option PoLine} (h : Classified s n x) (h' : Classified s n y) : x = y := by
  obtain ⟨z, _, hz⟩ := C06_unique s n hn
  rw [hz x h, hz y h']

theorem classified_renumber {s : Str} {n : Nat} {x : Option PoLine} (h : Classified s n x) (m : Nat) :
    Classified s m (x.map fun ln => match ln with
      | .blank => .blank
      | .comment _ c t => .comment m c t
      | .message _ p k t => .message m p k t
      | .continuation _ p t => .continuation m p t) := by
  cases h with
  | blank h => exact .blank h
  | keyword h => exact .keyword h
  | continuation h => exact .continuation h
  | comment h1 h2 h3 => exact .comment h1 h2 h3
  | unrecognised h1 h2 h3 => exact .unrecognised h1 h2 h3

theorem conts_items {m : Option Str} {cs : List (Str × Str)} (hc : ∀ c ∈ cs, QuotedLine c.1 m none c.2) {rs : List (Except IoErr Str)} {n : Nat} {l : List Item}
    (hn : ∀ c ∈ cs, '\n' ∉ c.1) (h : LineItems n (cs.map (fun c => .ok c.1) ++ rs) l) :
    ∃ ds r, l = contItems (m.getD []) ds ++ r ∧ (ds.map Prod.snd).flatten = cs.flatMap (fun c => unesc c.2) ∧ LineItems (n + cs.length) rs r := by
  induction cs generalizing n l with
  | nil => exact ⟨[], l, rfl, rfl, by simpa using h⟩
  | cons c cs ih =>
    have hq : Classified c.1 n (some (.continuation n (m.getD []) (unesc c.2))) := .continuation (hc c (by simp))
    have hc1 := hn c (by simp)
    cases h with
    | unrecognised h => have := classified_unique hc1 h hq; cases this
    | blank h => have := classified_unique hc1 h hq; cases this
    | line h _ h' =>
      have := classified_unique hc1 h hq
      cases this
      obtain ⟨ds, r, e1, e2, e3⟩ := ih (fun c h => hc c (by simp [h])) (fun c h => hn c (by simp [h])) h'
      refine ⟨(n, unesc c.2) :: ds, r, by rw [e1]; rfl, ?_, ?_⟩
      · simp [e2]
      · rw [show n + (c :: cs).length = n + 1 + cs.length from by simp; omega]; exact e3

theorem layout_sameText {rs rs' : List (Except IoErr Str)} (h : Layout rs rs') (hn : ∀ s, .ok s ∈ rs → '\n' ∉ s) (hn' : ∀ s, .ok s ∈ rs' → '\n' ∉ s)
    {n n' : Nat} {l l' : List Item} (hl : LineItems n rs l) (hl' : LineItems n' rs' l') : SameText l l' := by
  induction h generalizing n n' l l' with
  | nil => cases hl; cases hl'; exact .nil
  | failed _ => cases hl; cases hl'; exact .error rfl
  | blankLeft hw _ ih =>
    have hb : Classified _ n _ := .blank hw
    have hn1 := hn _ (List.mem_cons_self ..)
    cases hl with
    | unrecognised h => have := classified_unique hn1 h hb; cases this
    | blank _ h => exact ih (fun s hs => hn s (by simp [hs])) hn' h hl'
    | line h hne _ => have := classified_unique hn1 h hb; cases this; exact absurd rfl hne
  | blankRight hw _ ih =>
    have hb : Classified _ n' _ := .blank hw
    have hn1 := hn' _ (List.mem_cons_self ..)
    cases hl' with
    | unrecognised h => have := classified_unique hn1 h hb; cases this
    | blank _ h => exact ih hn (fun s hs => hn' s (by simp [hs])) hl h
    | line h hne _ => have := classified_unique hn1 h hb; cases this; exact absurd rfl hne
  | @line s s' rs rs' hs hu _ ih =>
    have hn1' := hn' s' (by simp)
    have ih := fun {n n' l l'} => @ih (fun s hs => hn s (by simp [hs])) (fun s hs => hn' s (by simp [hs])) n n' l l'
    cases hl with
    | unrecognised h =>
      have h2 : Classified s' n' none := (hs _ _).mp (classified_renumber h n')
      have := hu (classified_renumber h 0)
      subst this
      cases hl' with
      | unrecognised h' => exact .error rfl
      | blank h' => have := classified_unique hn1' h' h2; cases this
      | line h' => have := classified_unique hn1' h' h2; cases this
    | blank h hr =>
      have h2 : Classified s' n' (some .blank) := (hs _ _).mp (classified_renumber h n')
      cases hl' with
      | unrecognised h' => have := classified_unique hn1' h' h2; cases this
      | blank h' hr' => exact ih hr hr'
      | line h' hne => have := classified_unique hn1' h' h2; cases this; exact absurd rfl hne
    | @line _ _ _ ln l h hne hr =>
      have h2 := (hs _ _).mp (classified_renumber h n')
      cases hl' with
      | unrecognised h' => have := classified_unique hn1' h' h2; cases this
      | blank h' => have := classified_unique hn1' h' h2; cases ln <;> first | exact absurd rfl hne | cases this
      | line h' _ hr' =>
        have := classified_unique hn1' h' h2
        cases ln with
        | blank => exact absurd rfl hne
        | comment k c t => cases this; exact .comment (ih hr hr')
        | continuation k p t => cases this; exact .stray (ih hr hr')
        | message k p kw t => cases this; exact sameText_field (cs := []) (cs' := []) (ih hr hr') rfl
  | @field s s' m k raw raw' rs rs' cs cs' q q' hc hc' he _ ih =>
    have ih := fun {n n' l l'} => @ih (fun s hs => hn s (by simp [hs])) (fun s hs => hn' s (by simp [hs])) n n' l l'
    have k1 : Classified s n _ := .keyword q
    have k2 : Classified s' n' _ := .keyword q'
    have hn1 := hn s (by simp)
    have hn1' := hn' s' (by simp)
    cases hl with
    | unrecognised h => have := classified_unique hn1 h k1; cases this
    | blank h => have := classified_unique hn1 h k1; cases this
    | line h _ hr =>
      have := classified_unique hn1 h k1
      cases this
      cases hl' with
      | unrecognised h => have := classified_unique hn1' h k2; cases this
      | blank h => have := classified_unique hn1' h k2; cases this
      | line h _ hr' =>
        have := classified_unique hn1' h k2
        cases this
        obtain ⟨ds, r, rfl, e2, e3⟩ := conts_items hc (fun c hx => hn c.1 (List.mem_cons_of_mem _ (List.mem_append_left _ (List.mem_map_of_mem (f := fun c : Str × Str => (Except.ok c.1 : Except IoErr Str)) hx)))) hr
        obtain ⟨ds', r', rfl, e2', e3'⟩ := conts_items hc' (fun c hx => hn' c.1 (List.mem_cons_of_mem _ (List.mem_append_left _ (List.mem_map_of_mem (f := fun c : Str × Str => (Except.ok c.1 : Except IoErr Str)) hx)))) hr'
        exact sameText_field (ih e3 e3') (by rw [e2, e2', he])

/-- Two inputs with the same lines up to layout read the same. -/
theorem layout_results (env : Env) {stream stream' : List Event} (h : Layout (rawLines (flatten stream)) (rawLines (flatten stream'))) :
    SameResults (parse env stream) (parse env stream') :=
  same_results env (layout_sameText h (fun _ hs => rawLines_no_nl hs) (fun _ hs => rawLines_no_nl hs)
    ((stream_items stream _).mpr rfl) ((stream_items stream' _).mpr rfl))

theorem Spec.Layout.refl (rs : List (Except IoErr Str)) : Layout rs rs := by
  induction rs with
  | nil => exact .nil
  | cons r rs ih =>
    cases r with
    | error e => exact .failed ih
    | ok s => exact .line (fun _ _ => Iff.rfl) (fun _ => rfl) ih

end Verif
