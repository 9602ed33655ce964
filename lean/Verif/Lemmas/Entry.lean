import Verif.Lemmas.EntryFields

/-! The reading functions against the entry grammar: comments and whole entries. -/

namespace Verif
open Spec

/-- Comment data added to a unit. -/
structure Added (cs : List (Char × Str)) (u u' : PoUnit) : Prop where
  flags : u'.flags = (cs.flatMap flagItems).foldl insertFlag u.flags
  locations : u'.locations = u.locations ++ cs.flatMap locationItems
  notes : u'.notes = u.notes ++ cs.filterMap noteItem
  comments : u'.comments = u.comments ++ cs.filterMap otherItem
  state : u'.state = if c!"fuzzy" ∈ cs.flatMap flagItems then .needsWork else u.state
  context : u'.context = u.context
  message : u'.message = u.message
  prevContext : u'.prevContext = u.prevContext
  prevMessage : u'.prevMessage = u.prevMessage
  obsolete : u'.obsolete = u.obsolete

theorem addFlags_fold (items : List Str) (u : PoUnit) :
    (items.foldl (fun u flag =>
      let u := { u with flags := insertFlag u.flags flag }
      if flag = c!"fuzzy" then { u with state := .needsWork } else u) u) =
    { u with flags := items.foldl insertFlag u.flags, state := if c!"fuzzy" ∈ items then .needsWork else u.state } := by
  induction items generalizing u with
  | nil => simp
  | cons f fs ih =>
    rw [List.foldl_cons, ih]
    by_cases hf : f = c!"fuzzy"
    · simp [hf]
    · have : ¬ (c!"fuzzy" = f) := fun h => hf h.symm
      simp [hf, this]

theorem addComment_added (c : Char × Str) (u : PoUnit) : Added [c] u (addComment u c.1 c.2) := by
  obtain ⟨k, s⟩ := c
  unfold addComment
  by_cases h1 : k = ','
  · subst h1
    simp only [if_true]
    unfold addFlags
    rw [addFlags_fold]
    constructor <;> simp [flagItems_eq, locationItems_eq, noteItem, otherItem]
  by_cases h2 : k = ':'
  · subst h2
    constructor <;> simp [flagItems_eq, locationItems_eq, noteItem, otherItem]
    congr 1
    funext x
    cases x <;> simp
  by_cases h3 : k = '.'
  · subst h3
    constructor <;> simp [flagItems_eq, locationItems_eq, noteItem, otherItem]
  by_cases h4 : k = ' '
  · subst h4
    constructor <;> simp [flagItems_eq, locationItems_eq, noteItem, otherItem]
  constructor <;> simp [h1, h2, h3, h4, flagItems_eq, locationItems_eq, noteItem, otherItem]

theorem Added.trans {a b : List (Char × Str)} {u u' u'' : PoUnit} (h : Added a u u') (h' : Added b u' u'') : Added (a ++ b) u u'' where
  flags := by rw [h'.flags, h.flags]; simp
  locations := by rw [h'.locations, h.locations]; simp
  notes := by rw [h'.notes, h.notes]; simp
  comments := by rw [h'.comments, h.comments]; simp
  state := by
    rw [h'.state, h.state, List.flatMap_append]
    simp only [List.mem_append]
    by_cases h1 : c!"fuzzy" ∈ a.flatMap flagItems <;> by_cases h2 : c!"fuzzy" ∈ b.flatMap flagItems <;> simp only [h1, h2, if_true, if_false, true_or, or_true, or_self]
  context := by rw [h'.context, h.context]
  message := by rw [h'.message, h.message]
  prevContext := by rw [h'.prevContext, h.prevContext]
  prevMessage := by rw [h'.prevMessage, h.prevMessage]
  obsolete := by rw [h'.obsolete, h.obsolete]

theorem comments_added (cs : List (Char × Str)) (u : PoUnit) : Added cs u (cs.foldl (fun u c => addComment u c.1 c.2) u) := by
  induction cs generalizing u with
  | nil => constructor <;> simp
  | cons c cs ih =>
    have := (addComment_added c u).trans (ih _)
    exact this

/-- The unit with the data of some comments. -/
def collect (cs : List (Char × Str)) : PoUnit := cs.foldl (fun u c => addComment u c.1 c.2) .default

theorem mem_distinct_aux (l acc : List Str) (f : Str) :
    f ∈ l.foldl (fun acc f => if f ∈ acc then acc else acc ++ [f]) acc ↔ f ∈ acc ∨ f ∈ l := by
  induction l generalizing acc with
  | nil => simp
  | cons x l ih =>
    rw [List.foldl_cons, ih]
    split
    · rename_i hx
      constructor
      · rintro (h | h) <;> simp [h]
      · rintro (h | h)
        · exact .inl h
        · rcases List.mem_cons.mp h with rfl | h
          · exact .inl hx
          · exact .inr h
    · simp [or_assoc]

theorem mem_distinct (l : List Str) (f : Str) : f ∈ distinct l ↔ f ∈ l := by
  unfold distinct
  rw [mem_distinct_aux]
  simp

theorem nodup_distinct_aux (l acc : List Str) (h : acc.Nodup) :
    (l.foldl (fun acc f => if f ∈ acc then acc else acc ++ [f]) acc).Nodup := by
  induction l generalizing acc with
  | nil => exact h
  | cons x l ih =>
    rw [List.foldl_cons]
    apply ih
    split
    · exact h
    · rename_i hx
      rw [List.nodup_append]
      refine ⟨h, by simp, ?_⟩
      intro a ha b hb
      simp only [List.mem_singleton] at hb
      subst hb
      rintro rfl
      exact hx ha

theorem nodup_distinct (l : List Str) : (distinct l).Nodup := nodup_distinct_aux l [] List.nodup_nil

theorem collect_data (cs : List (Char × Str)) : CommentData cs (collect cs) := by
  have h := comments_added cs .default
  exact ⟨h.flags, h.locations, h.notes, h.comments⟩

theorem collect_state (cs : List (Char × Str)) :
    (collect cs).state = if c!"fuzzy" ∈ (collect cs).flags then .needsWork else .empty := by
  have h := comments_added cs .default
  have h1 : (collect cs).flags = distinct (cs.flatMap flagItems) := (collect_data cs).flags
  rw [h1, show (collect cs).state = _ from h.state]
  simp only [mem_distinct]
  rfl

theorem takeComments_spec (l : List Item) : ∃ cs : List (Nat × Char × Str),
    l = (cs.map commentLine).map .ok ++ (takeComments l).2 ∧ (takeComments l).1 = cs.map Prod.snd := by
  induction l with
  | nil => exact ⟨[], by simp [takeComments]⟩
  | cons x l ih =>
    rcases x with e | ln
    · exact ⟨[], by simp [takeComments]⟩
    · cases ln with
      | comment n k s =>
        obtain ⟨cs, h1, h2⟩ := ih
        refine ⟨(n, k, s) :: cs, ?_, ?_⟩
        · simp only [takeComments, List.map_cons, List.cons_append, commentLine, ← h1]
        · simp [takeComments, h2]
      | _ => exact ⟨[], by simp [takeComments]⟩

theorem takeComments_block (cs : List (Nat × Char × Str)) (rest : List Item) (h : ∀ n k s, rest.head? ≠ some (.ok (.comment n k s))) :
    takeComments ((cs.map commentLine).map .ok ++ rest) = (cs.map Prod.snd, rest) := by
  induction cs with
  | nil =>
    rcases rest with _ | ⟨e | ln, tl⟩
    · rfl
    · rfl
    · cases ln with
      | comment n k s => exact absurd rfl (h n k s)
      | _ => rfl
  | cons c cs ih => simp only [List.map_cons, List.cons_append, commentLine, takeComments, ih]

theorem parseComments_iff {l rest : List Item} {u : PoUnit} : parseComments .default l = (.ok u, rest) ↔
    ∃ cs : List (Nat × Char × Str), l = (cs.map commentLine).map .ok ++ rest ∧ u = collect (cs.map Prod.snd) ∧
      (∀ e, rest.head? ≠ some (.error e)) ∧ ∀ n k s, rest.head? ≠ some (.ok (.comment n k s)) := by
  rw [parseComments_list, afterField_ok]
  constructor
  · rintro ⟨rfl, rfl, h⟩
    obtain ⟨cs, h1, h2⟩ := takeComments_spec l
    refine ⟨cs, h1, by rw [h2]; rfl, h, ?_⟩
    intro n k s hh
    rcases h3 : (takeComments l).2 with _ | ⟨x, tl⟩
    · rw [h3] at hh; simp at hh
    · rw [h3] at hh
      simp only [List.head?_cons, Option.some.injEq] at hh
      subst hh
      exact takeComments_head l n k s tl h3
  · rintro ⟨cs, rfl, rfl, h1, h2⟩
    rw [takeComments_block cs rest h2]
    exact ⟨rfl, rfl, h1⟩

theorem parseMsg_opt {kw : Str} {o : Bool} {l rest : List Item} {v : Option Str} (h : parseMsg kw o l = (.ok v, rest)) :
    ∃ b : List PoLine, l = b.map .ok ++ rest ∧ OptField kw o b v := by
  cases v with
  | none =>
    obtain ⟨rfl, _⟩ := parseMsg_none.mp h
    exact ⟨[], by simp, .none⟩
  | some v =>
    obtain ⟨p, b, h1, h2, h3, _⟩ := parseMsg_some.mp h
    exact ⟨b, h3, .some ⟨p, h1, tilde_eq.mp h2⟩⟩

theorem previous_eq (forms : Option PluralForms) (a b : Option Str) : newPrevious forms a b = previousMessage forms a b := by
  unfold newPrevious previousMessage
  cases a <;> cases b <;> rfl

theorem count_eq (forms : Option PluralForms) : (forms.map PluralForms.getCount).getD 2 = nplurals forms := by
  cases forms <;> rfl

/-- The next line of a list of items. -/
def nextLine : List Item → Option PoLine
  | .ok ln :: _ => some ln
  | _ => none

/-- No error item comes next. -/
def NoErr (l : List Item) : Prop := ∀ e, l.head? ≠ some (.error e)

theorem expected_none {exp : Str} {l rest : List Item} (h : expected exp l = (.ok (), rest)) :
    rest = l ∧ (l = [] ∨ ∃ tl, l = .ok .blank :: tl) := by
  rw [expected_list] at h
  rcases l with _ | ⟨e | ln, tl⟩
  · simp_all
  · simp at h
  · cases ln <;> simp_all [eq_comm]

theorem isEmpty_nil {v : Str} : (if v.isEmpty = true then (none : Option Str) else some v) = if v = [] then none else some v := by
  cases v <;> rfl

/-- What `newMessage` needs to follow. -/
def TextEnd (forms : Option PluralForms) (o : Bool) (plural : Bool) (block : List PoLine) (rest : List Item) : Prop :=
  if plural then ValuesEnd o (nplurals forms) block rest
  else NoErr rest ∧ ∀ n p s, rest.head? = some (.ok (.continuation n p s)) → lastMarker block ≠ some p

theorem newMessage_sound {forms : Option PluralForms} {o : Bool} {id : Str} {idPl : Option Str} {l rest : List Item} {m : Message}
    (h : newMessage forms o (some id) idPl l = (.ok (some m), rest)) :
    ∃ b : List PoLine, l = b.map .ok ++ rest ∧ TextFields forms o id idPl b m ∧ TextEnd forms o m.isPlural b rest := by
  unfold newMessage at h
  simp only at h
  cases idPl with
  | some pl =>
    simp only at h
    obtain ⟨vs, l1, h1, h2⟩ := bind_ok h
    cases vs with
    | nil =>
      obtain ⟨_, l2, _, h3⟩ := bind_ok h2
      cases h3
    | cons v vs =>
      cases h2
      rw [count_eq] at h1
      obtain ⟨ws, hw, hv⟩ := valuesLoop_iff.mp h1
      rw [List.nil_append] at hw
      subst hw
      obtain ⟨b, e1, e2, e3⟩ := hv.sound
      rw [Nat.zero_add] at e2 e3
      exact ⟨b, e1, .plural e2 (by simp), (e3 (by simp)).2⟩
  | none =>
    simp only at h
    obtain ⟨t, l1, h1, h2⟩ := bind_ok h
    cases t with
    | none =>
      obtain ⟨_, l2, _, h3⟩ := bind_ok h2
      cases h3
    | some t =>
      simp only [Eff.pure, Prod.mk.injEq, Out.ok.injEq, Option.some.injEq] at h2
      obtain ⟨h2, rfl⟩ := h2
      rw [isEmpty_nil] at h2
      obtain ⟨p, b, e1, e2, e3, e4⟩ := parseMsg_some.mp h1
      subst h2
      refine ⟨b, e3, .simple ⟨p, e1, tilde_eq.mp e2⟩, ?_⟩
      refine ⟨e4.1, ?_⟩
      intro n q s hq hm
      rw [e1.lastMarker] at hm
      cases hm
      exact e4.2 n s hq

theorem newMessage_complete {forms : Option PluralForms} {o : Bool} {id : Str} {idPl : Option Str} {rest : List Item} {m : Message}
    {b : List PoLine} (h : TextFields forms o id idPl b m) (he : TextEnd forms o m.isPlural b rest) :
    newMessage forms o (some id) idPl (b.map .ok ++ rest) = (.ok (some m), rest) := by
  unfold newMessage
  cases h with
  | @simple _ v hf =>
    obtain ⟨p, h1, h2⟩ := hf
    simp only
    rw [bind_eq, parseMsg_some.mpr ⟨p, b, h1, tilde_eq.mpr h2, rfl, he.1, fun n s hq => he.2 n p s hq h1.lastMarker⟩]
    simp only [isEmpty_nil]
    rfl
  | @plural pl _ vs hv hne =>
    simp only
    rw [bind_eq, count_eq]
    have hk : nplurals forms = 0 + nplurals forms := by omega
    rw [valuesLoop_iff.mpr ⟨vs, (List.nil_append vs).symm, ValuesR.complete (by rw [← hk]; exact hv) hne (by rw [← hk]; exact he)⟩]
    cases vs with
    | nil => simp at hne
    | cons v vs => rfl

theorem hasText_iff (m : Message) : m.isBlank = false ↔ HasText m := by
  cases m with
  | simple id t =>
    cases t with
    | none => simp [Message.isBlank, HasText]
    | some s => cases s <;> simp [Message.isBlank, HasText]
  | plural p =>
    simp only [Message.isBlank, Plural.isBlank, HasText]
    rw [List.all_eq_false]
    constructor
    · rintro ⟨x, h1, h2⟩; exact ⟨x, h1, by simpa using h2⟩
    · rintro ⟨x, h1, h2⟩; exact ⟨x, h1, by simpa using h2⟩

/-- An entry without `msgid`, which the reader accepts as the first entry only; its message is the default message. -/
def Preamble (forms : Option PluralForms) (block : List PoLine) (u : PoUnit) (next : Option PoLine) : Prop :=
  ∃ (cs : List (Nat × Char × Str)) (b1 b2 b3 b4 b6 : List PoLine) (prevId prevPl : Option Str) (idPl : Option Str),
    block = cs.map commentLine ++ (b1 ++ (b2 ++ (b3 ++ (b4 ++ b6)))) ∧
    OptField (c!"|msgctxt") u.obsolete b1 u.prevContext ∧
    OptField (c!"|msgid") u.obsolete b2 prevId ∧
    OptField (c!"|msgid_plural") u.obsolete b3 prevPl ∧ (prevId = none → prevPl = none) ∧
    OptField (c!"msgctxt") u.obsolete b4 u.context ∧
    OptField (c!"msgid_plural") u.obsolete b6 idPl ∧
    (idPl = none → ∀ n p s, next = some (.message n p (c!"msgid") s) → ¬ (u.obsolete = true ↔ Tilde p)) ∧
    u.message = .simple [] none ∧
    u.prevMessage = previousMessage forms prevId prevPl ∧
    CommentData (cs.map Prod.snd) u ∧ StateRule u

/-- The end of an entry. -/
def EntryEnd (forms : Option PluralForms) (u : PoUnit) (block : List PoLine) (rest : List Item) : Prop :=
  NoErr rest ∧ EndsBefore forms u block (nextLine rest)

theorem TextFields_ne_nil {forms : Option PluralForms} {o : Bool} {id : Str} {idPl : Option Str} {b : List PoLine} {m : Message}
    (h : TextFields forms o id idPl b m) : b ≠ [] ∧ ∃ k, lastKeyword b = some k := by
  cases h with
  | simple hf => obtain ⟨p, hf, _⟩ := hf; exact ⟨hf.ne_nil, _, hf.lastKeyword⟩
  | plural hv hne => obtain ⟨h1, i, _, h2⟩ := hv.lastKeyword hne; exact ⟨h1, _, h2⟩

theorem textEnd_iff {forms : Option PluralForms} {u : PoUnit} {b : List PoLine} {rest : List Item} :
    TextEnd forms u.obsolete u.message.isPlural b rest ↔ EntryEnd forms u b rest := by
  unfold TextEnd EntryEnd EndsBefore ValuesEnd
  cases hp : u.message.isPlural with
  | true =>
    simp only [if_true]
    rcases rest with _ | ⟨e | ln, tl⟩
    · simp [nextLine, NoErr]
    · simp [NoErr]
    · cases ln with
      | continuation n p s =>
        constructor
        · rintro ⟨h1, h2, _⟩; exact ⟨h1, h2 n p s rfl⟩
        · rintro ⟨h1, h2⟩
          refine ⟨h1, ?_, by simp⟩
          intro n' p' s' h
          cases h; exact h2
      | message n p t s =>
        constructor
        · rintro ⟨h1, _, h2⟩; exact ⟨h1, fun _ => h2 n p t s rfl⟩
        · rintro ⟨h1, h2⟩
          refine ⟨h1, by simp, ?_⟩
          intro n' p' t' s' h
          cases h; exact h2 ((isPlural_iff _).mp hp)
      | _ => simp [nextLine, NoErr]
  | false =>
    simp only [Bool.false_eq_true, if_false]
    rcases rest with _ | ⟨e | ln, tl⟩
    · simp [nextLine, NoErr]
    · simp [NoErr]
    · cases ln with
      | continuation n p s =>
        constructor
        · rintro ⟨h1, h2⟩; exact ⟨h1, h2 n p s rfl⟩
        · rintro ⟨h1, h2⟩
          refine ⟨h1, ?_⟩
          intro n' p' s' h
          cases h; exact h2
      | message n p t s =>
        have : ∀ x, u.message ≠ .plural x := fun x hx => by rw [hx] at hp; cases hp
        simp [nextLine, NoErr, this]
      | _ => simp [nextLine, NoErr]

theorem entryEnd_append {forms : Option PluralForms} {u : PoUnit} {a b : List PoLine} {rest : List Item} {k : Str} (hb : b ≠ [])
    (hk : lastKeyword b = some k) : EntryEnd forms u (a ++ b) rest ↔ EntryEnd forms u b rest := by
  unfold EntryEnd EndsBefore
  rw [lastMarker_append hb, lastKeyword_append hk, hk]

theorem finishUnit_ok {first : Bool} {line : Nat} {u u' : PoUnit} (h : finishUnit first line u = .ok u') :
    (first = false → u.message.isEmpty = false) ∧
    u' = { u with state := if u.state = .empty ∧ u.message.isBlank = false then .final else u.state } := by
  unfold finishUnit at h
  split at h
  · cases h
  · rename_i h1
    split at h
    · rename_i h2
      cases h
      refine ⟨by intro hf; subst hf; simpa using h1, ?_⟩
      simp [h2]
    · rename_i h2
      cases h
      refine ⟨by intro hf; subst hf; simpa using h1, ?_⟩
      simp [h2]

theorem stateRule_finish {u : PoUnit} (h : u.state = if c!"fuzzy" ∈ u.flags then .needsWork else .empty) :
    StateRule { u with state := if u.state = .empty ∧ u.message.isBlank = false then .final else u.state } := by
  by_cases hf : c!"fuzzy" ∈ u.flags
  · rw [if_pos hf] at h
    constructor
    · simp [h, hf]
    · simp [h, hf]
  · rw [if_neg hf] at h
    by_cases hb : u.message.isBlank = false
    · have ht := (hasText_iff _).mp hb
      constructor
      · simp [h, hb, hf]
      · simp [h, hb, hf, ht]
    · have ht : ¬ HasText u.message := fun ht => hb ((hasText_iff _).mpr ht)
      constructor
      · simp [h, hb, hf]
      · simp [h, hb, hf, ht]

/-- **Soundness of reading an entry.** -/
theorem entry_sound {forms : Option PluralForms} {first : Bool} {l rest : List Item} {u : PoUnit}
    (h : entry forms first l = (.ok (some u), rest)) : ∃ block : List PoLine, l = block.map .ok ++ rest ∧
      ((Entry forms block u ∧ EntryEnd forms u block rest ∧ (first = false → u.message.isEmpty = false)) ∨
        (first = true ∧ Preamble forms block u (nextLine rest) ∧ NoErr rest)) := by
  unfold entry at h
  rcases h0 : parseComments .default l with ⟨o, l0⟩
  rw [h0] at h
  rcases o with u0 | e | _
  rotate_left
  · simp at h
  · simp at h
  rcases hl0 : l0 with _ | ⟨e | v, tl⟩
  · simp [hl0] at h
  · simp [hl0] at h
  simp only [hl0] at h
  rw [← hl0] at h
  rcases hf : parseMessageFields forms { u0 with obsolete := lineObsolete v } first l0 with ⟨o, l9⟩
  rw [hf] at h
  rcases o with (_ | u1) | e | _
  · simp at h
  rotate_left
  · simp at h
  · simp at h
  simp only at h
  cases hfin : finishUnit first v.line u1 with
  | error e => rw [hfin] at h; simp at h
  | ok u2 =>
    rw [hfin] at h
    simp only [Prod.mk.injEq, Out.ok.injEq, Option.some.injEq] at h
    obtain ⟨rfl, rfl⟩ := h
    obtain ⟨cs, hl, hu0, _, _⟩ := parseComments_iff.mp h0
    obtain ⟨hfirst, hu2⟩ := finishUnit_ok hfin
    have hcd := collect_data (cs.map Prod.snd)
    have hcs := collect_state (cs.map Prod.snd)
    rw [← hu0] at hcd hcs
    unfold parseMessageFields at hf
    obtain ⟨pc, l1, h1, hf⟩ := bind_ok hf
    obtain ⟨pid, l2, h2, hf⟩ := bind_ok hf
    obtain ⟨ppl, l3, h3, hf⟩ := bind_ok hf
    obtain ⟨ctx, l4, h4, hf⟩ := bind_ok hf
    obtain ⟨id, l5, h5, hf⟩ := bind_ok hf
    obtain ⟨b1, e1, f1⟩ := parseMsg_opt h1
    obtain ⟨b2, e2, f2⟩ := parseMsg_opt h2
    have hpp : ∃ b3 : List PoLine, l2 = b3.map .ok ++ l3 ∧ OptField (c!"|msgid_plural") (lineObsolete v) b3 ppl ∧ (pid = none → ppl = none) := by
      cases pid with
      | none => cases h3; exact ⟨[], by simp, .none, fun _ => rfl⟩
      | some x => obtain ⟨b, e, f⟩ := parseMsg_opt h3; exact ⟨b, e, f, by simp⟩
    obtain ⟨b3, e3, f3, g3⟩ := hpp
    obtain ⟨b4, e4, f4⟩ := parseMsg_opt h4
    cases id with
    | some id =>
      obtain ⟨b5, e5, f5⟩ := parseMsg_opt h5
      simp only [Option.isNone_some, Bool.and_false] at hf
      obtain ⟨idPl, l6, h6, hf⟩ := bind_ok hf
      obtain ⟨b6, e6, f6⟩ := parseMsg_opt h6
      obtain ⟨m, l7, h7, hf⟩ := bind_ok hf
      cases m with
      | none => cases hf
      | some m =>
        simp only [Eff.pure, Prod.mk.injEq, Out.ok.injEq, Option.some.injEq] at hf
        obtain ⟨hu1, rfl⟩ := hf
        obtain ⟨b7, e7, f7, g7⟩ := newMessage_sound h7
        refine ⟨cs.map commentLine ++ (b1 ++ (b2 ++ (b3 ++ (b4 ++ (b5 ++ (b6 ++ b7)))))), ?_, .inl ⟨?_, ?_, ?_⟩⟩
        · rw [hl, e1, e2, e3, e4, e5, e6, e7]; simp
        · have f5' : Field (c!"msgid") (lineObsolete v) b5 id := by cases f5; assumption
          refine ⟨cs, b1, b2, b3, b4, b5, b6, b7, pid, ppl, id, idPl, rfl, ?_⟩
          rw [hu2, ← hu1]
          refine ⟨f1, f2, f3, g3, f4, f5', f6, f7, previous_eq _ _ _, ?_, ?_⟩
          · exact ⟨hcd.1, hcd.2, hcd.3, hcd.4⟩
          · exact stateRule_finish hcs
        · obtain ⟨hne, k, hk⟩ := TextFields_ne_nil f7
          have hk2 : ∀ a, EntryEnd forms u2 (a ++ b7) l7 ↔ EntryEnd forms u2 b7 l7 := fun a => entryEnd_append hne hk
          simp only [← List.append_assoc]
          rw [hk2, ← textEnd_iff, hu2, ← hu1]
          exact g7
        · intro hf; rw [hu2]; exact hfirst hf
    | none =>
      obtain ⟨hrl, hnf⟩ := parseMsg_none.mp h5
      cases first with
      | false =>
        obtain ⟨_, _, _, hf⟩ := bind_ok hf
        cases hf
      | true =>
        simp only [Bool.not_true, Bool.false_and] at hf
        obtain ⟨idPl, l6, h6, hf⟩ := bind_ok hf
        obtain ⟨b6, e6, f6⟩ := parseMsg_opt h6
        obtain ⟨m, l7, h7, hf⟩ := bind_ok hf
        cases h7
        simp only [Eff.pure, Prod.mk.injEq, Out.ok.injEq, Option.some.injEq] at hf
        obtain ⟨hu1, rfl⟩ := hf
        refine ⟨cs.map commentLine ++ (b1 ++ (b2 ++ (b3 ++ (b4 ++ b6)))), ?_, .inr ⟨rfl, ?_, ?_⟩⟩
        · rw [hl, e1, e2, e3, e4, ← hrl, e6]; simp
        · refine ⟨cs, b1, b2, b3, b4, b6, pid, ppl, idPl, rfl, ?_⟩
          rw [hu2, ← hu1]
          refine ⟨f1, f2, f3, g3, f4, f6, ?_, rfl, previous_eq _ _ _, ?_, ?_⟩
          · intro hnone n p s hn ho
            subst hnone
            obtain ⟨h67, _⟩ := parseMsg_none.mp h6
            rw [h67] at hn
            rcases l5 with _ | ⟨e | ln, tl⟩
            · cases hn
            · cases hn
            · cases hn
              subst hrl
              exact hnf.2 n p s rfl (tilde_eq.mpr ho)
          · exact ⟨hcd.1, hcd.2, hcd.3, hcd.4⟩
          · exact stateRule_finish hcs
        · cases idPl with
          | none => obtain ⟨rfl, h⟩ := parseMsg_none.mp h6; exact h.1
          | some x => obtain ⟨p, b, _, _, _, h⟩ := parseMsg_some.mp h6; exact h.1

end Verif
