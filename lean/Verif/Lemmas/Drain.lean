import Verif.Lemmas.Fields

/-! The whole run of a reader as a function of the list of items. -/

namespace Verif
open Spec

/-- A list computation that does not panic and leaves a suffix. -/
def Good {α : Type} (x : Eff (List Item) α) : Prop := ∀ l, (x l).1 ≠ .panic ∧ (x l).2 <:+ l

namespace Good
variable {α β : Type}

theorem pure (a : α) : Good (Eff.pure a) := fun l => ⟨by simp [Eff.pure], List.suffix_refl l⟩

theorem bind {x : Eff (List Item) α} {f : α → Eff (List Item) β} (hx : Good x) (hf : ∀ a, Good (f a)) : Good (x >>= f) := by
  intro l
  obtain ⟨h1, h2⟩ := hx l
  rw [bind_eq]
  rcases h : x l with ⟨o, l'⟩
  rw [h] at h1 h2
  cases o with
  | ok a => exact ⟨(hf a l').1, (hf a l').2.trans h2⟩
  | err e => exact ⟨by simp, h2⟩
  | panic => simp at h1

end Good

theorem takeCont_suffix (p : Str) (l : List Item) : (takeCont p l).2 <:+ l := by
  induction l with
  | nil => simp [takeCont]
  | cons x l ih =>
    rcases x with e | ln
    · simp [takeCont]
    · cases ln with
      | continuation n q s =>
        simp only [takeCont]
        split
        · exact ih.trans (List.suffix_cons _ _)
        · exact List.suffix_refl _
      | _ => simp [takeCont]

theorem takeComments_suffix (l : List Item) : (takeComments l).2 <:+ l := by
  induction l with
  | nil => simp [takeComments]
  | cons x l ih =>
    rcases x with e | ln
    · simp [takeComments]
    · cases ln with
      | comment n q s => exact ih.trans (List.suffix_cons _ _)
      | _ => simp [takeComments]

theorem afterField_suffix {α : Type} (v : α) (rest : List Item) : (afterField v rest).1 ≠ .panic ∧ (afterField v rest).2 <:+ rest := by
  rcases rest with _ | ⟨e | ln, tl⟩
  · simp [afterField]
  · exact ⟨by simp [afterField], List.suffix_cons _ _⟩
  · simp [afterField]

theorem good_parseMsg (tag : Str) (o : Bool) : Good (parseMsg tag o) := by
  intro l
  rw [parseMsg_list]
  rcases l with _ | ⟨e | ln, tl⟩
  · simp
  · exact ⟨by simp, List.suffix_cons _ _⟩
  · cases ln with
    | message n p t s =>
      simp only
      split
      · have := afterField_suffix (some (s ++ (takeCont p tl).1)) (takeCont p tl).2
        exact ⟨this.1, this.2.trans ((takeCont_suffix p tl).trans (List.suffix_cons _ _))⟩
      · simp
    | _ => simp

theorem good_expected (exp : Str) : Good (expected exp) := by
  intro l
  rw [expected_list]
  rcases l with _ | ⟨e | ln, tl⟩
  · simp
  · exact ⟨by simp, List.suffix_cons _ _⟩
  · cases ln <;> simp

theorem good_valuesLoop (o : Bool) (k i : Nat) (vs : List Str) : Good (valuesLoop o k i vs) := by
  induction k generalizing i vs with
  | zero => exact Good.pure _
  | succ k ih =>
    refine Good.bind (good_parseMsg _ _) fun a => ?_
    split
    · exact ih _ _
    · exact ih _ _

theorem good_newMessage (f : Option PluralForms) (o : Bool) (a b : Option Str) : Good (newMessage f o a b) := by
  unfold newMessage
  split
  · exact Good.pure _
  · split
    · refine Good.bind (good_valuesLoop _ _ _ _) fun c => ?_
      split
      · exact Good.bind (good_expected _) fun _ => Good.pure _
      · exact Good.pure _
    · refine Good.bind (good_parseMsg _ _) fun c => ?_
      split
      · exact Good.pure _
      · exact Good.bind (good_expected _) fun _ => Good.pure _

theorem good_parseMessageFields (f : Option PluralForms) (u : PoUnit) (first : Bool) : Good (parseMessageFields f u first) := by
  refine Good.bind (good_parseMsg _ _) fun a => ?_
  refine Good.bind (good_parseMsg _ _) fun b => ?_
  refine Good.bind (by split; exact good_parseMsg _ _; exact Good.pure _) fun c => ?_
  refine Good.bind (good_parseMsg _ _) fun d => ?_
  refine Good.bind (good_parseMsg _ _) fun e => ?_
  split
  · exact Good.bind (good_expected _) fun _ => Good.pure _
  · refine Good.bind (good_parseMsg _ _) fun g => ?_
    refine Good.bind (good_newMessage _ _ _ _) fun m => ?_
    split
    · exact Good.pure _
    · exact Good.pure _

theorem good_parseComments (u : PoUnit) : Good (parseComments u) := by
  intro l
  rw [parseComments_list]
  have := afterField_suffix ((takeComments l).1.foldl (fun u c => addComment u c.1 c.2) u) (takeComments l).2
  exact ⟨this.1, this.2.trans (takeComments_suffix l)⟩

theorem parseComments_ok {u u' : PoUnit} {l l' : List Item} (h : parseComments u l = (.ok u', l')) (e tl) : l' ≠ .error e :: tl := by
  rw [parseComments_list] at h
  unfold afterField at h
  split at h
  · simp at h
  · rename_i h'
    simp only [Prod.mk.injEq, Out.ok.injEq] at h
    intro he
    exact h' e tl (h.2.trans he)

theorem good_entry (f : Option PluralForms) (first : Bool) : Good (entry f first) := by
  intro l
  unfold entry
  obtain ⟨h1, h2⟩ := good_parseComments .default l
  rcases h : parseComments .default l with ⟨o, l'⟩
  rw [h] at h1 h2
  cases o with
  | err e => exact ⟨by simp, h2⟩
  | panic => simp at h1
  | ok u =>
    rcases l' with _ | ⟨e | v, tl⟩
    · exact ⟨by simp, h2⟩
    · exact absurd rfl (parseComments_ok h _ _)
    · simp only
      obtain ⟨h3, h4⟩ := good_parseMessageFields f { u with obsolete := lineObsolete v } first (.ok v :: tl)
      rcases h' : parseMessageFields f { u with obsolete := lineObsolete v } first (.ok v :: tl) with ⟨o, l2⟩
      rw [h'] at h3 h4
      simp only at h2 h4
      simp only [h']
      have h5 := h4.trans h2
      rcases o with (_ | u') | e | _
      · exact ⟨by simp, h5⟩
      · simp only
        split
        · exact ⟨by simp, h5⟩
        · exact ⟨by simp, h5⟩
      · exact ⟨by simp, h5⟩
      · simp at h3

/-- A list computation that, if it gives some value, has consumed an item. -/
def Consumes {α : Type} (x : Eff (List Item) (Option α)) : Prop := ∀ l a l', x l = (.ok (some a), l') → l'.length < l.length

theorem consumes_parseMsg (tag : Str) (o : Bool) : Consumes (parseMsg tag o) := by
  intro l a l' h
  rw [parseMsg_list] at h
  rcases l with _ | ⟨e | ln, tl⟩
  · simp at h
  · simp at h
  · cases ln with
    | message n p t s =>
      simp only at h
      split at h
      · have h1 := (afterField_suffix (some (s ++ (takeCont p tl).1)) (takeCont p tl).2).2
        rw [h] at h1
        have := (h1.trans (takeCont_suffix p tl)).length_le
        simp only [List.length_cons]; simp at this; omega
      · simp at h
    | _ => simp at h

theorem bind_ok {α β : Type} {x : Eff (List Item) α} {f : α → Eff (List Item) β} {l b l'} (h : (x >>= f) l = (.ok b, l')) :
    ∃ a l1, x l = (.ok a, l1) ∧ f a l1 = (.ok b, l') := by
  rw [bind_eq] at h
  rcases hx : x l with ⟨o, l1⟩
  rw [hx] at h
  cases o with
  | ok a => exact ⟨a, l1, rfl, h⟩
  | err e => simp at h
  | panic => simp at h

theorem Good.le {α : Type} {x : Eff (List Item) α} (hx : Good x) {l a l'} (h : x l = (a, l')) : l'.length ≤ l.length := by
  have := (hx l).2.length_le
  rw [h] at this
  exact this

theorem consumes_fields (f : Option PluralForms) (u : PoUnit) : Consumes (parseMessageFields f u false) := by
  intro l a l' h
  unfold parseMessageFields at h
  obtain ⟨a1, l1, h1, h⟩ := bind_ok h
  obtain ⟨a2, l2, h2, h⟩ := bind_ok h
  obtain ⟨a3, l3, h3, h⟩ := bind_ok h
  obtain ⟨a4, l4, h4, h⟩ := bind_ok h
  obtain ⟨a5, l5, h5, h⟩ := bind_ok h
  have e1 := (good_parseMsg _ _).le h1
  have e2 := (good_parseMsg _ _).le h2
  have e3 : l3.length ≤ l2.length := by
    split at h3
    · exact (good_parseMsg _ _).le h3
    · exact (Good.pure _).le h3
  have e4 := (good_parseMsg _ _).le h4
  cases a5 with
  | none =>
    obtain ⟨a6, l6, h6, h⟩ := bind_ok h
    cases h
  | some v =>
    have e5 := consumes_parseMsg _ _ _ _ _ h5
    simp only [Option.isNone_some, Bool.and_false] at h
    obtain ⟨a6, l6, h6, h⟩ := bind_ok h
    obtain ⟨a7, l7, h7, h⟩ := bind_ok h
    have e6 := (good_parseMsg _ _).le h6
    have e7 := (good_newMessage _ _ _ _).le h7
    have e8 : l' = l7 := by
      split at h
      · cases h
      · cases h; rfl
    subst e8
    omega

theorem consumes_entry (f : Option PluralForms) : Consumes (entry f false) := by
  intro l a l' h
  unfold entry at h
  rcases h1 : parseComments .default l with ⟨o, l1⟩
  rw [h1] at h
  have e1 := (good_parseComments _).le h1
  cases o with
  | err e => simp at h
  | panic => simp at h
  | ok u =>
    rcases l1 with _ | ⟨e | v, tl⟩
    · simp at h
    · simp at h
    · simp only at h
      rcases h2 : parseMessageFields f { u with obsolete := lineObsolete v } false (.ok v :: tl) with ⟨o, l2⟩
      rw [h2] at h
      rcases o with (_ | u') | e | _
      · simp at h
      · have e2 := consumes_fields _ _ _ _ _ h2
        simp only at h
        split at h
        · simp at h
        · cases h; omega
      · simp at h
      · simp at h

/-- The units, and the error if there is one, of the items after the header (with fuel). -/
def drainF (forms : Option PluralForms) : Nat → List Item → List PoUnit × Option Err
  | 0, _ => ([], none)
  | k + 1, l =>
    match entry forms false l with
    | (.ok (some u), l') => (u :: (drainF forms k l').1, (drainF forms k l').2)
    | (.err e, _) => ([], some e)
    | _ => ([], none)

/-- The units, and the error if there is one, of the items after the header. -/
def drain (forms : Option PluralForms) (l : List Item) : List PoUnit × Option Err := drainF forms (l.length + 1) l

theorem drainF_fuel (forms : Option PluralForms) (k k' : Nat) (l : List Item) (h : l.length < k) (h' : l.length < k') :
    drainF forms k l = drainF forms k' l := by
  induction k generalizing k' l with
  | zero => omega
  | succ k ih =>
    cases k' with
    | zero => omega
    | succ k' =>
      rw [drainF, drainF]
      split
      · rename_i u l' he
        have := consumes_entry forms l u l' he
        rw [ih k' l' (by omega) (by omega)]
      · rfl
      · rfl

theorem drain_eq (forms : Option PluralForms) (l : List Item) : drain forms l =
    match entry forms false l with
    | (.ok (some u), l') => (u :: (drain forms l').1, (drain forms l').2)
    | (.err e, _) => ([], some e)
    | _ => ([], none) := by
  unfold drain
  rw [drainF]
  split
  · rename_i u l' he
    have := consumes_entry forms l u l' he
    rw [drainF_fuel forms l.length (l'.length + 1) l' (by omega) (by omega)]
  · rfl
  · rfl

/-- The result of `nextUnitM` as a value. -/
def entryRes (x : Out (Option PoUnit)) : Option (Except Err PoUnit) :=
  match x with
  | .ok (some u) => some (.ok u)
  | .err e => some (.error e)
  | _ => none

theorem nextUnitM_list {L : Type} (first : Bool) (r : Reader (List Item) L) :
    nextUnitM first r = (.ok (entryRes (entry r.pluralForms first r.lines).1), { r with lines := (entry r.pluralForms first r.lines).2 }) := by
  unfold nextUnitM
  rw [readUnit_list]
  have hg := (good_entry r.pluralForms first r.lines).1
  revert hg
  rcases (entry r.pluralForms first r.lines).1 with (_ | u) | e | _ <;> intro hg
  · rfl
  · rfl
  · rfl
  · exact absurd rfl hg

/-- The results of a reader on a list: the unit or error already read, then the rest. -/
def pending {L : Type} (r : Reader (List Item) L) : List (Except Err PoUnit) :=
  match r.nextUnit with
  | none => []
  | some (.error e) => [.error e]
  | some (.ok u) => .ok u :: results (drain r.pluralForms r.lines).1 (drain r.pluralForms r.lines).2

theorem entryRes_pending {L : Type} (r : Reader (List Item) L) :
    pending { r with lines := (entry r.pluralForms false r.lines).2, nextUnit := entryRes (entry r.pluralForms false r.lines).1 } =
    results (drain r.pluralForms r.lines).1 (drain r.pluralForms r.lines).2 := by
  have hg := (good_entry r.pluralForms false r.lines).1
  conv => rhs; rw [drain_eq]
  unfold pending entryRes
  revert hg
  rcases entry r.pluralForms false r.lines with ⟨(_ | u) | e | _, l'⟩ <;> intro hg
  · rfl
  · rfl
  · rfl
  · exact absurd rfl hg

theorem trace_list {L : Type} (k : Nat) (r : Reader (List Item) L) :
    trace k r = .ok ((List.range k).map fun i => (headerOf r, (pending r)[i]?)) := by
  induction k generalizing r with
  | zero => rfl
  | succ k ih =>
    rw [trace, List.range_succ_eq_map, List.map_cons, List.map_map]
    unfold Reader.next
    rcases hn : r.nextUnit with _ | e | u
    · have hp : pending r = [] := by rw [pending, hn]
      simp only [ih, Out.bind, hp]
      simp [Function.comp_def]
    · have hp : pending r = [.error e] := by rw [pending, hn]
      have hp' : pending { r with nextUnit := none } = [] := rfl
      simp only [ih, Out.bind, hp, hp']
      simp [Function.comp_def, headerOf]
    · have hp : pending r = .ok u :: results (drain r.pluralForms r.lines).1 (drain r.pluralForms r.lines).2 := by
        rw [pending, hn]
      simp only [nextUnitM_list]
      rw [ih, entryRes_pending, hp]
      simp [Out.bind, headerOf, Function.comp_def, hn]

/-- Header data after a header entry `u`, and the plural forms. -/
def headerData (env : Env) (u : PoUnit) : Except Err (Header env.Lang × Option PluralForms) :=
  let props := (headerProps u.message.getText).foldl (fun m kv => insertKV m kv.1 kv.2) []
  let hdr : Header env.Lang := ⟨u.notes, u.comments, props, langOf env props env.langInvariant⟩
  match props.lookup (c!"Plural-Forms") with
  | none => .ok (hdr, none)
  | some forms =>
    if forms.isEmpty then .ok (hdr, none)
    else
      match PluralForms.parse env forms with
      | .error e => .error e
      | .ok f => .ok (hdr, some f)

/-- Header data when there is no header. -/
def noHeader (env : Env) : Header env.Lang := ⟨[], [], [], env.langInvariant⟩

/-- What reading a list of items gives. -/
structure Result (L : Type) where
  header : Header L
  forms : Option PluralForms
  units : List PoUnit
  error : Option Err

/-- What reading a list of items gives, or the error of `parse()`. -/
def readAll (env : Env) (l : List Item) : Except Err (Result env.Lang) :=
  match entry none true l with
  | (.ok (some u), rest) =>
    if u.message.isEmpty then
      match headerData env u with
      | .error e => .error e
      | .ok (hdr, forms) => .ok ⟨hdr, forms, (drain forms rest).1, (drain forms rest).2⟩
    else .ok ⟨noHeader env, none, u :: (drain none rest).1, (drain none rest).2⟩
  | (.err e, _) => .error e
  | _ => .ok ⟨noHeader env, none, [], none⟩

theorem yields_of {L : Type} (r : Reader (List Item) L) : Yields (.ok r) (headerOf r) (pending r) := by
  intro k
  simp only [observe, Out.bind, trace_list]

/-- **The reader on a list.** -/
theorem new_list (env : Env) (l : List Item) :
    match readAll env l with
    | .error e => Fails (Reader.new env l) e
    | .ok res => Yields (Reader.new env l) res.header (results res.units res.error) := by
  unfold Reader.new readAll
  simp only [nextUnitM_list]
  have hg := (good_entry none true l).1
  rcases he : entry none true l with ⟨(_ | u) | e | _, rest⟩
  · exact yields_of _
  · simp only [show entryRes (.ok (some u)) = some (.ok u) from rfl]
    cases hem : u.message.isEmpty with
    | false => exact yields_of _
    | true =>
      unfold parsePoHeader headerData
      simp only [List.nil_append, if_true]
      generalize (List.foldl (fun m kv => insertKV m kv.1 kv.2) [] (headerProps u.message.getText)) = props
      cases List.lookup c!"Plural-Forms" props with
      | none =>
        simp only
        rw [← entryRes_pending (L := env.Lang)
          ⟨rest, some (.ok u), u.notes, u.comments, props, langOf env props env.langInvariant, none⟩]
        exact yields_of _
      | some forms =>
        cases hf : forms.isEmpty with
        | true =>
          simp only [hf, if_true]
          rw [← entryRes_pending (L := env.Lang)
            ⟨rest, some (.ok u), u.notes, u.comments, props, langOf env props env.langInvariant, none⟩]
          exact yields_of _
        | false =>
          cases hp : PluralForms.parse env forms with
          | error e => simp [hf, hp]; rfl
          | ok f =>
            simp only [hf, hp, Bool.false_eq_true, if_false]
            rw [← entryRes_pending (L := env.Lang)
              ⟨rest, some (.ok u), u.notes, u.comments, props, langOf env props env.langInvariant, some f⟩]
            exact yields_of _
  · rfl
  · rw [he] at hg; exact absurd rfl hg

/-- **The reader on a byte stream.**  Reading is the function `readAll` of the items of the stream. -/
theorem parse_stream (env : Env) (es : List Event) :
    match readAll env (streamItems es) with
    | .error e => Fails (parse env es) e
    | .ok res => Yields (parse env es) res.header (results res.units res.error) := by
  have h := new_list env (streamItems es)
  have ho := fun k => observe_parse env k es
  cases hr : readAll env (streamItems es) with
  | ok res =>
    rw [hr] at h
    intro k
    rw [ho k]
    exact h k
  | error e =>
    rw [hr] at h
    have h0 := ho 0
    rw [show Reader.new env (streamItems es) = .err e from h] at h0
    show parse env es = .err e
    cases hp : parse env es with
    | ok r => rw [hp] at h0; simp [observe, Out.bind, trace] at h0
    | err e' => rw [hp] at h0; simpa [observe, Out.bind] using h0
    | panic => rw [hp] at h0; simp [observe, Out.bind] at h0

/-- The header data and the results that a reader yields are determined. -/
theorem Spec.Yields.unique {σ L : Type} [Src σ] {r : Out (Reader σ L)} {h h' : Header L} {xs xs'} (y : Yields r h xs) (y' : Yields r h' xs') :
    h = h' ∧ xs = xs' := by
  have e := fun k => (y k).symm.trans (y' k)
  simp only [Out.ok.injEq, Prod.mk.injEq] at e
  refine ⟨(e 0).1, List.ext_getElem? fun i => ?_⟩
  have := congrArg (fun l => l[i]?) (e (i + 1)).2
  simp at this
  exact this.2

end Verif
