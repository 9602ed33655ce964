import Verif.Spec.Change
import Verif.Lemmas.Layout

/-! Inputs that differ, read side by side. -/

namespace Verif
open Spec

/-- Outcomes that correspond. -/
inductive OutCorr {α : Type} (V : α → α → Prop) (E : Err → Err → Prop) : Out α → Out α → Prop
  | ok {a a'} : V a a' → OutCorr V E (.ok a) (.ok a')
  | err {e e'} : E e e' → OutCorr V E (.err e) (.err e')
  | panic : OutCorr V E .panic .panic

/-- Outcomes with the items left. -/
def Corr {α : Type} (S : List Item → List Item → Prop) (E : Err → Err → Prop) (V : α → α → Prop) (x x' : Out α × List Item) : Prop :=
  OutCorr V E x.1 x'.1 ∧ (∀ a, x.1 = .ok a → S x.2 x'.2)

/-- Computations that correspond. -/
def CorrE {α : Type} (S : List Item → List Item → Prop) (E : Err → Err → Prop) (V : α → α → Prop) (x x' : Eff (List Item) α) : Prop :=
  ∀ l l', S l l' → Corr S E V (x l) (x' l')

section
variable {α β : Type} {S : List Item → List Item → Prop} {E : Err → Err → Prop}

theorem CorrE.pure {V : α → α → Prop} {a a' : α} (h : V a a') : CorrE S E V (Eff.pure a) (Eff.pure a') := fun _ _ hs => ⟨.ok h, fun _ _ => hs⟩

theorem CorrE.bind {V : α → α → Prop} {W : β → β → Prop} {x x' : Eff (List Item) α} {f f' : α → Eff (List Item) β} (hx : CorrE S E V x x')
    (hf : ∀ a a', V a a' → CorrE S E W (f a) (f' a')) : CorrE S E W (x >>= f) (x' >>= f') := by
  intro l l' h
  obtain ⟨h1, h2⟩ := hx l l' h
  rw [bind_eq, bind_eq]
  rcases e1 : x l with ⟨o, r⟩
  rcases e2 : x' l' with ⟨o', r'⟩
  rw [e1, e2] at h1 h2
  simp only at h1 h2
  cases h1 with
  | ok hv => exact hf _ _ hv _ _ (h2 _ rfl)
  | err h => exact ⟨.err h, by simp⟩
  | panic => exact ⟨.panic, by simp⟩

/-- `bind` after a result that is the same. -/
theorem CorrE.bindEq {W : β → β → Prop} {x x' : Eff (List Item) α} {f f' : α → Eff (List Item) β} (hx : CorrE S E Eq x x')
    (hf : ∀ a, CorrE S E W (f a) (f' a)) : CorrE S E W (x >>= f) (x' >>= f') := by
  refine hx.bind ?_
  rintro a _ rfl
  exact hf a

variable {o o' : Bool} (hm : ∀ tag, CorrE S E Eq (parseMsg tag o) (parseMsg tag o')) (he : ∀ exp, CorrE S E Eq (expected exp) (expected exp))
include hm

theorem corr_valuesLoop (k i : Nat) (vs : List Str) : CorrE S E Eq (valuesLoop o k i vs) (valuesLoop o' k i vs) := by
  induction k generalizing i vs with
  | zero => exact .pure rfl
  | succ k ih =>
    refine CorrE.bindEq (hm _) fun a => ?_
    cases a with
    | some v => exact ih _ _
    | none => exact ih _ _

include he

theorem corr_newMessage (f : Option PluralForms) (a b : Option Str) : CorrE S E Eq (newMessage f o a b) (newMessage f o' a b) := by
  unfold newMessage
  cases a with
  | none => exact .pure rfl
  | some a =>
    cases b with
    | some b =>
      refine CorrE.bindEq (corr_valuesLoop hm _ _ _) fun c => ?_
      split
      · exact CorrE.bindEq (he _) fun _ => .pure rfl
      · exact .pure rfl
    | none =>
      refine CorrE.bindEq (hm _) fun c => ?_
      cases c with
      | some c => exact .pure rfl
      | none => exact CorrE.bindEq (he _) fun _ => .pure rfl

/-- Two units with the same fields set. -/
def Set4 (u u' : PoUnit) (w w' : Option PoUnit) : Prop :=
  (w = none ∧ w' = none) ∨ ∃ a b c m, w = some { u with prevContext := a, prevMessage := b, context := c, message := m } ∧
    w' = some { u' with prevContext := a, prevMessage := b, context := c, message := m }

theorem corr_fields (f : Option PluralForms) {u u' : PoUnit} (hu : u.obsolete = o) (hu' : u'.obsolete = o') (first : Bool) :
    CorrE S E (Set4 u u') (parseMessageFields f u first) (parseMessageFields f u' first) := by
  subst hu hu'
  unfold parseMessageFields
  refine CorrE.bindEq (hm _) fun a => ?_
  refine CorrE.bindEq (hm _) fun b => ?_
  refine CorrE.bindEq (by cases b with | some b => exact hm _ | none => exact .pure rfl) fun c => ?_
  refine CorrE.bindEq (hm _) fun d => ?_
  refine CorrE.bindEq (hm _) fun e => ?_
  split
  · exact CorrE.bindEq (he _) fun _ => .pure (.inl ⟨rfl, rfl⟩)
  · refine CorrE.bindEq (hm _) fun g => ?_
    refine CorrE.bindEq (corr_newMessage hm he _ _ _) fun m => ?_
    cases m with
    | none => exact .pure (.inl ⟨rfl, rfl⟩)
    | some m => exact .pure (.inr ⟨_, _, _, _, rfl, rfl⟩)

end

/-- The fields of an entry that begins with a line that is not a keyword line. -/
theorem fields_stray (f : Option PluralForms) (u : PoUnit) (first : Bool) {v : PoLine} (hv : ∀ n p t s, v ≠ .message n p t s) (tl : List Item) :
    parseMessageFields f u first (.ok v :: tl) =
      if first then (.ok (some { u with prevContext := none, prevMessage := .default, context := none, message := .default }), .ok v :: tl)
      else ((expected (c!"msgid") >>= fun _ => Eff.pure none : Eff (List Item) (Option PoUnit)) (.ok v :: tl)) := by
  have hp : ∀ tag o, parseMsg tag o (.ok v :: tl) = (.ok none, .ok v :: tl) := by
    intro tag o
    rw [parseMsg_list]
    cases v with
    | message n p t s => exact absurd rfl (hv n p t s)
    | _ => rfl
  unfold parseMessageFields
  cases first with
  | true =>
    rw [bind_eq, hp]
    simp only
    rw [bind_eq, hp]
    simp only
    rw [bind_eq]
    simp only [Eff.pure]
    rw [bind_eq, hp]
    simp only
    rw [bind_eq, hp]
    simp only
    rw [if_neg (by simp), bind_eq, hp]
    simp only
    rw [bind_eq]
    simp only [newMessage, Eff.pure]
    rfl
  | false =>
    rw [bind_eq, hp]
    simp only
    rw [bind_eq, hp]
    simp only
    rw [bind_eq]
    simp only [Eff.pure]
    rw [bind_eq, hp]
    simp only
    rw [bind_eq, hp]
    simp only
    rw [if_pos (by simp)]
    rfl

/-- What is needed to read two lists of items side by side. -/
structure Change where
  /-- the items at the beginning of an entry -/
  S₀ : List Item → List Item → Prop
  /-- the items after the comments -/
  S : List Item → List Item → Prop
  E : Err → Err → Prop
  /-- units with data from comments only -/
  K : PoUnit → PoUnit → Prop
  ob : Bool → Bool → Prop
  weak : ∀ {l l'}, S l l' → S₀ l l'
  comments : ∀ {l l'}, S₀ l l' → S (takeComments l).2 (takeComments l').2 ∧
    K ((takeComments l).1.foldl (fun u c => addComment u c.1 c.2) .default) ((takeComments l').1.foldl (fun u c => addComment u c.1 c.2) .default)
  head : ∀ {l l'}, S l l' → (l = [] ∧ l' = []) ∨ (∃ e e' tl tl', l = .error e :: tl ∧ l' = .error e' :: tl' ∧ E e e') ∨
    ∃ v v' tl tl', l = .ok v :: tl ∧ l' = .ok v' :: tl' ∧ (∀ m, E (.unexpected v.line m) (.unexpected v'.line m)) ∧
      ((∃ n p t s n' p' t' s', v = .message n p t s ∧ v' = .message n' p' t' s' ∧ ob (startsTilde p) (startsTilde p')) ∨
        ((∀ n p t s, v ≠ .message n p t s) ∧ (∀ n p t s, v' ≠ .message n p t s)))
  msg : ∀ {o o'}, ob o o' → ∀ tag, CorrE S E Eq (parseMsg tag o) (parseMsg tag o')
  exp : ∀ exp, CorrE S E Eq (expected exp) (expected exp)
  set : ∀ {u u' a b c m o o'}, K u u' → K { u with obsolete := o, prevContext := a, prevMessage := b, context := c, message := m }
    { u' with obsolete := o', prevContext := a, prevMessage := b, context := c, message := m }
  fin : ∀ {u u' : PoUnit}, K u u' → u.message = u'.message →
    K (if u.state = .empty ∧ u.message.isBlank = false then { u with state := .final } else u)
      (if u'.state = .empty ∧ u'.message.isBlank = false then { u' with state := .final } else u')

/-- The units that correspond. -/
structure Change.V (C : Change) (u u' : PoUnit) : Prop where
  context : u.context = u'.context
  prevContext : u.prevContext = u'.prevContext
  message : u.message = u'.message
  prevMessage : u.prevMessage = u'.prevMessage
  comments : C.K u u'
  obsolete : u.message.isEmpty = false → C.ob u.obsolete u'.obsolete

theorem Change.setV (C : Change) {u u' : PoUnit} {a : Option Str} {b : Message} {c : Option Str} {m : Message} {o o' : Bool} (h : C.K u u')
    (ho : m.isEmpty = false → C.ob o o') : C.V { u with obsolete := o, prevContext := a, prevMessage := b, context := c, message := m }
      { u' with obsolete := o', prevContext := a, prevMessage := b, context := c, message := m } :=
  ⟨rfl, rfl, rfl, rfl, C.set h, ho⟩

theorem finish_corr (C : Change) (first : Bool) {n n' : Nat} {u u' : PoUnit} (h : C.V u u') (hn : ∀ m, C.E (.unexpected n m) (.unexpected n' m)) :
    (∃ e e', finishUnit first n u = .error e ∧ finishUnit first n' u' = .error e' ∧ C.E e e') ∨
      ∃ w w', finishUnit first n u = .ok w ∧ finishUnit first n' u' = .ok w' ∧ C.V w w' := by
  have hf := C.fin h.comments h.message
  unfold finishUnit
  by_cases hc : (!first && u.message.isEmpty) = true
  · have hc' : (!first && u'.message.isEmpty) = true := by rw [← h.message]; exact hc
    rw [if_pos hc, if_pos hc']
    exact .inl ⟨_, _, rfl, rfl, hn _⟩
  · have hc' : ¬ (!first && u'.message.isEmpty) = true := by rw [← h.message]; exact hc
    rw [if_neg hc, if_neg hc']
    refine .inr ⟨if u.state = .empty ∧ u.message.isBlank = false then { u with state := .final } else u,
      if u'.state = .empty ∧ u'.message.isBlank = false then { u' with state := .final } else u', ?_, ?_, ?_, ?_, ?_, ?_, hf, ?_⟩
    · split <;> rfl
    · split <;> rfl
    · split <;> split <;> exact h.context
    · split <;> split <;> exact h.prevContext
    · split <;> split <;> exact h.message
    · split <;> split <;> exact h.prevMessage
    · split <;> split <;> exact h.obsolete

theorem corr_entry (C : Change) (f : Option PluralForms) (first : Bool) {l l' : List Item} (h : C.S₀ l l') :
    Corr C.S C.E (Both C.V) (entry f first l) (entry f first l') := by
  unfold entry
  rw [parseComments_list, parseComments_list]
  obtain ⟨hs, hk⟩ := C.comments h
  generalize (takeComments l).1.foldl (fun u c => addComment u c.1 c.2) .default = u at hk
  generalize (takeComments l').1.foldl (fun u c => addComment u c.1 c.2) .default = u' at hk
  generalize (takeComments l).2 = r at hs
  generalize (takeComments l').2 = r' at hs
  rcases C.head hs with ⟨rfl, rfl⟩ | ⟨e, e', tl, tl', rfl, rfl, he⟩ | ⟨v, v', tl, tl', rfl, rfl, hn, hv⟩
  · exact ⟨.ok .none, fun _ _ => hs⟩
  · exact ⟨.err he, by simp [afterField]⟩
  · simp only [afterField]
    rcases hv with ⟨n, p, t, s, n', p', t', s', rfl, rfl, ho⟩ | ⟨hv, hv'⟩
    · have hf := corr_fields (C.msg ho) C.exp f (u := { u with obsolete := startsTilde p }) (u' := { u' with obsolete := startsTilde p' }) rfl rfl first _ _ hs
      simp only [lineObsolete]
      generalize parseMessageFields f { u with obsolete := startsTilde p } first (.ok (.message n p t s) :: tl) = y at *
      generalize parseMessageFields f { u' with obsolete := startsTilde p' } first (.ok (.message n' p' t' s') :: tl') = y' at *
      obtain ⟨o, r⟩ := y
      obtain ⟨o', r'⟩ := y'
      obtain ⟨k1, k2⟩ := hf
      simp only at k1 k2
      cases k1 with
      | err h => exact ⟨.err h, by simp⟩
      | panic => exact ⟨.panic, by simp⟩
      | ok hw =>
        have k3 := k2 _ rfl
        rcases hw with ⟨rfl, rfl⟩ | ⟨a, b, c, m, rfl, rfl⟩
        · exact ⟨.ok .none, fun _ _ => k3⟩
        · rcases finish_corr C first (C.setV hk (fun _ => ho) (a := a) (b := b) (c := c) (m := m)) hn with ⟨x, x', e1, e2, hx⟩ | ⟨w, w', e1, e2, hw⟩
          · simp only [e1, e2]; exact ⟨.err hx, by simp⟩
          · simp only [e1, e2]; exact ⟨.ok (.some hw), fun _ _ => k3⟩
    · have e : lineObsolete v = false := by cases v with | message n p t s => exact absurd rfl (hv n p t s) | _ => rfl
      have e' : lineObsolete v' = false := by cases v' with | message n p t s => exact absurd rfl (hv' n p t s) | _ => rfl
      rw [fields_stray f _ first hv, fields_stray f _ first hv', e, e']
      cases first with
      | true =>
        simp only [if_true]
        rcases finish_corr C true (C.setV hk (fun h => by simp [Message.default, Message.isEmpty] at h) (a := none) (b := .default) (c := none) (m := .default)
          (o := false) (o' := false)) hn with ⟨x, x', e1, e2, hx⟩ | ⟨w, w', e1, e2, hw⟩
        · simp only [e1, e2]; exact ⟨.err hx, by simp⟩
        · simp only [e1, e2]; exact ⟨.ok (.some hw), fun _ _ => hs⟩
      | false =>
        simp only [Bool.false_eq_true, if_false]
        have := CorrE.bind (W := fun a b : Option PoUnit => a = none ∧ b = none) (C.exp (c!"msgid")) (f := fun _ => Eff.pure none) (f' := fun _ => Eff.pure none)
          (fun _ _ _ => .pure ⟨rfl, rfl⟩) _ _ hs
        generalize (expected (c!"msgid") >>= fun _ => Eff.pure none : Eff (List Item) (Option PoUnit)) (.ok v :: tl) = y at *
        generalize (expected (c!"msgid") >>= fun _ => Eff.pure none : Eff (List Item) (Option PoUnit)) (.ok v' :: tl') = y' at *
        obtain ⟨o, r⟩ := y
        obtain ⟨o', r'⟩ := y'
        obtain ⟨k1, k2⟩ := this
        simp only at k1 k2
        cases k1 with
        | err h => exact ⟨.err h, by simp⟩
        | panic => exact ⟨.panic, by simp⟩
        | ok hw =>
          obtain ⟨rfl, rfl⟩ := hw
          exact ⟨.ok .none, fun _ _ => k2 _ rfl⟩

theorem entry_source {f : Option PluralForms} {l : List Item} {u : PoUnit} {r : List Item} (h : entry f false l = (.ok (some u), r)) :
    u.message.isEmpty = false := by
  unfold entry at h
  split at h
  · simp at h
  · simp at h
  · split at h
    · simp at h
    · simp at h
    · split at h
      · simp at h
      · simp at h
      · simp at h
      · rename_i u' l2 _
        unfold finishUnit at h
        by_cases hc : (!false && u'.message.isEmpty) = true
        · rw [if_pos hc] at h; simp at h
        · rw [if_neg hc] at h
          by_cases hd : u'.state = State.empty ∧ u'.message.isBlank = false
          · rw [if_pos hd] at h; simp at h; rw [← h.1]; simpa using hc
          · rw [if_neg hd] at h; simp at h; rw [← h.1]; simpa using hc

/-- The units that correspond, with a source. -/
structure Change.U (C : Change) (u u' : PoUnit) : Prop where
  context : u.context = u'.context
  prevContext : u.prevContext = u'.prevContext
  message : u.message = u'.message
  prevMessage : u.prevMessage = u'.prevMessage
  comments : C.K u u'
  obsolete : C.ob u.obsolete u'.obsolete

theorem Change.V.full {C : Change} {u u' : PoUnit} (h : C.V u u') (he : u.message.isEmpty = false) : C.U u u' :=
  ⟨h.context, h.prevContext, h.message, h.prevMessage, h.comments, h.obsolete he⟩

theorem corr_drain (C : Change) (forms : Option PluralForms) (k : Nat) : ∀ l l' : List Item, l.length < k → C.S l l' →
    Each C.U (drain forms l).1 (drain forms l').1 ∧ Both C.E (drain forms l).2 (drain forms l').2 := by
  induction k with
  | zero => intro l l' h; omega
  | succ k ih =>
    intro l l' hk h
    rw [drain_eq, drain_eq]
    obtain ⟨h1, h2⟩ := corr_entry C forms false (C.weak h)
    have hc := consumes_entry forms l
    rcases e1 : entry forms false l with ⟨o, r⟩
    rcases e2 : entry forms false l' with ⟨o', r'⟩
    rw [e1] at hc
    rw [e1, e2] at h1 h2
    simp only at h1 h2
    cases h1 with
    | err h => exact ⟨.nil, .some h⟩
    | panic => exact ⟨.nil, .none⟩
    | ok hv =>
      cases hv with
      | none => exact ⟨.nil, .none⟩
      | some hv =>
        have hlt := hc _ r rfl
        obtain ⟨h3, h4⟩ := ih r r' (by omega) (h2 _ rfl)
        exact ⟨.cons (hv.full (entry_source e1)) h3, h4⟩

/-- Two streams whose items correspond. -/
theorem corr_results (C : Change) (env : Env) (H : Header env.Lang → Header env.Lang → Prop) (hH : H (noHeader env) (noHeader env))
    (hK : ∀ u u' p l, C.K u u' → H ⟨u.notes, u.comments, p, l⟩ ⟨u'.notes, u'.comments, p, l⟩) (hE : ∀ e, C.E e e) {stream stream' : List Event}
    (h : C.S₀ (streamItems stream) (streamItems stream')) : Correspond H C.U C.E (parse env stream) (parse env stream') := by
  have hp := parse_stream env stream
  have hp' := parse_stream env stream'
  unfold readAll at hp hp'
  obtain ⟨h1, h2⟩ := corr_entry C none true h
  rcases e1 : entry none true (streamItems stream) with ⟨o, r⟩
  rcases e2 : entry none true (streamItems stream') with ⟨o', r'⟩
  rw [e1] at hp
  rw [e2] at hp'
  rw [e1, e2] at h1 h2
  simp only at h1 h2 hp hp'
  cases h1 with
  | err h => exact .inl ⟨_, _, hp, hp', h⟩
  | panic => exact .inr ⟨_, _, _, _, _, _, hp, hp', hH, .nil, .none⟩
  | ok hv =>
    cases hv with
    | none => exact .inr ⟨_, _, _, _, _, _, hp, hp', hH, .nil, .none⟩
    | @some u u' hv =>
      have hs := h2 _ rfl
      have hd := fun f => corr_drain C f (r.length + 1) r r' (by omega) hs
      simp only at hp hp'
      by_cases hem : u.message.isEmpty = true
      · rw [if_pos hem] at hp
        rw [if_pos (by rw [← hv.message]; exact hem)] at hp'
        unfold headerData at hp hp'
        rw [← hv.message] at hp'
        generalize (headerProps u.message.getText).foldl (fun m kv => insertKV m kv.1 kv.2) [] = props at hp hp'
        simp only at hp hp'
        cases hl : props.lookup (c!"Plural-Forms") with
        | none =>
          rw [hl] at hp hp'
          exact .inr ⟨_, _, _, _, _, _, hp, hp', hK _ _ _ _ hv.comments, (hd _).1, (hd _).2⟩
        | some s =>
          rw [hl] at hp hp'
          simp only at hp hp'
          by_cases hemp : s.isEmpty = true
          · rw [if_pos hemp] at hp hp'
            exact .inr ⟨_, _, _, _, _, _, hp, hp', hK _ _ _ _ hv.comments, (hd _).1, (hd _).2⟩
          · rw [if_neg hemp] at hp hp'
            cases hf : PluralForms.parse env s with
            | error e =>
              rw [hf] at hp hp'
              exact .inl ⟨_, _, hp, hp', hE _⟩
            | ok f =>
              rw [hf] at hp hp'
              exact .inr ⟨_, _, _, _, _, _, hp, hp', hK _ _ _ _ hv.comments, (hd _).1, (hd _).2⟩
      · rw [if_neg hem] at hp
        rw [if_neg (by rw [← hv.message]; exact hem)] at hp'
        exact .inr ⟨_, _, _, _, _, _, hp, hp', hH, .cons (hv.full (by simpa using hem)) (hd _).1, (hd _).2⟩

end Verif
