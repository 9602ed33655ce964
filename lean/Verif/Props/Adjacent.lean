import Verif.Spec.Adjacent
import Verif.Props.Texts

/-! C92: an input is read without error exactly if every line may follow the line before it. -/

namespace Verif
open Spec

theorem Spec.EachFollows.append {hi : Nat} {a b c : Place} {l l' : List PoLine} (h : EachFollows hi a l b) (h' : EachFollows hi b l' c) :
    EachFollows hi a (l ++ l') c := by
  induction h with
  | nil => exact h'
  | cons h _ ih => exact .cons h (ih h')

theorem follows_continuations {hi : Nat} {p : Str} {k : FieldKind} (cs : List (Nat × Str)) (v : Str) :
    EachFollows hi (.field p k v) (cs.map fun c => .continuation c.1 p c.2) (.field p k (v ++ (cs.map Prod.snd).flatten)) := by
  induction cs generalizing v with
  | nil => simpa using EachFollows.nil
  | cons c cs ih =>
    have := ih (v ++ c.2)
    rw [List.map_cons, List.map_cons, List.flatten_cons, ← List.append_assoc]
    exact .cons .continues this

/-- A field may come at the place. -/
def CanTake (hi : Nat) (o : Bool) (a : Place) (k : FieldKind) : Prop :=
  ∀ n p s, (o = true ↔ Tilde p) → MayFollow hi a (.message n p k.word s) (.field p k s)

theorem follows_field {hi : Nat} {a : Place} {k : FieldKind} {o : Bool} {b : List PoLine} {v : Str} (h : Field k.word o b v) (ha : CanTake hi o a k) :
    ∃ p, EachFollows hi a b (.field p k v) ∧ (o = true ↔ Tilde p) := by
  obtain ⟨p, ⟨n, s, cs, rfl, rfl⟩, hp⟩ := h
  exact ⟨p, .cons (ha n p s hp) (follows_continuations cs s), hp⟩

theorem take_begin {hi : Nat} {a : Place} {k : FieldKind} {o : Bool} (ha : AtBorder a) (hk : MayBegin k) : CanTake hi o a k := fun _ _ _ _ => .begins ha hk

theorem take_on {hi : Nat} {p : Str} {k k' : FieldKind} {v : Str} {o : Bool} (hp : o = true ↔ Tilde p) (hk : MayGoOn hi k v k') : CanTake hi o (.field p k v) k' :=
  fun _ _ _ h => .goesOn hk (hp.symm.trans h)

/-- A place at the beginning of an entry, after one of the fields. -/
def InHead (o : Bool) (ks : List FieldKind) (a : Place) : Prop := AtBorder a ∨ ∃ p k v, a = .field p k v ∧ k ∈ ks ∧ (o = true ↔ Tilde p)

theorem InHead.mono {o : Bool} {ks ks' : List FieldKind} {a : Place} (h : InHead o ks a) (hs : ∀ k ∈ ks, k ∈ ks') : InHead o ks' a := by
  rcases h with h | ⟨p, k, v, rfl, h, hp⟩
  · exact .inl h
  · exact .inr ⟨p, k, v, rfl, hs k h, hp⟩

theorem InHead.take {hi : Nat} {o : Bool} {ks : List FieldKind} {a : Place} {k' : FieldKind} (h : InHead o ks a) (hb : MayBegin k')
    (hk : ∀ k ∈ ks, ∀ v, MayGoOn hi k v k') : CanTake hi o a k' := by
  rcases h with h | ⟨p, k, v, rfl, h, hp⟩
  · exact take_begin h hb
  · exact take_on hp (hk k h v)

theorem follows_opt {hi : Nat} {o : Bool} {ks : List FieldKind} {a : Place} {k : FieldKind} {b : List PoLine} {v : Option Str} (h : OptField k.word o b v)
    (ha : InHead o ks a) (hb : MayBegin k) (hk : ∀ k' ∈ ks, ∀ v, MayGoOn hi k' v k) : ∃ a', EachFollows hi a b a' ∧ InHead o (k :: ks) a' ∧
      (v.isSome → ∃ p v', a' = .field p k v' ∧ (o = true ↔ Tilde p)) := by
  cases h with
  | none => exact ⟨a, .nil, ha.mono (by simp_all), by simp⟩
  | some h =>
    obtain ⟨p, h1, h2⟩ := follows_field h (ha.take hb hk)
    exact ⟨_, h1, .inr ⟨_, _, _, rfl, by simp, h2⟩, fun _ => ⟨_, _, rfl, h2⟩⟩

theorem follows_comments {hi : Nat} {a : Place} (ha : AtBorder a) (cs : List (Nat × Char × Str)) : ∃ a', EachFollows hi a (cs.map commentLine) a' ∧ AtBorder a' := by
  induction cs generalizing a with
  | nil => exact ⟨a, .nil, ha⟩
  | cons c cs ih =>
    obtain ⟨a', h1, h2⟩ := ih .fresh
    exact ⟨a', .cons (.comment ha) h1, h2⟩

theorem follows_head {hi : Nat} {o : Bool} {a : Place} {block : List PoLine} (ha : AtBorder a) (h : EntryHead o block) :
    ∃ a', EachFollows hi a block a' ∧ InHead o [.context, .prevPluralId, .prevId, .prevContext] a' := by
  obtain ⟨cs, b1, b2, b3, b4, v1, v2, v3, v4, rfl, f1, f2, f3, g3, f4⟩ := h
  obtain ⟨a0, w0, h0⟩ := follows_comments (hi := hi) ha cs
  obtain ⟨a1, w1, h1, _⟩ := follows_opt (hi := hi) (k := .prevContext) f1 (.inl h0 : InHead o [] a0) .prevContext (by simp)
  obtain ⟨a2, w2, h2, e2⟩ := follows_opt (hi := hi) (k := .prevId) f2 h1 .prevId (by simp; exact fun _ => .contextId)
  have h3 : ∃ a3, EachFollows hi a2 b3 a3 ∧ InHead o [.prevPluralId, .prevId, .prevContext] a3 := by
    cases f3 with
    | none => exact ⟨a2, .nil, h2.mono (by simp_all)⟩
    | some f3 =>
      obtain ⟨p, v', rfl, hp⟩ := e2 (by cases v2 with | none => exact absurd (g3 rfl) (by simp) | some => rfl)
      obtain ⟨q, h4, h5⟩ := follows_field (k := .prevPluralId) f3 (take_on hp .idPlural)
      exact ⟨_, h4, .inr ⟨_, _, _, rfl, by simp, h5⟩⟩
  obtain ⟨a3, w3, h3⟩ := h3
  obtain ⟨a4, w4, h4, _⟩ := follows_opt (hi := hi) (k := .context) f4 h3 .context (by
    simp only [List.mem_cons, List.not_mem_nil, or_false]
    rintro _ (rfl | rfl | rfl) v
    · exact .pluralContext
    · exact .idContext
    · exact .contextContext)
  exact ⟨a4, w0.append (w1.append (w2.append (w3.append w4))), h4⟩

theorem follows_id {hi : Nat} {o : Bool} {a : Place} {b b5 : List PoLine} {id : Str} (ha : AtBorder a) (h : EntryHead o b) (h5 : Field (c!"msgid") o b5 id) :
    ∃ p, EachFollows hi a (b ++ b5) (.field p .id id) ∧ (o = true ↔ Tilde p) := by
  obtain ⟨a', w, h'⟩ := follows_head (hi := hi) ha h
  obtain ⟨p, h1, h2⟩ := follows_field (hi := hi) (a := a') (k := .id) h5 (h'.take .id (by
    simp only [List.mem_cons, List.not_mem_nil, or_false]
    rintro _ (rfl | rfl | rfl | rfl) v
    · exact .context
    · exact .pluralNow
    · exact .idNow
    · exact .contextNow))
  exact ⟨p, w.append h1, h2⟩

theorem follows_values {hi lo : Nat} {o : Bool} {b : List PoLine} {vs : List Str} (h : ValueFields o hi lo b vs) {p : Str} {i : Nat} {v : Str} (hl : i < lo)
    (hp : o = true ↔ Tilde p) : ∃ p' i' v', EachFollows hi (.field p (.value i) v) b (.field p' (.value i') v') := by
  induction h generalizing p i v with
  | nil => exact ⟨_, _, _, .nil⟩
  | @cons lo j b1 v1 bs vs h1 h2 h3 _ ih =>
    obtain ⟨q, w, hq⟩ := follows_field (k := .value j) (v := v1) h3 (take_on (v := v) hp (.more (Nat.lt_of_lt_of_le hl h1) h2))
    obtain ⟨p', i', v', w'⟩ := ih (Nat.lt_succ_self j) hq
    exact ⟨p', i', v', w.append w'⟩

theorem follows_entry {forms : Option PluralForms} {b : List PoLine} {u : PoUnit} {a : Place} (ha : AtBorder a) (h : Entry forms b u) (hs : HasSource u.message) :
    ∃ a', EachFollows (nplurals forms) a b a' ∧ AtBorder a' := by
  obtain ⟨cs, b1, b2, b3, b4, b5, b6, b7, pid, ppl, id, idPl, rfl, f1, f2, f3, g3, f4, f5, f6, f7, _⟩ := h
  obtain ⟨p, w, hp⟩ := follows_id (hi := nplurals forms) ha ⟨cs, b1, b2, b3, b4, _, _, _, _, rfl, f1, f2, f3, g3, f4⟩ f5
  have key : ∃ a', EachFollows (nplurals forms) (.field p .id id) (b6 ++ b7) a' ∧ AtBorder a' := by
    generalize u.message = m at f7 hs
    cases f7 with
    | simple f =>
      cases f6
      obtain ⟨q, w, _⟩ := follows_field (hi := nplurals forms) (k := .text) f (take_on hp (.text hs))
      exact ⟨_, w, .text⟩
    | plural f hv =>
      cases f6 with
      | some f6 =>
        obtain ⟨q, w6, hq⟩ := follows_field (hi := nplurals forms) (k := .pluralId) f6 (take_on hp .plural)
        cases f with
        | nil => simp at hv
        | @cons _ i b v bs vs _ h2 h3 h4 =>
          obtain ⟨q1, w7, hq1⟩ := follows_field (k := .value i) h3 (take_on hq (.value h2))
          obtain ⟨p', i', v', w8⟩ := follows_values h4 (v := v) (Nat.lt_succ_self i) hq1
          exact ⟨_, w6.append (w7.append w8), .value⟩
  obtain ⟨a', w', hb⟩ := key
  exact ⟨a', by simpa using w.append w', hb⟩

theorem follows_run {forms : Option PluralForms} {l : List Item} {us : List PoUnit} {e : Option Err} (h : Run forms l us e) (he : e = none) {a : Place}
    (ha : AtBorder a) : ∃ b a', l = b.map .ok ∧ EachFollows (nplurals forms) a b a' := by
  induction h generalizing a with
  | stop h =>
    subst he
    obtain ⟨b, rfl, ⟨o, h⟩ | ⟨o, idPl, b0, b5, b6, id, rfl, h, h5, h6⟩⟩ := stops_none h
    · obtain ⟨a', w, _⟩ := follows_head (hi := nplurals forms) ha h
      exact ⟨b, a', rfl, w⟩
    · obtain ⟨p, w, hp⟩ := follows_id (hi := nplurals forms) ha h h5
      cases h6 with
      | none => exact ⟨_, _, rfl, by simpa using w⟩
      | some h6 =>
        obtain ⟨q, w', _⟩ := follows_field (hi := nplurals forms) (k := .pluralId) h6 (take_on hp .plural)
        exact ⟨_, _, rfl, by simpa using w.append w'⟩
  | entry h1 h2 _ _ ih =>
    obtain ⟨a', w, hb⟩ := follows_entry ha h1 h2
    obtain ⟨b, a'', rfl, w'⟩ := ih he hb
    exact ⟨_, a'', (List.map_append ..).symm, w.append w'⟩

/-! ### Back -/

/-- The lines of an entry before the field `k`. -/
inductive Leading (hi : Nat) (o : Bool) : FieldKind → List PoLine → Prop
  | begins {k} (cs : List (Nat × Char × Str)) : MayBegin k → Leading hi o k (cs.map commentLine)
  | next {k k' pre b v} : Leading hi o k pre → Field k.word o b v → MayGoOn hi k v k' → Leading hi o k' (pre ++ b)

theorem before_prevContext {hi : Nat} {o : Bool} {pre : List PoLine} (h : Leading hi o .prevContext pre) : ∃ cs : List (Nat × Char × Str), pre = cs.map commentLine := by
  cases h with
  | begins cs _ => exact ⟨cs, rfl⟩
  | next _ _ h => cases h

theorem before_prevId {hi : Nat} {o : Bool} {pre : List PoLine} (h : Leading hi o .prevId pre) :
    ∃ (cs : List (Nat × Char × Str)) (b1 : List PoLine) (v1 : Option Str), pre = cs.map commentLine ++ b1 ∧ OptField (c!"|msgctxt") o b1 v1 := by
  cases h with
  | begins cs _ => exact ⟨cs, [], none, by simp, .none⟩
  | next h f g =>
    cases g
    obtain ⟨cs, rfl⟩ := before_prevContext h
    exact ⟨cs, _, _, rfl, .some f⟩

theorem before_prevPluralId {hi : Nat} {o : Bool} {pre : List PoLine} (h : Leading hi o .prevPluralId pre) :
    ∃ (cs : List (Nat × Char × Str)) (b1 b2 : List PoLine) (v1 : Option Str) (v2 : Str), pre = cs.map commentLine ++ (b1 ++ b2) ∧ OptField (c!"|msgctxt") o b1 v1 ∧
      Field (c!"|msgid") o b2 v2 := by
  cases h with
  | begins cs h => cases h
  | next h f g =>
    cases g
    obtain ⟨cs, b1, v1, rfl, f1⟩ := before_prevId h
    exact ⟨cs, b1, _, v1, _, by simp, f1, f⟩

theorem before_context {hi : Nat} {o : Bool} {pre : List PoLine} (h : Leading hi o .context pre) :
    ∃ (cs : List (Nat × Char × Str)) (b1 b2 b3 : List PoLine) (v1 v2 v3 : Option Str), pre = cs.map commentLine ++ (b1 ++ (b2 ++ b3)) ∧
      OptField (c!"|msgctxt") o b1 v1 ∧ OptField (c!"|msgid") o b2 v2 ∧ OptField (c!"|msgid_plural") o b3 v3 ∧ (v2 = none → v3 = none) := by
  cases h with
  | begins cs h => exact ⟨cs, [], [], [], none, none, none, by simp, .none, .none, .none, fun _ => rfl⟩
  | next h f g =>
    cases g with
    | contextContext =>
      obtain ⟨cs, rfl⟩ := before_prevContext h
      exact ⟨cs, _, [], [], _, none, none, by simp, .some f, .none, .none, fun _ => rfl⟩
    | idContext =>
      obtain ⟨cs, b1, v1, rfl, f1⟩ := before_prevId h
      exact ⟨cs, b1, _, [], _, _, none, by simp, f1, .some f, .none, fun _ => rfl⟩
    | pluralContext =>
      obtain ⟨cs, b1, b2, v1, v2, rfl, f1, f2⟩ := before_prevPluralId h
      exact ⟨cs, b1, b2, _, _, _, _, by simp, f1, .some f2, .some f, by simp⟩

theorem head_prevContext {hi : Nat} {o : Bool} {pre b : List PoLine} {v : Str} (h : Leading hi o .prevContext pre) (f : Field (c!"|msgctxt") o b v) :
    EntryHead o (pre ++ b) := by
  obtain ⟨cs, rfl⟩ := before_prevContext h
  exact ⟨cs, b, [], [], [], _, none, none, none, by simp, .some f, .none, .none, fun _ => rfl, .none⟩

theorem head_prevId {hi : Nat} {o : Bool} {pre b : List PoLine} {v : Str} (h : Leading hi o .prevId pre) (f : Field (c!"|msgid") o b v) :
    EntryHead o (pre ++ b) := by
  obtain ⟨cs, b1, v1, rfl, f1⟩ := before_prevId h
  exact ⟨cs, b1, b, [], [], _, _, none, none, by simp, f1, .some f, .none, fun _ => rfl, .none⟩

theorem head_prevPluralId {hi : Nat} {o : Bool} {pre b : List PoLine} {v : Str} (h : Leading hi o .prevPluralId pre) (f : Field (c!"|msgid_plural") o b v) :
    EntryHead o (pre ++ b) := by
  obtain ⟨cs, b1, b2, v1, v2, rfl, f1, f2⟩ := before_prevPluralId h
  exact ⟨cs, b1, b2, b, [], _, _, _, none, by simp, f1, .some f2, .some f, by simp, .none⟩

theorem head_context {hi : Nat} {o : Bool} {pre b : List PoLine} {v : Str} (h : Leading hi o .context pre) (f : Field (c!"msgctxt") o b v) :
    EntryHead o (pre ++ b) := by
  obtain ⟨cs, b1, b2, b3, v1, v2, v3, rfl, f1, f2, f3, g3⟩ := before_context h
  exact ⟨cs, b1, b2, b3, b, _, _, _, _, by simp, f1, f2, f3, g3, .some f⟩

theorem before_id {hi : Nat} {o : Bool} {pre : List PoLine} (h : Leading hi o .id pre) : EntryHead o pre := by
  cases h with
  | begins cs h => exact ⟨cs, [], [], [], [], none, none, none, none, by simp, .none, .none, .none, fun _ => rfl, .none⟩
  | next h f g =>
    cases g with
    | contextNow => exact head_prevContext h f
    | idNow => exact head_prevId h f
    | pluralNow => exact head_prevPluralId h f
    | context => exact head_context h f

theorem before_pluralId {hi : Nat} {o : Bool} {pre : List PoLine} (h : Leading hi o .pluralId pre) :
    ∃ (b b5 : List PoLine) (id : Str), pre = b ++ b5 ∧ EntryHead o b ∧ Field (c!"msgid") o b5 id := by
  cases h with
  | begins cs h => cases h
  | next h f g => cases g; exact ⟨_, _, _, rfl, before_id h, f⟩

theorem before_text {hi : Nat} {o : Bool} {pre : List PoLine} (h : Leading hi o .text pre) :
    ∃ (b b5 : List PoLine) (id : Str), pre = b ++ b5 ∧ EntryHead o b ∧ Field (c!"msgid") o b5 id ∧ id ≠ [] := by
  cases h with
  | begins cs h => cases h
  | next h f g => cases g with | text hv => exact ⟨_, _, _, rfl, before_id h, f, hv⟩

theorem values_mono {o : Bool} {hi hi' lo : Nat} {b : List PoLine} {vs : List Str} (h : ValueFields o hi lo b vs) (hh : hi ≤ hi') : ValueFields o hi' lo b vs := by
  induction h with
  | nil => exact .nil
  | cons h1 h2 h3 _ ih => exact .cons h1 (Nat.lt_of_lt_of_le h2 hh) h3 ih

theorem values_snoc {o : Bool} {lo j : Nat} {b b' : List PoLine} {vs : List Str} {v : Str} (h : ValueFields o j lo b vs) (hl : lo ≤ j)
    (f : Field (valueKeyword j) o b' v) : ValueFields o (j + 1) lo (b ++ b') (vs ++ [v]) := by
  induction h with
  | nil => simpa using ValueFields.cons hl (Nat.lt_succ_self j) f .nil
  | @cons lo i a w bs ws h1 h2 h3 _ ih => simpa using ValueFields.cons h1 (Nat.lt_succ_of_lt h2) h3 (ih h2)

theorem before_value {hi j : Nat} {o : Bool} {pre : List PoLine} (h : Leading hi o (.value j) pre) :
    j < hi ∧ ∃ (b b5 b6 b7 : List PoLine) (id pl : Str) (vs : List Str), pre = b ++ (b5 ++ (b6 ++ b7)) ∧ EntryHead o b ∧ Field (c!"msgid") o b5 id ∧
      Field (c!"msgid_plural") o b6 pl ∧ ValueFields o j 0 b7 vs := by
  generalize hk : FieldKind.value j = k at h
  induction h generalizing j with
  | begins cs h => subst hk; cases h
  | @next k k' pre b v h f g ih =>
    subst hk
    cases g with
    | value hj =>
      obtain ⟨b0, b5, id, rfl, h1, h2⟩ := before_pluralId h
      exact ⟨hj, b0, b5, b, [], id, v, [], by simp, h1, h2, f, .nil⟩
    | @more v i j hij hj =>
      obtain ⟨_, b0, b5, b6, b7, id, pl, vs, rfl, h1, h2, h3, h4⟩ := ih rfl
      exact ⟨hj, b0, b5, b6, b7 ++ b, id, pl, vs ++ [v], by simp, h1, h2, h3, values_mono (values_snoc h4 (Nat.zero_le _) f) hij⟩

/-- The lines `block` are the beginning of an entry and lead to the place. -/
def LeadsTo (hi : Nat) (block : List PoLine) : Place → Prop
  | .fresh => ∃ cs : List (Nat × Char × Str), block = cs.map commentLine
  | .field p k v => ∃ (o : Bool) (pre b : List PoLine), (o = true ↔ Tilde p) ∧ block = pre ++ b ∧ FieldLines k.word p b v ∧ Leading hi o k pre

theorem entry_of_head {forms : Option PluralForms} {o : Bool} {b b5 b6 b7 : List PoLine} {id : Str} {idPl : Option Str} {m : Message} (h : EntryHead o b)
    (h5 : Field (c!"msgid") o b5 id) (h6 : OptField (c!"msgid_plural") o b6 idPl) (h7 : TextFields forms o id idPl b7 m) :
    ∃ u, Entry forms (b ++ (b5 ++ (b6 ++ b7))) u ∧ u.message = m := by
  obtain ⟨cs, b1, b2, b3, b4, _, _, _, _, rfl, f1, f2, f3, g3, f4⟩ := h
  obtain ⟨u, h1, _, h2, _⟩ := entry_of_fields cs f1 f2 f3 g3 f4 h5 h6 h7
  exact ⟨u, by simpa using h1, h2⟩

theorem place_entry {forms : Option PluralForms} {block : List PoLine} {p : Str} {k : FieldKind} {v : Str}
    (h : LeadsTo (nplurals forms) block (.field p k v)) (hb : AtBorder (.field p k v)) : ∃ u, Entry forms block u ∧ HasSource u.message := by
  obtain ⟨o, pre, b, hp, rfl, f, hl⟩ := h
  cases hb with
  | text =>
    obtain ⟨b0, b5, id, rfl, h1, h2, h3⟩ := before_text hl
    obtain ⟨u, h4, h5⟩ := entry_of_head (forms := forms) h1 h2 .none (.simple ⟨p, f, hp⟩)
    exact ⟨u, by simpa using h4, by rw [h5]; exact h3⟩
  | @value _ j =>
    obtain ⟨hj, b0, b5, b6, b7, id, pl, vs, rfl, h1, h2, h3, h4⟩ := before_value hl
    obtain ⟨u, h5, h6⟩ := entry_of_head (forms := forms) h1 h2 (.some h3) (.plural (values_mono (values_snoc h4 (Nat.zero_le _) ⟨p, f, hp⟩) hj) (by simp))
    exact ⟨u, by simpa using h5, by rw [h6]; trivial⟩

theorem place_end {forms : Option PluralForms} {block : List PoLine} {a : Place} (h : LeadsTo (nplurals forms) block a) :
    ∃ us, Run forms (block.map .ok) us none := by
  have stop : ∀ b : List PoLine, (∃ o, EntryHead o b) → ∃ us, Run forms (b.map .ok) us none := fun b ⟨o, h⟩ => ⟨[], .stop (.endsInHead h)⟩
  have ends : AtBorder a → (∃ u, Entry forms block u ∧ HasSource u.message) → ∃ us, Run forms (block.map .ok) us none := by
    rintro _ ⟨u, h1, h2⟩
    have := Run.entry h1 h2 (.inl rfl) (.stop (Stops.endsInHead (o := false) (block := []) ⟨[], [], [], [], [], none, none, none, none, by simp, .none, .none, .none, fun _ => rfl, .none⟩))
    exact ⟨[u], by simpa using this⟩
  cases a with
  | fresh =>
    obtain ⟨cs, rfl⟩ := h
    exact stop _ ⟨false, cs, [], [], [], [], none, none, none, none, by simp, .none, .none, .none, fun _ => rfl, .none⟩
  | field p k v =>
    have h' := h
    obtain ⟨o, pre, b, hp, rfl, f, hl⟩ := h
    have f' : Field k.word o b v := ⟨p, f, hp⟩
    cases k with
    | prevContext => exact stop _ ⟨o, head_prevContext hl f'⟩
    | prevId => exact stop _ ⟨o, head_prevId hl f'⟩
    | prevPluralId => exact stop _ ⟨o, head_prevPluralId hl f'⟩
    | context => exact stop _ ⟨o, head_context hl f'⟩
    | id => exact ⟨[], .stop (.endsAfterIds (o := o) (idPl := none) ⟨pre, b, [], v, by simp, before_id hl, f', .none⟩)⟩
    | pluralId =>
      obtain ⟨b0, b5, id, rfl, h1, h2⟩ := before_pluralId hl
      exact ⟨[], .stop (.endsAfterIds (o := o) (idPl := some v) ⟨b0, b5, b, id, by simp, h1, h2, .some f'⟩)⟩
    | text => exact ends .text (place_entry h' .text)
    | value i => exact ends .value (place_entry h' .value)

theorem run_follows {forms : Option PluralForms} {a c : Place} {l block : List PoLine} (h : EachFollows (nplurals forms) a l c)
    (hl : LeadsTo (nplurals forms) block a) : ∃ us, Run forms ((block ++ l).map .ok) us none := by
  induction h generalizing block with
  | nil => rw [List.append_nil]; exact place_end hl
  | @cons a b c ln ls hf _ ih =>
    have more : LeadsTo (nplurals forms) (block ++ [ln]) b → ∃ us, Run forms ((block ++ ln :: ls).map .ok) us none := fun h => by
      have := ih h
      simpa using this
    have new : AtBorder a → (∀ p k v, a = .field p k v → FreshStart [.ok ln]) → LeadsTo (nplurals forms) [ln] b → a ≠ .fresh →
        ∃ us, Run forms ((block ++ ln :: ls).map .ok) us none := by
      intro ha hfr hb hne
      cases a with
      | fresh => exact absurd rfl hne
      | field p k v =>
        obtain ⟨u, h1, h2⟩ := place_entry hl ha
        obtain ⟨us, hr⟩ := ih hb
        have he : EndsHere forms block ((ln :: ls).map .ok) := by
          have hf := hfr p k v rfl
          refine (ends_iff h1).mpr (entryEnd_fresh ?_)
          rcases hf with h | ⟨ln', tl, h, h'⟩
          · cases h
          · simp only [List.cons.injEq, Except.ok.injEq] at h
            obtain ⟨rfl, _⟩ := h
            exact .inr ⟨ln, _, rfl, h'⟩
        exact ⟨u :: us, by simpa using Run.entry h1 h2 he hr⟩
    cases hf with
    | @comment _ n c s ha =>
      cases a with
      | fresh =>
        obtain ⟨cs, rfl⟩ := hl
        exact more ⟨cs ++ [(n, c, s)], by simp [commentLine]⟩
      | field p k v => exact new ha (fun _ _ _ _ => .inr ⟨_, _, rfl, .inl ⟨(n, c, s), rfl⟩⟩) ⟨[(n, c, s)], rfl⟩ (by simp)
    | @begins _ n p k s ha hk =>
      obtain ⟨o, ho⟩ : ∃ o : Bool, o = true ↔ Tilde p := by
        by_cases h : Tilde p
        · exact ⟨true, by simp [h]⟩
        · exact ⟨false, by simp [h]⟩
      have fl : FieldLines k.word p [.message n p k.word s] s := ⟨n, s, [], by simp, by simp⟩
      cases a with
      | fresh =>
        obtain ⟨cs, rfl⟩ := hl
        exact more ⟨o, _, _, ho, rfl, fl, .begins cs hk⟩
      | field q k' v =>
        refine new ha (fun _ _ _ _ => .inr ⟨_, _, rfl, .inr ⟨n, p, _, s, rfl, ?_⟩⟩) ⟨o, _, _, ho, by simp, fl, .begins [] hk⟩ (by simp)
        cases hk <;> exact fixed_not_value (by simp [FieldKind.word])
    | @continues p k v n s =>
      obtain ⟨o, pre, b, hp, rfl, f, hl⟩ := hl
      exact more ⟨o, pre, _, hp, by rw [List.append_assoc], fieldLines_cont f n s, hl⟩
    | @goesOn p k v n p' k' s hk hp' =>
      obtain ⟨o, pre, b, hp, rfl, f, hl⟩ := hl
      exact more ⟨o, pre ++ b, _, hp.trans hp', rfl, ⟨n, s, [], by simp, by simp⟩, .next hl ⟨p, f, hp⟩ hk⟩

theorem run_none_iff {forms : Option PluralForms} {n : Nat} {rs : List (Except IoErr Str)} {us : List PoUnit} {e : Option Err}
    (hn : ∀ s, .ok s ∈ rs → '\n' ∉ s) (h : Run forms (items n rs) us e) :
    e = none ↔ ∃ b a, LineItems n rs (b.map .ok) ∧ EachFollows (nplurals forms) .fresh b a := by
  constructor
  · intro he
    obtain ⟨b, a, h1, h2⟩ := follows_run h he .fresh
    exact ⟨b, a, h1 ▸ items_lineItems hn n, h2⟩
  · rintro ⟨b, a, h1, h2⟩
    obtain ⟨us', hr⟩ := run_follows (block := []) h2 ⟨[], rfl⟩
    rw [List.nil_append, h1.unique hn (items_lineItems hn n)] at hr
    exact (h.unique hr).2

/-- **C92** After a header, reading ends without error exactly if every line can be read and is recognised, and every line may follow the line before it. -/
theorem C92_header {env : Env} {stream : List Event} {hd rs : List (Except IoErr Str)} {hdr : Header env.Lang} {us : List PoUnit} {e : Option Err}
    {forms : Option PluralForms} (h : rawLines (flatten stream) = hd ++ rs) (hh : HeaderLines hd) (hc : NoContinuation rs)
    (hy : Yields (parse env stream) hdr (results us e)) (hf : FormsRule env (hdr.properties.lookup (c!"Plural-Forms")) (.ok forms)) :
    e = none ↔ ∃ b a, LineItems (1 + hd.length) rs (b.map .ok) ∧ EachFollows (nplurals forms) .fresh b a := by
  obtain ⟨f, h1, h2⟩ := after_header h hh hc hy
  have : f = forms := by
    have := ((formsRule_iff ..).mp h1).symm.trans ((formsRule_iff ..).mp hf)
    simpa using this
  subst this
  exact run_none_iff (fun s hs => rawLines_no_nl (inp := flatten stream) (s := s) (by rw [h]; simp [hs])) h2

/-- **C92** The same for an input without header, with two plural texts. -/
theorem C92_plain {env : Env} {stream : List Event} {hdr : Header env.Lang} {us : List PoUnit} {e : Option Err}
    (h : ∀ ns cs t rest, ¬ First (streamItems stream) (.header ns cs t rest)) (hy : Yields (parse env stream) hdr (results us e)) :
    e = none ↔ ∃ b a, LineItems 1 (rawLines (flatten stream)) (b.map .ok) ∧ EachFollows 2 .fresh b a := by
  have hr : Run none (items 1 (rawLines (flatten stream))) us e := by
    obtain ⟨forms, us1, e1, hx, hr⟩ := yields_reads hy
    obtain ⟨rfl, rfl⟩ := results_inj hx
    rw [streamItems_code] at hr h
    cases hr with
    | nothing f => exact .stop (first_nothing f)
    | plain f hrun =>
      obtain ⟨block, hl, hb, hsrc, hend⟩ := first_unit f
      rw [hl]
      exact .entry hb hsrc hend hrun
    | headed f => exact (h _ _ _ _ f).elim
  exact run_none_iff (forms := none) (fun s hs => rawLines_no_nl (inp := flatten stream) (s := s) hs) hr

theorem word_inj {k k' : FieldKind} (h : k.word = k'.word) : k = k' := by
  have no : ∀ k ∈ [c!"msgctxt", c!"msgid", c!"msgid_plural", c!"msgstr", c!"|msgctxt", c!"|msgid", c!"|msgid_plural"], ∀ j, k ≠ valueKeyword j :=
    fun k hk j => fixed_not_value hk j
  cases k <;> cases k' <;> first
    | rfl
    | exact congrArg _ (valueKeyword_inj h)
    | exact absurd h (no _ (by simp [FieldKind.word]) _)
    | exact absurd h.symm (no _ (by simp [FieldKind.word]) _)
    | exact absurd h (by decide)

/-- **C92** The check is a walk without choice: place and line determine the next place. -/
theorem C92_determined {hi : Nat} {a b b' : Place} {ln : PoLine} (h : MayFollow hi a ln b) (h' : MayFollow hi a ln b') : b = b' := by
  cases h with
  | comment => cases h'; rfl
  | continues => cases h'; rfl
  | @begins a n p k s ha hk =>
    generalize hw : k.word = w at h'
    cases h' with
    | begins => rw [word_inj hw]
    | goesOn => rw [word_inj hw]
  | @goesOn p k v n p' k' s hk hp =>
    generalize hw : k'.word = w at h'
    cases h' with
    | begins => rw [word_inj hw]
    | goesOn => rw [word_inj hw]

/-! ### Examples -/

-- an entry with plural texts and the beginning of another one pass the check
example : ∃ a, EachFollows 2 .fresh [.comment 1 ':' (c!"x.c:1"), .message 2 [] (c!"msgid") (c!"a"), .message 3 [] (c!"msgid_plural") (c!"b"),
    .message 4 [] (c!"msgstr[0]") (c!"c"), .continuation 5 [] (c!"d"), .message 6 [] (c!"msgstr[1]") (c!"d"), .message 7 [] (c!"msgctxt") (c!"x"),
    .message 8 [] (c!"msgid") (c!"a")] a :=
  ⟨_, .cons (.comment .fresh) (.cons (.begins (k := .id) .fresh .id) (.cons (.goesOn (k' := .pluralId) .plural .rfl)
    (.cons (.goesOn (k' := .value 0) (.value (by decide)) .rfl) (.cons .continues (.cons (.goesOn (k' := .value 1) (.more (by decide) (by decide)) .rfl)
    (.cons (.begins (k := .context) .value .context) (.cons (.goesOn (k' := .id) .context .rfl) .nil)))))))⟩

-- no comment between the id and its text, no text for an empty id, no continuation after a comment
example {hi : Nat} {p v c : Str} {n : Nat} {a : Place} : ¬ MayFollow hi (.field p .id v) (.comment n ' ' c) a := by
  rintro ⟨⟨⟩⟩

example {hi : Nat} {p q v : Str} {n : Nat} {a : Place} : ¬ MayFollow hi (.field p .id []) (.message n q (c!"msgstr") v) a := by
  intro h
  generalize hw : c!"msgstr" = w at h
  cases h with
  | begins h => cases h
  | @goesOn _ _ _ _ _ k _ h =>
    cases word_inj (k := .text) (k' := k) hw
    cases h with
    | text h => exact h rfl

example {hi : Nat} {p v : Str} {n : Nat} {a : Place} : ¬ MayFollow hi .fresh (.continuation n p v) a := by
  rintro ⟨⟩

/-- A comment between the id and the text of the second entry. -/
def splitEntry : List Str := [c!"# x", c!"msgid \"a\"", c!"msgstr \"b\"", c!"msgid \"c\"", c!"# y", c!"msgstr \"d\""]

-- `C92_header`: the text is read with an error, so it does not pass the check; without the comment it passes
example : ¬ ∃ b a, LineItems 3 (splitEntry.map .ok) (b.map .ok) ∧ EachFollows 2 .fresh b a := by
  have h := C92_header (env := demoEnv) (stream := textStream (headLines (c!"X: y") ++ splitEntry)) (hd := (headLines (c!"X: y")).map .ok) (forms := none)
    (by rw [rawLines_text (by decide)]; rfl) (headerLines_demo _) (noContinuation_head (by decide) rfl)
    (yields_text (env := demoEnv) (res := ⟨⟨[], [], [(c!"X", c!"y")], []⟩, none, [{ unitAB (c!"a") (c!"b") with notes := [⟨.translator, c!"x"⟩] }],
      some (.parse 7 (c!"# ") (c!"msgstr"))⟩) (by decide) (by rfl)) .absent
  intro h'
  cases h.mpr h'

example : ∃ b a, LineItems 3 ((splitEntry.eraseIdx 4).map .ok) (b.map .ok) ∧ EachFollows 2 .fresh b a :=
  (C92_header (env := demoEnv) (stream := textStream (headLines (c!"X: y") ++ splitEntry.eraseIdx 4)) (hd := (headLines (c!"X: y")).map .ok) (forms := none)
    (by rw [rawLines_text (by decide)]; rfl) (headerLines_demo _) (noContinuation_head (by decide) rfl)
    (yields_text (env := demoEnv) (res := ⟨⟨[], [], [(c!"X", c!"y")], []⟩, none, [{ unitAB (c!"a") (c!"b") with notes := [⟨.translator, c!"x"⟩] },
      unitAB (c!"c") (c!"d")], none⟩) (by decide) (by rfl)) .absent).mp rfl

end Verif
