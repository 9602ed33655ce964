import Verif.Lemmas.FirstUnique
import Verif.Lemmas.Forms

/-! Header data. -/

namespace Verif
open Spec

theorem isLines_split {text : Str} {ls : List Str} (h : IsLines text ls) : splitP (· == '\n') text = ls := by
  obtain ⟨h1, h2, rfl⟩ := h
  induction ls with
  | nil => exact absurd rfl h1
  | cons l ls ih =>
    have hl : ∀ c ∈ l, (c == '\n') = false := by
      intro c hc
      have := h2 l (by simp)
      simp only [beq_eq_false_iff_ne]
      rintro rfl
      exact this hc
    cases ls with
    | nil => simpa using splitP_free hl
    | cons l' ls =>
      have e : List.intercalate ['\n'] (l :: l' :: ls) = l ++ '\n' :: List.intercalate ['\n'] (l' :: ls) := by
        simp [List.intercalate, List.intersperse]
      rw [e, splitP_append hl (by simp), ih (by simp) (fun x hx => h2 x (List.mem_cons_of_mem _ hx))]

/-- Every text has lines. -/
theorem isLines_of_split (text : Str) : IsLines text (splitP (· == '\n') text) := by
  refine ⟨splitP_ne_nil _ _, ?_, ?_⟩
  · induction text with
    | nil => simp [splitP]
    | cons c cs ih =>
      rw [splitP]
      split
      · intro l hl
        rcases List.mem_cons.mp hl with rfl | hl
        · simp
        · exact ih l hl
      · rename_i hc
        split
        · rename_i h; exact absurd h (splitP_ne_nil _ _)
        · rename_i w ws h
          rw [h] at ih
          intro l hl
          rcases List.mem_cons.mp hl with rfl | hl
          · have := ih w (by simp)
            simp only [List.mem_cons, not_or]
            exact ⟨fun h => hc (by simp [h.symm]), this⟩
          · exact ih l (List.mem_cons_of_mem _ hl)
  · induction text with
    | nil => rfl
    | cons c cs ih =>
      rw [splitP]
      split
      · rename_i hc
        have hc : c = '\n' := by simpa using hc
        subst hc
        cases hs : splitP (fun x => x == '\n') cs with
        | nil => exact absurd hs (splitP_ne_nil _ _)
        | cons w ws =>
          rw [hs] at ih
          conv => lhs; rw [ih]
          simp [List.intercalate, List.intersperse]
      · split
        · rename_i h; exact absurd h (splitP_ne_nil _ _)
        · rename_i w ws h
          rw [h] at ih
          conv => lhs; rw [ih]
          cases ws <;> simp [List.intercalate, List.intersperse]

theorem splitColon_iff {line a b : Str} : splitColon line = some (a, b) ↔ line = a ++ ':' :: b ∧ ':' ∉ a := by
  induction line generalizing a with
  | nil => simp [splitColon]
  | cons c cs ih =>
    rw [splitColon]
    split
    · rename_i hc
      subst hc
      constructor
      · rintro h; cases h; simp
      · rintro ⟨h1, h2⟩
        cases a with
        | nil => simp at h1; simp [h1]
        | cons x a => simp at h1; simp [← h1.1] at h2
    · rename_i hc
      cases a with
      | nil =>
        simp only [Option.map_eq_some_iff, Prod.mk.injEq, reduceCtorEq, false_and, and_false, exists_false, List.nil_append, List.cons.injEq, false_iff]
        rintro ⟨⟨rfl, _⟩, _⟩
        exact hc rfl
      | cons x a =>
        simp only [Option.map_eq_some_iff, Prod.mk.injEq, List.cons.injEq, Prod.exists, List.cons_append, List.mem_cons, not_or]
        constructor
        · rintro ⟨a', b', h, ⟨rfl, rfl⟩, rfl⟩
          obtain ⟨h1, h2⟩ := ih.mp h
          exact ⟨⟨rfl, h1⟩, Ne.symm hc, h2⟩
        · rintro ⟨⟨rfl, h1⟩, _, h2⟩
          exact ⟨a, b, ih.mpr ⟨h1, h2⟩, ⟨rfl, rfl⟩, rfl⟩

theorem keyValue_iff {line k v : Str} : KeyValue line k v ↔ ∃ p, splitColon line = some p ∧ k = trim p.1 ∧ v = trim p.2 := by
  constructor
  · rintro ⟨a, b, h1, h2, h3, h4⟩
    exact ⟨(a, b), splitColon_iff.mpr ⟨h1, h2⟩, stripped_iff.mp h3, stripped_iff.mp h4⟩
  · rintro ⟨⟨a, b⟩, h, h3, h4⟩
    obtain ⟨h1, h2⟩ := splitColon_iff.mp h
    exact ⟨a, b, h1, h2, stripped_iff.mpr h3, stripped_iff.mpr h4⟩

theorem lookup_ne {β : Type} {k k' : Str} (h : k' ≠ k) (v : β) (m : List (Str × β)) : ((k, v) :: m).lookup k' = m.lookup k' := by
  have : (k' == k) = false := by simpa using h
  rw [List.lookup_cons, this]

theorem lookup_self {β : Type} (k : Str) (v : β) (m : List (Str × β)) : ((k, v) :: m).lookup k = some v := by
  simp

theorem pushKV_lookup (m : List (Str × List Str)) (k v k' : Str) :
    (pushKV m k v).lookup k' = if k' = k then some ((m.lookup k).getD [] ++ [v]) else m.lookup k' := by
  induction m with
  | nil =>
    rw [pushKV]
    by_cases h : k' = k
    · subst h; simp
    · rw [lookup_ne h, if_neg h]
  | cons p m ih =>
    obtain ⟨k0, vs⟩ := p
    rw [pushKV]
    by_cases h0 : k0 = k
    · subst h0
      rw [if_pos rfl, lookup_self]
      by_cases h : k' = k0
      · subst h; simp
      · rw [lookup_ne h, lookup_ne h, if_neg h]
    · rw [if_neg h0]
      by_cases h : k' = k0
      · subst h
        rw [lookup_self, lookup_self, if_neg h0]
      · rw [lookup_ne h, lookup_ne h, ih, lookup_ne (Ne.symm h0)]

theorem insertKV_lookup (m : List (Str × Str)) (k v k' : Str) :
    (insertKV m k v).lookup k' = if k' = k then some v else m.lookup k' := by
  induction m with
  | nil =>
    rw [insertKV]
    by_cases h : k' = k
    · subst h; simp
    · rw [lookup_ne h, if_neg h]
  | cons p m ih =>
    obtain ⟨k0, v0⟩ := p
    rw [insertKV]
    by_cases h0 : k0 = k
    · subst h0
      rw [if_pos rfl]
      by_cases h : k' = k0
      · subst h; simp
      · rw [lookup_ne h, lookup_ne h, if_neg h]
    · rw [if_neg h0]
      by_cases h : k' = k0
      · subst h
        rw [lookup_self, lookup_self, if_neg h0]
      · rw [lookup_ne h, lookup_ne h, ih]

theorem insertKV_new {m : List (Str × Str)} {k v : Str} (h : k ∉ m.map Prod.fst) : insertKV m k v = m ++ [(k, v)] := by
  induction m with
  | nil => rfl
  | cons p m ih =>
    obtain ⟨k0, v0⟩ := p
    simp only [List.map_cons, List.mem_cons, not_or] at h
    rw [insertKV, if_neg (Ne.symm h.1), ih h.2, List.cons_append]

/-- Inserting the pairs of a list with different keys one after the other gives the list. -/
theorem insertAll_nodup (l m : List (Str × Str)) (h : ((m ++ l).map Prod.fst).Nodup) :
    l.foldl (fun m kv => insertKV m kv.1 kv.2) m = m ++ l := by
  induction l generalizing m with
  | nil => simp
  | cons p l ih =>
    have hk : p.1 ∉ m.map Prod.fst := by
      intro hp
      rw [List.map_append, List.map_cons, List.nodup_append] at h
      exact h.2.2 _ hp _ (List.mem_cons_self ..) rfl
    rw [List.foldl_cons, insertKV_new hk, ih]
    · simp
    · simpa using h

theorem pushKV_keys (m : List (Str × List Str)) (k v : Str) :
    (pushKV m k v).map Prod.fst = if k ∈ m.map Prod.fst then m.map Prod.fst else m.map Prod.fst ++ [k] := by
  induction m with
  | nil => simp [pushKV]
  | cons p m ih =>
    obtain ⟨k0, vs⟩ := p
    rw [pushKV]
    by_cases h0 : k0 = k
    · simp [h0]
    · rw [if_neg h0, List.map_cons, ih]
      have h0' : k ≠ k0 := Ne.symm h0
      by_cases h : k ∈ m.map Prod.fst
      · simp only [h, if_true, List.map_cons, List.mem_cons, or_true]
      · simp only [h, if_false, List.map_cons, List.mem_cons, h0', or_self, List.cons_append]

theorem joinSp_eq (l : List Str) : joinSp l = List.intercalate [' '] l := by
  induction l with
  | nil => rfl
  | cons x l ih =>
    cases l with
    | nil => simp [joinSp, List.intercalate]
    | cons y l =>
      rw [joinSp, ih]
      · simp [List.intercalate, List.intersperse]
      · simp

/-- One header line. -/
def pushLine (m : List (Str × List Str)) (line : Str) : List (Str × List Str) :=
  match splitColon line with
  | some (k, v) => pushKV m (trim k) (trim v)
  | none => m

theorem pushLines_lookup {k : Str} {ls vs : List Str} (h : Values k ls vs) (m : List (Str × List Str)) :
    (ls.foldl pushLine m).lookup k = if vs = [] then m.lookup k else some ((m.lookup k).getD [] ++ vs) := by
  induction h generalizing m with
  | nil => rfl
  | @hit line v ls vs h1 h2 ih =>
    obtain ⟨p, h3, h4, h5⟩ := keyValue_iff.mp h1
    rw [List.foldl_cons, ih]
    have e : pushLine m line = pushKV m k v := by rw [pushLine, h3, h4, h5]
    rw [e, pushKV_lookup]
    simp only [if_true, Option.getD_some, List.append_assoc, List.cons_append, List.nil_append]
    split
    · rename_i h; simp [h]
    · simp
  | @miss line ls vs h1 h2 ih =>
    rw [List.foldl_cons, ih]
    have e : (pushLine m line).lookup k = m.lookup k := by
      rw [pushLine]
      rcases hs : splitColon line with _ | ⟨a, b⟩
      · rfl
      · simp only
        rw [pushKV_lookup, if_neg]
        rintro rfl
        exact h1 (trim b) (keyValue_iff.mpr ⟨(a, b), hs, rfl, rfl⟩)
    rw [e]

theorem pushLines_keys (ls : List Str) (m : List (Str × List Str)) (h : (m.map Prod.fst).Nodup) : ((ls.foldl pushLine m).map Prod.fst).Nodup := by
  induction ls generalizing m with
  | nil => exact h
  | cons line ls ih =>
    rw [List.foldl_cons]
    apply ih
    rw [pushLine]
    rcases splitColon line with _ | ⟨a, b⟩
    · exact h
    · simp only
      rw [pushKV_keys]
      split
      · exact h
      · rename_i hk
        rw [List.nodup_append]
        refine ⟨h, by simp, ?_⟩
        intro x hx y hy
        simp only [List.mem_singleton] at hy
        subst hy
        rintro rfl
        exact hk hx

theorem lookup_map_snd {β γ : Type} (f : β → γ) (m : List (Str × β)) (k : Str) : (m.map fun p => (p.1, f p.2)).lookup k = (m.lookup k).map f := by
  induction m with
  | nil => rfl
  | cons p m ih =>
    rw [List.map_cons, List.lookup_cons, List.lookup_cons, ih]
    cases k == p.1 <;> rfl

/-- The properties of a header text. -/
def textProps (text : Str) : List (Str × Str) := (headerProps text).foldl (fun m kv => insertKV m kv.1 kv.2) []

theorem headerProps_eq (text : Str) :
    headerProps text = ((splitP (· == '\n') text).foldl pushLine []).map fun kl => (kl.1, joinSp kl.2) := rfl

theorem headerProps_keys (text : Str) : ((headerProps text).map Prod.fst).Nodup := by
  rw [headerProps_eq, List.map_map]
  exact pushLines_keys _ [] (by simp)

theorem textProps_eq (text : Str) : textProps text = headerProps text := by
  unfold textProps
  rw [insertAll_nodup _ [] (by simpa using headerProps_keys text)]
  rfl

theorem textProps_lookup {text : Str} {ls : List Str} (h : IsLines text ls) {k : Str} {vs : List Str} (hv : Values k ls vs) :
    (textProps text).lookup k = if vs = [] then none else some (List.intercalate [' '] vs) := by
  rw [textProps_eq, headerProps_eq, isLines_split h, lookup_map_snd, pushLines_lookup hv]
  by_cases hn : vs = []
  · simp [hn]
  · simp [hn, joinSp_eq]

theorem langOf_eq (env : Env) (props : List (Str × Str)) : langOf env props env.langInvariant = languageOf env (props.lookup (c!"Language")) := by
  unfold langOf languageOf
  cases List.lookup _ props with
  | none => rfl
  | some s =>
    simp only
    cases env.langNew s with
    | some l => rfl
    | none => cases env.langFromUnix s <;> rfl

/-- The header data of a header text. -/
def textHeader (env : Env) (notes : List Note) (comments : List Comment) (text : Str) : Header env.Lang :=
  ⟨notes, comments, textProps text, langOf env (textProps text) env.langInvariant⟩

theorem headerRule_text (env : Env) (notes : List Note) (comments : List Comment) (text : Str) :
    HeaderRule env notes comments text (textHeader env notes comments text) where
  notes := rfl
  comments := rfl
  keys := by show ((textProps text).map Prod.fst).Nodup; rw [textProps_eq]; exact headerProps_keys text
  properties _ h _ _ hv := textProps_lookup h hv
  language := langOf_eq env _

/-- The plural forms of a header text. -/
def textForms (env : Env) (p : Option Str) : Except Err (Option PluralForms) :=
  match p with
  | none => .ok none
  | some s => if s.isEmpty then .ok none else (PluralForms.parse env s).map some

theorem formsRule_iff (env : Env) (p : Option Str) (r : Except Err (Option PluralForms)) : FormsRule env p r ↔ textForms env p = r := by
  constructor
  · intro h
    cases h with
    | absent => rfl
    | empty => rfl
    | @given s f h1 h2 =>
      have : s.isEmpty = false := by simpa using h1
      simp [textForms, this, formsParse_iff.mpr h2, Except.map]
    | @bad s e h1 h2 =>
      have : s.isEmpty = false := by simpa using h1
      simp [textForms, this, formsError_iff.mpr h2, Except.map]
  · rintro rfl
    unfold textForms
    cases p with
    | none => exact .absent
    | some s =>
      simp only
      cases s with
      | nil => exact .empty
      | cons c s =>
        rcases formsParse_spec env (c :: s) with ⟨f, h1, h2⟩ | ⟨e, h1, h2⟩
        · rw [h1]; exact .given (by simp) h2
        · rw [h1]; exact .bad (by simp) h2

theorem headerData_eq (env : Env) (u : PoUnit) : headerData env u =
    (textForms env ((textProps u.message.getText).lookup (c!"Plural-Forms"))).map fun f => (textHeader env u.notes u.comments u.message.getText, f) := by
  unfold headerData textForms textHeader textProps
  simp only
  generalize List.lookup (c!"Plural-Forms") (List.foldl (fun m kv => insertKV m kv.1 kv.2) [] (headerProps u.message.getText)) = p
  cases p with
  | none => rfl
  | some s =>
    simp only
    split
    · rfl
    · cases PluralForms.parse env s <;> rfl

/-- The lines that have a key determine its values. -/
theorem values_exists (k : Str) (ls : List Str) : ∃ vs, Values k ls vs := by
  induction ls with
  | nil => exact ⟨[], .nil⟩
  | cons l ls ih =>
    obtain ⟨vs, h⟩ := ih
    by_cases hv : ∃ v, KeyValue l k v
    · obtain ⟨v, hv⟩ := hv
      exact ⟨_, .hit hv h⟩
    · exact ⟨_, .miss (fun v h => hv ⟨v, h⟩) h⟩

/-- The rule determines the header data. -/
theorem headerRule_unique {env : Env} {ns : List Note} {cs : List Comment} {text : Str} {h h' : Header env.Lang} (r : HeaderRule env ns cs text h)
    (r' : HeaderRule env ns cs text h') : SameHeader h h' := by
  have hp : ∀ k, h.properties.lookup k = h'.properties.lookup k := by
    intro k
    obtain ⟨vs, hv⟩ := values_exists k (splitP (· == '\n') text)
    rw [r.properties _ (isLines_of_split text) k vs hv, r'.properties _ (isLines_of_split text) k vs hv]
  refine ⟨r.notes.trans r'.notes.symm, r.comments.trans r'.comments.symm, hp, ?_⟩
  rw [r.language, r'.language, hp]

/-- **Reading is as the specification of catalogues says.** -/
theorem readAll_sound (env : Env) {l : List Item} (hb : NoBlank l) :
    match readAll env l with
    | .error e => Rejects env l e
    | .ok res => Reads env l res.header res.forms res.units res.error := by
  have hf := first_sound hb
  have hrest : ∀ {u rest}, entry none true l = (.ok (some u), rest) → NoBlank rest := by
    intro u rest he
    obtain ⟨b, hl, _⟩ := entry_sound he
    rw [hl] at hb
    exact hb.append
  unfold readAll
  rcases he : entry none true l with ⟨(_ | u) | e | _, rest⟩
  · rw [he] at hf; exact .nothing hf
  · have hb' := hrest he
    rw [he] at hf
    unfold firstOut at hf
    simp only at hf ⊢
    split at hf
    · rename_i hem
      rw [if_pos hem, headerData_eq]
      have hr := headerRule_text env u.notes u.comments u.message.getText
      rcases hfm : textForms env ((textProps u.message.getText).lookup (c!"Plural-Forms")) with e | f
      · exact .badForms hf hr ((formsRule_iff _ _ _).mpr hfm)
      · exact .headed hf hr ((formsRule_iff _ _ _).mpr hfm) (drain_run hb')
    · rename_i hem
      rw [if_neg hem]
      exact .plain hf (drain_run hb')
  · rw [he] at hf; exact .first hf
  · have := (good_entry none true l).1
    rw [he] at this
    exact absurd rfl this

/-- **Every byte stream is read as the specification of catalogues says.** -/
theorem parse_spec (env : Env) (stream : List Event) :
    (∃ e, Fails (parse env stream) e ∧ Rejects env (streamItems stream) e) ∨
    ∃ hdr forms us e, Yields (parse env stream) hdr (results us e) ∧ Reads env (streamItems stream) hdr forms us e := by
  have h := parse_stream env stream
  have h' := readAll_sound env (items_noBlank 1 (rawLines (flatten stream)))
  rw [← streamItems_code] at h'
  cases hr : readAll env (streamItems stream) with
  | error e => rw [hr] at h h'; exact .inl ⟨e, h, h'⟩
  | ok res => rw [hr] at h h'; exact .inr ⟨_, _, _, _, h, h'⟩

/-- The specification of catalogues determines the result. -/
theorem Spec.Reads.unique {env : Env} {l : List Item} {h h' : Header env.Lang} {f f' : Option PluralForms} {us us' : List PoUnit} {e e' : Option Err}
    (r : Reads env l h f us e) (r' : Reads env l h' f' us' e') : SameHeader h h' ∧ f = f' ∧ us = us' ∧ e = e' := by
  cases r with
  | nothing r1 =>
    cases r' with
    | nothing => exact ⟨⟨rfl, rfl, fun _ => rfl, rfl⟩, rfl, rfl, rfl⟩
    | plain r1' => cases r1.unique r1'
    | headed r1' => cases r1.unique r1'
  | plain r1 r2 =>
    cases r' with
    | nothing r1' => cases r1.unique r1'
    | plain r1' r2' =>
      cases r1.unique r1'
      obtain ⟨rfl, rfl⟩ := r2.unique r2'
      exact ⟨⟨rfl, rfl, fun _ => rfl, rfl⟩, rfl, rfl, rfl⟩
    | headed r1' => cases r1.unique r1'
  | headed r1 r2 r3 r4 =>
    cases r' with
    | nothing r1' => cases r1.unique r1'
    | plain r1' => cases r1.unique r1'
    | headed r1' r2' r3' r4' =>
      cases r1.unique r1'
      have hs := headerRule_unique r2 r2'
      rw [formsRule_iff] at r3 r3'
      rw [hs.properties, r3'] at r3
      cases r3
      obtain ⟨rfl, rfl⟩ := r4.unique r4'
      exact ⟨hs, rfl, rfl, rfl⟩

theorem Spec.Rejects.unique {env : Env} {l : List Item} {e e' : Err} (r : Rejects env l e) (r' : Rejects env l e') : e = e' := by
  cases r with
  | first r1 =>
    cases r' with
    | first r1' => cases r1.unique r1'; rfl
    | badForms r1' => cases r1.unique r1'
  | badForms r1 r2 r3 =>
    cases r' with
    | first r1' => cases r1.unique r1'
    | badForms r1' r2' r3' =>
      cases r1.unique r1'
      have hs := headerRule_unique r2 r2'
      rw [formsRule_iff] at r3 r3'
      rw [hs.properties, r3'] at r3
      cases r3
      rfl

theorem not_rejects_reads {env : Env} {l : List Item} {e' : Option Err} {e0 : Err} {h : Header env.Lang} {f : Option PluralForms} {us : List PoUnit}
    (r : Rejects env l e0) (r' : Reads env l h f us e') : False := by
  cases r with
  | first r1 =>
    cases r' with
    | nothing r1' => cases r1.unique r1'
    | plain r1' => cases r1.unique r1'
    | headed r1' => cases r1.unique r1'
  | badForms r1 r2 r3 =>
    cases r' with
    | nothing r1' => cases r1.unique r1'
    | plain r1' => cases r1.unique r1'
    | headed r1' r2' r3' r4' =>
      cases r1.unique r1'
      have hs := headerRule_unique r2 r2'
      rw [formsRule_iff] at r3 r3'
      rw [hs.properties, r3'] at r3
      cases r3

/-- **The specification of catalogues is exact**: what it says about a byte stream is what a user gets. -/
theorem rejects_iff (env : Env) (stream : List Event) (e : Err) : Rejects env (streamItems stream) e ↔ Fails (parse env stream) e := by
  rcases parse_spec env stream with ⟨e', h1, h2⟩ | ⟨hdr, forms, us, e', h1, h2⟩
  · constructor
    · intro h; rw [h.unique h2]; exact h1
    · intro h
      have : (Out.err e' : Out (Reader Peekable env.Lang)) = .err e := h1.symm.trans h
      cases this; exact h2
  · constructor
    · intro h; exact (not_rejects_reads h h2).elim
    · intro h
      have := h1 0
      rw [show parse env stream = .err e from h] at this
      simp [observe, Out.bind] at this

/-- **The specification of catalogues is exact**: what it says about a byte stream is what a user gets. -/
theorem reads_yields {env : Env} {stream : List Event} {hdr : Header env.Lang} {forms : Option PluralForms} {us : List PoUnit} {e : Option Err}
    (h : Reads env (streamItems stream) hdr forms us e) : ∃ hdr', SameHeader hdr' hdr ∧ Yields (parse env stream) hdr' (results us e) := by
  rcases parse_spec env stream with ⟨e', h1, h2⟩ | ⟨hdr', forms', us', e', h1, h2⟩
  · exact (not_rejects_reads h2 h).elim
  · obtain ⟨h3, _, rfl, rfl⟩ := h2.unique h
    exact ⟨hdr', h3, h1⟩

/-- What a user gets is what the specification says. -/
theorem yields_reads {env : Env} {stream : List Event} {hdr : Header env.Lang} {xs : List (Except Err PoUnit)}
    (h : Yields (parse env stream) hdr xs) : ∃ forms us e, xs = results us e ∧ Reads env (streamItems stream) hdr forms us e := by
  rcases parse_spec env stream with ⟨e', h1, h2⟩ | ⟨hdr', forms', us', e', h1, h2⟩
  · have := h 0
    rw [show parse env stream = .err e' from h1] at this
    simp [observe, Out.bind] at this
  · obtain ⟨rfl, rfl⟩ := h.unique h1
    exact ⟨_, _, _, rfl, h2⟩

end Verif
