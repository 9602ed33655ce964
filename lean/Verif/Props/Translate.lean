import Verif.Lemmas.Translate
import Verif.Props.Uncomment
import Verif.Props.Opaque

/-! C96: changing, removing and adding translations. -/

namespace Verif
open Spec

/-- What reading side by side shows. -/
def SourceCore (R : Str → Str → Str → Prop) (u u' : PoUnit) : Prop := SourceUnit? R u u' ∧ SourceMessage R u.message u'.message

theorem trans_texts {R : Str → Str → Str → Prop} (hR : SourceRel R) {env : Env} {stream stream' : List Event} {hdr hdr' : Header env.Lang}
    {us us' : List PoUnit} {e e' : Option Err} (h : Retexted R [] (rawLines (flatten stream)) (rawLines (flatten stream')))
    (hy : Yields (parse env stream) hdr (results us e)) (hy' : Yields (parse env stream') hdr' (results us' e'))
    (hp : hdr.properties.lookup (c!"Plural-Forms") = hdr'.properties.lookup (c!"Plural-Forms")) :
    Each (SourceCore R) us us' ∧ e = e' ∧ hdr.notes = hdr'.notes ∧ hdr.comments = hdr'.comments := by
  have hi : SomeText R (streamItems stream) (streamItems stream') :=
    ⟨_, retexted_items h (fun _ hs => rawLines_no_nl hs) (fun _ hs => rawLines_no_nl hs) ((stream_items stream _).mpr rfl) ((stream_items stream' _).mpr rfl)⟩
  have hq := parse_stream env stream
  have hq' := parse_stream env stream'
  have hno : ∀ {σ : Type} [Src σ] {r : Out (Reader σ env.Lang)} {h : Header env.Lang} {xs : List (Except Err PoUnit)} {e : Err}, Fails r e → Yields r h xs → False := by
    intro σ _ r h xs e hf hy
    have := hy 0
    rw [show r = .err e from hf] at this
    simp [observe, Out.bind] at this
  unfold readAll at hq hq'
  obtain ⟨h1, h2⟩ := trans_entry hR none true hi
  rcases e1 : entry none true (streamItems stream) with ⟨o, r⟩
  rcases e2 : entry none true (streamItems stream') with ⟨o', r'⟩
  rw [e1] at hq
  rw [e2] at hq'
  rw [e1, e2] at h1 h2
  simp only at h1 h2 hq hq'
  have fin : ∀ {hd hd' : Header env.Lang} {vs vs' : List PoUnit} {x x' : Option Err}, Yields (parse env stream) hd (results vs x) →
      Yields (parse env stream') hd' (results vs' x') →
      ((hd.properties.lookup (c!"Plural-Forms") = hd'.properties.lookup (c!"Plural-Forms")) →
        Each (SourceCore R) vs vs' ∧ x = x' ∧ hd.notes = hd'.notes ∧ hd.comments = hd'.comments) →
      Each (SourceCore R) us us' ∧ e = e' ∧ hdr.notes = hdr'.notes ∧ hdr.comments = hdr'.comments := by
    intro hd hd' vs vs' x x' y y' hh
    obtain ⟨a1, a2⟩ := hy.unique y
    obtain ⟨b1, b2⟩ := hy'.unique y'
    obtain ⟨c1, c2⟩ := results_inj a2
    obtain ⟨d1, d2⟩ := results_inj b2
    subst a1 b1 c1 c2 d1 d2
    exact hh hp
  cases h1 with
  | err h => exact (hno hq hy).elim
  | panic => exact fin hq hq' fun _ => ⟨.nil, rfl, rfl, rfl⟩
  | ok hv =>
    cases hv with
    | none => exact fin hq hq' fun _ => ⟨.nil, rfl, rfl, rfl⟩
    | @some u u' hv =>
      have hs := h2 _ rfl
      have hd := fun f => trans_drain hR f (r.length + 1) r r' (by omega) hs
      simp only at hq hq'
      by_cases hem : u.message.isEmpty = true
      · rw [if_pos hem] at hq
        rw [if_pos (by rw [← trans_empty hR hv.message]; exact hem)] at hq'
        unfold headerData at hq hq'
        generalize (headerProps u.message.getText).foldl (fun m kv => insertKV m kv.1 kv.2) [] = props at hq
        generalize (headerProps u'.message.getText).foldl (fun m kv => insertKV m kv.1 kv.2) [] = props' at hq'
        simp only at hq hq'
        -- the forms are a function of the property
        have go : ∀ (x x' : Option Str), props.lookup (c!"Plural-Forms") = x → props'.lookup (c!"Plural-Forms") = x' →
            Each (SourceCore R) us us' ∧ e = e' ∧ hdr.notes = hdr'.notes ∧ hdr.comments = hdr'.comments := by
          intro x x' hx hx'
          rw [hx] at hq
          rw [hx'] at hq'
          cases x with
          | none =>
            cases x' with
            | none => exact fin hq hq' fun _ => ⟨(hd _).1, (hd _).2, hv.notes, hv.comments⟩
            | some s' =>
              simp only at hq hq'
              by_cases hs' : s'.isEmpty = true
              · rw [if_pos hs'] at hq'
                exact fin hq hq' fun hc => by rw [hx, hx'] at hc; cases hc
              · rw [if_neg hs'] at hq'
                cases hf' : PluralForms.parse env s' with
                | error e => rw [hf'] at hq'; exact (hno hq' hy').elim
                | ok f' => rw [hf'] at hq'; exact fin hq hq' fun hc => by rw [hx, hx'] at hc; cases hc
          | some s =>
            simp only at hq
            by_cases hss : s.isEmpty = true
            · rw [if_pos hss] at hq
              cases x' with
              | none => exact fin hq hq' fun hc => by rw [hx, hx'] at hc; cases hc
              | some s' =>
                simp only at hq'
                by_cases hs' : s'.isEmpty = true
                · rw [if_pos hs'] at hq'
                  exact fin hq hq' fun _ => ⟨(hd _).1, (hd _).2, hv.notes, hv.comments⟩
                · rw [if_neg hs'] at hq'
                  cases hf' : PluralForms.parse env s' with
                  | error e => rw [hf'] at hq'; exact (hno hq' hy').elim
                  | ok f' => rw [hf'] at hq'; exact fin hq hq' fun hc => by rw [hx, hx'] at hc; cases hc; exact absurd hss hs'
            · rw [if_neg hss] at hq
              cases hf : PluralForms.parse env s with
              | error e => rw [hf] at hq; exact (hno hq hy).elim
              | ok f =>
                rw [hf] at hq
                cases x' with
                | none => exact fin hq hq' fun hc => by rw [hx, hx'] at hc; cases hc
                | some s' =>
                  simp only at hq'
                  by_cases hs' : s'.isEmpty = true
                  · rw [if_pos hs'] at hq'
                    exact fin hq hq' fun hc => by rw [hx, hx'] at hc; cases hc; exact absurd hs' hss
                  · rw [if_neg hs'] at hq'
                    cases hf' : PluralForms.parse env s' with
                    | error e => rw [hf'] at hq'; exact (hno hq' hy').elim
                    | ok f' =>
                      rw [hf'] at hq'
                      refine fin hq hq' fun hc => ?_
                      rw [hx, hx'] at hc
                      cases hc
                      rw [hf] at hf'
                      cases hf'
                      exact ⟨(hd _).1, (hd _).2, hv.notes, hv.comments⟩
        exact go _ _ rfl rfl
      · rw [if_neg hem] at hq
        rw [if_neg (by rw [← trans_empty hR hv.message]; exact hem)] at hq'
        exact fin hq hq' fun _ => ⟨.cons ⟨hv, hv.full (by simpa using hem)⟩ (hd _).1, (hd _).2, rfl, rfl⟩

theorem trans_headed {R : Str → Str → Str → Prop} (hR : SourceRel R) (env : Env) {stream stream' : List Event} {hd rs rs' : List (Except IoErr Str)}
    (h : rawLines (flatten stream) = hd ++ rs) (h' : rawLines (flatten stream') = hd ++ rs') (hh : HeaderLines hd) (hc : NoContinuation rs)
    (hrs : Retexted R [] rs rs') : Correspond SameHeader (SourceCore R) Eq (parse env stream) (parse env stream') := by
  have hn : ∀ s, .ok s ∈ hd ++ rs → '\n' ∉ s := by rw [← h]; exact fun _ hs => rawLines_no_nl hs
  have hn' : ∀ s, .ok s ∈ hd ++ rs' → '\n' ∉ s := by rw [← h']; exact fun _ hs => rawLines_no_nl hs
  obtain ⟨block, u, t, h1, h2, h3⟩ := hh
  have h1 := h1.unique (fun s hs => hn s (by simp [hs])) (items_lineItems (fun s hs => hn s (by simp [hs])) 1)
  have hi : ∀ {stream : List Event} {rs : List (Except IoErr Str)}, rawLines (flatten stream) = hd ++ rs →
      streamItems stream = block.map .ok ++ items (1 + hd.length) rs := by
    intro stream rs h
    rw [streamItems_code, h, items_append, ← h1]
    rw [← h1]
    simp
  have hc := fun m p s tl => hc (1 + hd.length) _ m p s tl (items_lineItems (fun s hs => hn s (by simp [hs])) _)
  have hb := items_noBlank (1 + hd.length) rs
  have hb' := items_noBlank (1 + hd.length) rs'
  have ht := retexted_items hrs (fun s hs => hn s (by simp [hs])) (fun s hs => hn' s (by simp [hs])) (items_lineItems (fun s hs => hn s (by simp [hs])) (1 + hd.length))
    (items_lineItems (fun s hs => hn' s (by simp [hs])) (1 + hd.length))
  have e1 := hi h
  have e2 := hi h'
  generalize items (1 + hd.length) rs = l at *
  generalize items (1 + hd.length) rs' = l' at *
  -- the header is found in both, or the line after it cannot be read in both
  have first : (∃ e, First (streamItems stream) (.fail e) ∧ First (streamItems stream') (.fail e)) ∨
      (First (streamItems stream) (.header u.notes u.comments (t.getD []) l) ∧ First (streamItems stream') (.header u.notes u.comments (t.getD []) l')) := by
    rw [e1, e2]
    have hk : ∀ n p k s tl, First (block.map .ok ++ .ok (.message n p k s) :: tl) (.header u.notes u.comments (t.getD []) (.ok (.message n p k s) :: tl)) := by
      intro n p k s tl
      refine .header h2 h3 ((ends_iff h2).mpr ⟨by simp [NoErr], ?_⟩)
      rintro ⟨p, hp⟩
      rw [h3] at hp
      cases hp
    cases ht with
    | nil => exact .inr ⟨.header h2 h3 (.inl rfl), .header h2 h3 (.inl rfl)⟩
    | error => exact .inl ⟨_, .unreadable (.inl (.inr (.inr ⟨u, h2⟩))), .unreadable (.inl (.inr (.inr ⟨u, h2⟩)))⟩
    | continuation => exact absurd rfl (hc _ _ _ _)
    | message => exact .inr ⟨hk _ _ _ _ _, hk _ _ _ _ _⟩
    | comment => exact .inr ⟨.header h2 h3 ((ends_iff h2).mpr ⟨by simp [NoErr], trivial⟩), .header h2 h3 ((ends_iff h2).mpr ⟨by simp [NoErr], trivial⟩)⟩
  rcases first with ⟨e, f, f'⟩ | ⟨f, f'⟩
  · exact .inl ⟨e, e, (rejects_iff _ _ _).mp (.first f), (rejects_iff _ _ _).mp (.first f'), rfl⟩
  · rcases parse_spec env stream with ⟨e, k1, k2⟩ | ⟨hdr, forms, us, e, k1, k2⟩
    · cases k2 with
      | first g => cases f.unique g
      | badForms g g2 g3 =>
        cases f.unique g
        exact .inl ⟨e, e, k1, (rejects_iff _ _ _).mp (.badForms f' g2 g3), rfl⟩
    · cases k2 with
      | nothing g => cases f.unique g
      | plain g => cases f.unique g
      | headed g g2 g3 g4 =>
        cases f.unique g
        obtain ⟨rfl, rfl⟩ := g4.unique (drain_run hb)
        obtain ⟨d1, d2⟩ := trans_drain hR forms (l.length + 1) l l' (by omega) ⟨_, ht⟩
        obtain ⟨hdr', s1, s2⟩ := reads_yields (.headed f' g2 g3 (drain_run hb'))
        refine .inr ⟨_, _, _, _, _, _, k1, s2, ⟨s1.notes.symm, s1.comments.symm, fun k => (s1.properties k).symm, s1.language.symm⟩, d1, ?_⟩
        rw [d2]
        cases (drain forms l').2 with
        | none => exact .none
        | some e => exact .some rfl

theorem core_unit {R : Str → Str → Str → Prop} {u u' : PoUnit} (h : SourceCore R u u') (hs : StateRule u') : SourceUnit R u u' where
  context := h.1.context
  prevContext := h.1.prevContext
  message := h.2
  prevMessage := h.1.prevMessage
  flags := h.1.flags
  notes := h.1.notes
  locations := h.1.locations
  comments := h.1.comments
  obsolete := h.1.obsolete
  needsWork := h.1.needsWork
  final := by rw [hs.final, Ne, h.1.needsWork, hs.needsWork]

theorem each_right {α : Type} {Q : α → α → Prop} {P : α → Prop} {l l' : List α} (h : Each Q l l') (hp : ∀ a ∈ l', P a) : Each (fun a a' => Q a a' ∧ P a') l l' := by
  induction h with
  | nil => exact .nil
  | cons h _ ih => exact .cons ⟨h, hp _ (List.mem_cons_self ..)⟩ (ih fun a ha => hp a (List.mem_cons_of_mem _ ha))

theorem unit_state {env : Env} {stream : List Event} {hdr : Header env.Lang} {us : List PoUnit} {e : Option Err} (h : Yields (parse env stream) hdr (results us e)) :
    ∀ u ∈ us, StateRule u := by
  intro u hu
  obtain ⟨_, _, _, he, _⟩ := unit_entry h (u := u) (by cases e <;> simp [results, hu])
  obtain ⟨cs, b1, b2, b3, b4, b5, b6, b7, pid, ppl, id, idPl, rfl, _, _, _, _, _, _, _, _, _, _, hs⟩ := he
  exact hs

/-- **C96** If two inputs have the same header and differ after it only in quoted texts, which are related by a relation that concatenation respects and that
relates an empty id to an empty id only, then they give the same header data, the same error, and units that differ only in these texts and in whether they are
translated. -/
theorem C96_headed {R : Str → Str → Str → Prop} (hR : SourceRel R) (env : Env) {stream stream' : List Event} {hd rs rs' : List (Except IoErr Str)}
    (h : rawLines (flatten stream) = hd ++ rs) (h' : rawLines (flatten stream') = hd ++ rs') (hh : HeaderLines hd) (hc : NoContinuation rs)
    (hrs : Retexted R [] rs rs') : Correspond SameHeader (SourceUnit R) Eq (parse env stream) (parse env stream') := by
  rcases trans_headed hR env h h' hh hc hrs with hx | ⟨hdr, hdr', us, us', e, e', y, y', hs, hu, he⟩
  · exact .inl hx
  · exact .inr ⟨hdr, hdr', us, us', e, e', y, y', hs, (each_right hu (unit_state y')).imp fun _ _ h => core_unit h.1 h.2, he⟩

/-- **C96** The same for any two inputs with the same `Plural-Forms` property. -/
theorem C96_texts {R : Str → Str → Str → Prop} (hR : SourceRel R) {env : Env} {stream stream' : List Event} {hdr hdr' : Header env.Lang}
    {us us' : List PoUnit} {e e' : Option Err} (h : Retexted R [] (rawLines (flatten stream)) (rawLines (flatten stream')))
    (hy : Yields (parse env stream) hdr (results us e)) (hy' : Yields (parse env stream') hdr' (results us' e'))
    (hp : hdr.properties.lookup (c!"Plural-Forms") = hdr'.properties.lookup (c!"Plural-Forms")) :
    Each (SourceUnit R) us us' ∧ e = e' ∧ hdr.notes = hdr'.notes ∧ hdr.comments = hdr'.comments := by
  obtain ⟨h1, h2⟩ := trans_texts hR h hy hy' hp
  exact ⟨(each_right h1 (unit_state hy')).imp fun _ _ h => core_unit h.1 h.2, h2⟩

/-! ### Any other translations -/

theorem any_rel : SourceRel AnyTranslation where
  append := by
    rintro k a a' b b' (rfl | h) (rfl | h')
    · exact .inl rfl
    · exact .inr h'
    · exact .inr h
    · exact .inr h
  empty := by
    rintro a a' (rfl | h)
    · rfl
    · exact absurd h source_keywords.2.2.1

theorem any_eq {k a a' : Str} (hk : ¬ IsTextKeyword k) (h : AnyTranslation k a a') : a = a' := h.resolve_right hk

theorem no_rel : SourceRel NoTranslation where
  append := by
    rintro k a a' b b' (⟨h, rfl⟩ | ⟨h, rfl⟩) (⟨h', rfl⟩ | ⟨h', rfl⟩)
    · exact .inl ⟨h, rfl⟩
    · exact absurd h h'
    · exact absurd h' h
    · exact .inr ⟨h, rfl⟩
  empty := by
    rintro a a' (⟨h, _⟩ | ⟨_, rfl⟩)
    · exact absurd h source_keywords.2.2.1
    · rfl

theorem no_eq {k a a' : Str} (hk : ¬ IsTextKeyword k) (h : NoTranslation k a a') : a = a' := by
  rcases h with ⟨h, _⟩ | ⟨_, h⟩
  · exact absurd h hk
  · exact h

theorem source_both {R : Str → Str → Str → Prop} (hq : ∀ {k a a'}, ¬ IsTextKeyword k → R k a a' → a = a') {k : Str} (hk : ¬ IsTextKeyword k) {a a' : Option Str}
    (h : Both (R k) a a') : a = a' := by
  cases h with
  | none => rfl
  | some h => rw [hq hk h]

/-- Everything but the message and the state is the same. -/
theorem source_unit {R : Str → Str → Str → Prop} (hq : ∀ {k a a'}, ¬ IsTextKeyword k → R k a a' → a = a') {u u' : PoUnit} (h : SourceUnit R u u') :
    u' = { u with message := u'.message, state := u'.state } := by
  obtain ⟨k1, k2, k3, k4, k5, k6⟩ := source_keywords
  have hq' : u.prevMessage = u'.prevMessage := by
    have hm := h.prevMessage
    generalize u.prevMessage = m at hm
    generalize u'.prevMessage = m' at hm
    cases hm with
    | none => rfl
    | simple ha => rw [hq k4 ha]
    | plural ha hb => rw [hq k4 ha, hq k6 hb]
  obtain ⟨h1, h2, _, _, h5, h6, h7, h8, h9, _, _⟩ := h
  have h1 := source_both hq k1 h1
  have h2 := source_both hq k2 h2
  cases u
  cases u'
  simp only at *
  subst h1 h2 h5 h6 h7 h8 h9 hq'
  rfl

theorem any_message {m m' : Message} (h : SourceMessage AnyTranslation m m') : SameIds m m' := by
  obtain ⟨_, _, k3, _, k5, _⟩ := source_keywords
  cases h with
  | simple ha _ => cases any_eq k3 ha; exact .simple
  | plural ha hb hv =>
    cases any_eq k3 ha
    cases any_eq k5 hb
    refine .plural ?_
    clear ha hb
    induction hv with
    | nil => rfl
    | cons _ _ ih => simp [ih]

/-- **C96** Translating: with the same header, if the lines after it differ only in the texts of `msgstr` and `msgstr[i]` fields, in whatever way, then the units
differ only in their translations and in whether they are translated; the header data and the error are the same. -/
theorem C96_translations (env : Env) {stream stream' : List Event} {hd rs rs' : List (Except IoErr Str)}
    (h : rawLines (flatten stream) = hd ++ rs) (h' : rawLines (flatten stream') = hd ++ rs') (hh : HeaderLines hd) (hc : NoContinuation rs)
    (hrs : Retexted AnyTranslation [] rs rs') :
    Correspond SameHeader (fun u u' => SameIds u.message u'.message ∧ u' = { u with message := u'.message, state := u'.state } ∧
      (u.state = .needsWork ↔ u'.state = .needsWork) ∧ (u'.state = .final ↔ u.state ≠ .needsWork ∧ HasText u'.message)) Eq (parse env stream) (parse env stream') :=
  correspond_imp (fun _ _ hu => ⟨any_message hu.message, source_unit any_eq hu, hu.needsWork, hu.final⟩) (C96_headed any_rel env h h' hh hc hrs)

theorem no_text {v v' : Str} {k : Str} (hk : IsTextKeyword k) (h : NoTranslation k v v') : v' = [] := by
  rcases h with ⟨_, h⟩ | ⟨h, _⟩
  · exact h
  · exact absurd hk h

theorem no_message {m m' : Message} (h : SourceMessage NoTranslation m m') : m' = emptyMessage m ∧ ¬ HasText m' := by
  obtain ⟨_, _, k3, _, k5, _⟩ := source_keywords
  cases h with
  | simple ha ht =>
    cases no_eq k3 ha
    cases no_text (.inl rfl) ht
    exact ⟨rfl, by rintro ⟨s, h, _⟩; cases h⟩
  | @plural a a' b b' vs vs' f ha hb hv =>
    cases no_eq k3 ha
    cases no_eq k5 hb
    have : vs' = vs.map fun _ => [] := by
      clear ha hb
      induction hv with
      | nil => rfl
      | cons h _ ih =>
        obtain ⟨i, h⟩ := h
        rw [no_text (.inr ⟨i, rfl⟩) h, ih]
        rfl
    subst this
    refine ⟨rfl, ?_⟩
    rintro ⟨v, hm, hne⟩
    obtain ⟨_, _, rfl⟩ := List.mem_map.mp hm
    exact hne rfl

theorem no_unit {u u' : PoUnit} (h : SourceUnit NoTranslation u u') : u' = emptyUnit u := by
  obtain ⟨h1, h2⟩ := no_message h.message
  rw [source_unit no_eq h, h1]
  have : u'.state = if u.state = .needsWork then .needsWork else .empty := by
    split
    · exact h.needsWork.mp (by assumption)
    · next hn =>
      have hf := h.final
      have hw := h.needsWork
      cases hs : u'.state with
      | empty => rfl
      | needsWork => exact absurd (hw.mpr hs) hn
      | final => exact absurd (hf.mp hs).2 h2
  rw [this]
  rfl

/-- **C96** Removing all translations: if the translations after the header are all made empty, the units are the same without their translations; those that do not
need work are empty. -/
theorem C96_empty (env : Env) {stream stream' : List Event} {hd rs rs' : List (Except IoErr Str)}
    (h : rawLines (flatten stream) = hd ++ rs) (h' : rawLines (flatten stream') = hd ++ rs') (hh : HeaderLines hd) (hc : NoContinuation rs)
    (hrs : Retexted NoTranslation [] rs rs') : Correspond SameHeader (fun u u' => u' = emptyUnit u) Eq (parse env stream) (parse env stream') :=
  correspond_imp (fun _ _ => no_unit) (C96_headed no_rel env h h' hh hc hrs)

/-! Examples. -/

theorem no_source {k s : Str} (hk : ¬ IsTextKeyword k) : NoTranslation k s s := .inr ⟨hk, rfl⟩

-- `C96_translations`: one is filled, one is emptied
example : Correspond SameHeader (fun u u' => SameIds u.message u'.message ∧ u' = { u with message := u'.message, state := u'.state } ∧
      (u.state = .needsWork ↔ u'.state = .needsWork) ∧ (u'.state = .final ↔ u.state ≠ .needsWork ∧ HasText u'.message)) Eq
    (parse demoEnv (textStream (headLines twoForms ++ twoEntries (c!"o") (c!"hi") (c!"") (c!"a") (c!"b") (c!"c") [])))
    (parse demoEnv (textStream (headLines twoForms ++ twoEntries (c!"o") (c!"hi") (c!"hallo\\n") (c!"a") (c!"b") [] []))) :=
  C96_translations demoEnv (hd := (headLines twoForms).map .ok) (rs := (twoEntries _ _ _ _ _ _ _).map .ok) (rs' := (twoEntries _ _ _ _ _ _ _).map .ok)
    (by rw [rawLines_text (by decide)]; rfl) (by rw [rawLines_text (by decide)]; rfl) (headerLines_demo _) (noContinuation_head (by decide) rfl)
    (twoEntries_retexted (fun _ => .inl rfl) (.inl rfl) (.inl rfl) (.inr (.inl rfl)) (.inl rfl) (.inl rfl) (.inr (.inr ⟨0, rfl⟩)) (.inl rfl))

-- `C96_headed`, `C96_empty`
theorem two_empty : Retexted NoTranslation [] ((twoEntries (c!"o") (c!"hi") (c!"salut") (c!"a") (c!"b") (c!"c") (c!"d")).map .ok)
    ((twoEntries (c!"o") (c!"hi") [] (c!"a") (c!"b") [] []).map .ok) := by
  obtain ⟨k1, k2, k3, k4, k5, k6⟩ := source_keywords
  refine twoEntries_retexted (fun k => ?_) (no_source k4) (no_source k3) (.inl ⟨.inl rfl, rfl⟩) (no_source k3) (no_source k5) (.inl ⟨.inr ⟨0, rfl⟩, rfl⟩)
    (.inl ⟨.inr ⟨1, rfl⟩, rfl⟩)
  by_cases hk : IsTextKeyword k
  · exact .inl ⟨hk, rfl⟩
  · exact no_source hk

example : Correspond SameHeader (fun u u' => u' = emptyUnit u) Eq
    (parse demoEnv (textStream (headLines twoForms ++ twoEntries (c!"o") (c!"hi") (c!"salut") (c!"a") (c!"b") (c!"c") (c!"d"))))
    (parse demoEnv (textStream (headLines twoForms ++ twoEntries (c!"o") (c!"hi") [] (c!"a") (c!"b") [] []))) :=
  C96_empty demoEnv (hd := (headLines twoForms).map .ok) (rs := (twoEntries _ _ _ _ _ _ _).map .ok) (rs' := (twoEntries _ _ _ _ _ _ _).map .ok)
    (by rw [rawLines_text (by decide)]; rfl) (by rw [rawLines_text (by decide)]; rfl) (headerLines_demo _) (noContinuation_head (by decide) rfl) two_empty

set_option maxRecDepth 100000 in
-- what the second gives
example : Yields (parse demoEnv (textStream (headLines twoForms ++ twoEntries (c!"o") (c!"hi") [] (c!"a") (c!"b") [] [])))
    ⟨[], [], [(c!"Plural-Forms", c!"nplurals=2; plural=n!=1;")], []⟩
    (results [{ PoUnit.default with message := .simple (c!"hi") none, prevMessage := .simple (c!"o") none, flags := [c!"fuzzy"], state := .needsWork },
      { PoUnit.default with message := .plural ⟨c!"a", c!"b", [[], []], some ⟨.binop .ne .var (.num 1), 2, c!"nplurals=2; plural=n!=1;", c!"n!=1"⟩⟩ }]
      none) :=
  yields_text (env := demoEnv) (res := ⟨⟨[], [], [(c!"Plural-Forms", c!"nplurals=2; plural=n!=1;")], []⟩, _, [_, _], none⟩) (by decide) (by rfl)

-- `C96_texts`: without header
example : ∀ hdr hdr' us us' e e', Yields (parse demoEnv (textStream (twoEntries (c!"o") (c!"hi") (c!"salut") (c!"a") (c!"b") (c!"c") (c!"d")))) hdr (results us e) →
    Yields (parse demoEnv (textStream (twoEntries (c!"o") (c!"hi") [] (c!"a") (c!"b") [] []))) hdr' (results us' e') →
    hdr.properties.lookup (c!"Plural-Forms") = hdr'.properties.lookup (c!"Plural-Forms") →
    Each (SourceUnit NoTranslation) us us' ∧ e = e' ∧ hdr.notes = hdr'.notes ∧ hdr.comments = hdr'.comments := by
  intro hdr hdr' us us' e e' h h' hp
  refine C96_texts no_rel ?_ h h' hp
  rw [rawLines_text (by decide), rawLines_text (by decide)]
  exact two_empty

end Verif
