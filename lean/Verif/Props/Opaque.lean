import Verif.Lemmas.Opaque
import Verif.Props.Change

/-! C64: the reader treats quoted texts as opaque. -/

namespace Verif
open Spec

/-- **C64** Texts are opaque: if two inputs differ only in the quoted texts of their lines, which are related by a relation that concatenation respects and
that relates empty texts to empty texts only, and the `Plural-Forms` properties are the same, then the readers yield the same number of units, these differ
only in their texts, which are related, and the error at the end is the same. -/
theorem C64_texts {R : Str → Str → Str → Prop} (hR : TextRel R) {env : Env} {stream stream' : List Event} {hdr hdr' : Header env.Lang}
    {us us' : List PoUnit} {e e' : Option Err} (h : Retexted R [] (rawLines (flatten stream)) (rawLines (flatten stream')))
    (hy : Yields (parse env stream) hdr (results us e)) (hy' : Yields (parse env stream') hdr' (results us' e'))
    (hp : hdr.properties.lookup (c!"Plural-Forms") = hdr'.properties.lookup (c!"Plural-Forms")) :
    Each (UnitRel R) us us' ∧ e = e' ∧ hdr.notes = hdr'.notes ∧ hdr.comments = hdr'.comments := by
  have hi : SomeText R (streamItems stream) (streamItems stream') :=
    ⟨_, retexted_items h (fun _ hs => rawLines_no_nl hs) (fun _ hs => rawLines_no_nl hs) ((stream_items stream _).mpr rfl) ((stream_items stream' _).mpr rfl)⟩
  have hq := parse_stream env stream
  have hq' := parse_stream env stream'
  have hno : ∀ {σ : Type} [Src σ] {r : Out (Reader σ env.Lang)} {h : Header env.Lang} {xs : List (Except Err PoUnit)} {e : Err}, Fails r e → Yields r h xs → False := by
    intro σ _ r h xs e hf hy
    have := hy 0
    rw [show r = .err e from hf] at this
    simp [observe, Out.bind] at this
  unfold readAll at hq hq'
  obtain ⟨h1, h2⟩ := text_entry hR none true hi
  rcases e1 : entry none true (streamItems stream) with ⟨o, r⟩
  rcases e2 : entry none true (streamItems stream') with ⟨o', r'⟩
  rw [e1] at hq
  rw [e2] at hq'
  rw [e1, e2] at h1 h2
  simp only at h1 h2 hq hq'
  have fin : ∀ {hd hd' : Header env.Lang} {vs vs' : List PoUnit} {x x' : Option Err}, Yields (parse env stream) hd (results vs x) →
      Yields (parse env stream') hd' (results vs' x') →
      ((hd.properties.lookup (c!"Plural-Forms") = hd'.properties.lookup (c!"Plural-Forms")) →
        Each (UnitRel R) vs vs' ∧ x = x' ∧ hd.notes = hd'.notes ∧ hd.comments = hd'.comments) →
      Each (UnitRel R) us us' ∧ e = e' ∧ hdr.notes = hdr'.notes ∧ hdr.comments = hdr'.comments := by
    intro hd hd' vs vs' x x' y y' hh
    obtain ⟨a1, a2⟩ := hy.unique y
    obtain ⟨b1, b2⟩ := hy'.unique y'
    obtain ⟨c1, c2⟩ := results_inj a2
    obtain ⟨d1, d2⟩ := results_inj b2
    subst a1 b1 c1 c2 d1 d2
    exact hh hp
  cases h1 with
  | err h => exact (hno hq hy).elim
  | panic => exact fin hq hq' fun _ => ⟨.nil, rfl, rfl, rfl⟩
  | ok hv =>
    cases hv with
    | none => exact fin hq hq' fun _ => ⟨.nil, rfl, rfl, rfl⟩
    | @some u u' hv =>
      have hs := h2 _ rfl
      have hd := fun f => text_drain hR f (r.length + 1) r r' (by omega) hs
      simp only at hq hq'
      by_cases hem : u.message.isEmpty = true
      · rw [if_pos hem] at hq
        rw [if_pos (by rw [← messageRel_empty hR hv.message]; exact hem)] at hq'
        unfold headerData at hq hq'
        generalize (headerProps u.message.getText).foldl (fun m kv => insertKV m kv.1 kv.2) [] = props at hq
        generalize (headerProps u'.message.getText).foldl (fun m kv => insertKV m kv.1 kv.2) [] = props' at hq'
        simp only at hq hq'
        -- the forms are a function of the property
        have go : ∀ (x x' : Option Str), props.lookup (c!"Plural-Forms") = x → props'.lookup (c!"Plural-Forms") = x' →
            Each (UnitRel R) us us' ∧ e = e' ∧ hdr.notes = hdr'.notes ∧ hdr.comments = hdr'.comments := by
          intro x x' hx hx'
          rw [hx] at hq
          rw [hx'] at hq'
          cases x with
          | none =>
            cases x' with
            | none => exact fin hq hq' fun _ => ⟨(hd _).1, (hd _).2, hv.notes, hv.comments⟩
            | some s' =>
              simp only at hq hq'
              by_cases hs' : s'.isEmpty = true
              · rw [if_pos hs'] at hq'
                exact fin hq hq' fun hc => by rw [hx, hx'] at hc; cases hc
              · rw [if_neg hs'] at hq'
                cases hf' : PluralForms.parse env s' with
                | error e => rw [hf'] at hq'; exact (hno hq' hy').elim
                | ok f' => rw [hf'] at hq'; exact fin hq hq' fun hc => by rw [hx, hx'] at hc; cases hc
          | some s =>
            simp only at hq
            by_cases hss : s.isEmpty = true
            · rw [if_pos hss] at hq
              cases x' with
              | none => exact fin hq hq' fun hc => by rw [hx, hx'] at hc; cases hc
              | some s' =>
                simp only at hq'
                by_cases hs' : s'.isEmpty = true
                · rw [if_pos hs'] at hq'
                  exact fin hq hq' fun _ => ⟨(hd _).1, (hd _).2, hv.notes, hv.comments⟩
                · rw [if_neg hs'] at hq'
                  cases hf' : PluralForms.parse env s' with
                  | error e => rw [hf'] at hq'; exact (hno hq' hy').elim
                  | ok f' => rw [hf'] at hq'; exact fin hq hq' fun hc => by rw [hx, hx'] at hc; cases hc; exact absurd hss hs'
            · rw [if_neg hss] at hq
              cases hf : PluralForms.parse env s with
              | error e => rw [hf] at hq; exact (hno hq hy).elim
              | ok f =>
                rw [hf] at hq
                cases x' with
                | none => exact fin hq hq' fun hc => by rw [hx, hx'] at hc; cases hc
                | some s' =>
                  simp only at hq'
                  by_cases hs' : s'.isEmpty = true
                  · rw [if_pos hs'] at hq'
                    exact fin hq hq' fun hc => by rw [hx, hx'] at hc; cases hc; exact absurd hs' hss
                  · rw [if_neg hs'] at hq'
                    cases hf' : PluralForms.parse env s' with
                    | error e => rw [hf'] at hq'; exact (hno hq' hy').elim
                    | ok f' =>
                      rw [hf'] at hq'
                      refine fin hq hq' fun hc => ?_
                      rw [hx, hx'] at hc
                      cases hc
                      rw [hf] at hf'
                      cases hf'
                      exact ⟨(hd _).1, (hd _).2, hv.notes, hv.comments⟩
        exact go _ _ rfl rfl
      · rw [if_neg hem] at hq
        rw [if_neg (by rw [← messageRel_empty hR hv.message]; exact hem)] at hq'
        exact fin hq hq' fun _ => ⟨.cons (hv.full (by simpa using hem)) (hd _).1, (hd _).2, rfl, rfl⟩

/-- **C64** If `parse()` fails on one of the inputs, but not because of its `Plural-Forms` property, it fails with the same error on the other. -/
theorem C64_fails {R : Str → Str → Str → Prop} (hR : TextRel R) {env : Env} {stream stream' : List Event} {e : Err}
    (h : Retexted R [] (rawLines (flatten stream)) (rawLines (flatten stream'))) (hf : Fails (parse env stream) e)
    (h1 : ∀ msg, e ≠ .pluralForms msg) (h2 : ∀ msg, e ≠ .unexpected 0 msg) : Fails (parse env stream') e := by
  have hi : SomeText R (streamItems stream) (streamItems stream') :=
    ⟨_, retexted_items h (fun _ hs => rawLines_no_nl hs) (fun _ hs => rawLines_no_nl hs) ((stream_items stream _).mpr rfl) ((stream_items stream' _).mpr rfl)⟩
  have hq := parse_stream env stream
  have hq' := parse_stream env stream'
  obtain ⟨k1, _⟩ := text_entry hR none true hi
  cases hr : readAll env (streamItems stream) with
  | ok res =>
    rw [hr] at hq
    have := hq 0
    rw [show parse env stream = .err e from hf] at this
    simp [observe, Out.bind] at this
  | error e0 =>
    rw [hr] at hq
    have : (Out.err e0 : Out (Reader Peekable env.Lang)) = .err e := hq.symm.trans hf
    cases this
    clear hq
    unfold readAll at hr hq'
    rcases e1 : entry none true (streamItems stream) with ⟨o, r⟩
    rcases e2 : entry none true (streamItems stream') with ⟨o', r'⟩
    rw [e1] at hr
    rw [e2] at hq'
    rw [e1, e2] at k1
    simp only at k1 hr hq'
    cases k1 with
    | err h => cases hr; cases h; exact hq'
    | panic => cases hr
    | ok hv =>
      cases hv with
      | none => cases hr
      | @some u u' hv =>
        simp only at hr
        by_cases hem : u.message.isEmpty = true
        · rw [if_pos hem] at hr
          unfold headerData at hr
          generalize (headerProps u.message.getText).foldl (fun m kv => insertKV m kv.1 kv.2) [] = props at hr
          simp only at hr
          cases hx : props.lookup (c!"Plural-Forms") with
          | none => rw [hx] at hr; cases hr
          | some s =>
            rw [hx] at hr
            simp only at hr
            by_cases hs : s.isEmpty = true
            · rw [if_pos hs] at hr; cases hr
            · rw [if_neg hs] at hr
              cases hp : PluralForms.parse env s with
              | ok f => rw [hp] at hr; cases hr
              | error e3 =>
                rw [hp] at hr
                cases hr
                rcases forms_error (formsError_iff.mp hp) with ⟨msg, hm⟩ | ⟨msg, hm⟩
                · exact absurd hm (h2 msg)
                · exact absurd hm (h1 msg)
        · rw [if_neg hem] at hr
          cases hr

/-- **C64** With the same header, followed by lines that differ only in quoted texts as above, everything is the same except for the texts. -/
theorem C64_headed {R : Str → Str → Str → Prop} (hR : TextRel R) (env : Env) {stream stream' : List Event} {hd rs rs' : List (Except IoErr Str)}
    (h : rawLines (flatten stream) = hd ++ rs) (h' : rawLines (flatten stream') = hd ++ rs') (hh : HeaderLines hd) (hc : NoContinuation rs)
    (hrs : Retexted R [] rs rs') : Correspond SameHeader (UnitRel R) Eq (parse env stream) (parse env stream') := by
  have hn : ∀ s, .ok s ∈ hd ++ rs → '\n' ∉ s := by rw [← h]; exact fun _ hs => rawLines_no_nl hs
  have hn' : ∀ s, .ok s ∈ hd ++ rs' → '\n' ∉ s := by rw [← h']; exact fun _ hs => rawLines_no_nl hs
  obtain ⟨block, u, t, h1, h2, h3⟩ := hh
  have h1 := h1.unique (fun s hs => hn s (by simp [hs])) (items_lineItems (fun s hs => hn s (by simp [hs])) 1)
  have hi : ∀ {stream : List Event} {rs : List (Except IoErr Str)}, rawLines (flatten stream) = hd ++ rs →
      streamItems stream = block.map .ok ++ items (1 + hd.length) rs := by
    intro stream rs h
    rw [streamItems_code, h, items_append, ← h1]
    rw [← h1]
    simp
  have hc := fun m p s tl => hc (1 + hd.length) _ m p s tl (items_lineItems (fun s hs => hn s (by simp [hs])) _)
  have hb := items_noBlank (1 + hd.length) rs
  have hb' := items_noBlank (1 + hd.length) rs'
  have ht := retexted_items hrs (fun s hs => hn s (by simp [hs])) (fun s hs => hn' s (by simp [hs])) (items_lineItems (fun s hs => hn s (by simp [hs])) (1 + hd.length))
    (items_lineItems (fun s hs => hn' s (by simp [hs])) (1 + hd.length))
  have e1 := hi h
  have e2 := hi h'
  generalize items (1 + hd.length) rs = l at *
  generalize items (1 + hd.length) rs' = l' at *
  -- the header is found in both, or the line after it cannot be read in both
  have first : (∃ e, First (streamItems stream) (.fail e) ∧ First (streamItems stream') (.fail e)) ∨
      (First (streamItems stream) (.header u.notes u.comments (t.getD []) l) ∧ First (streamItems stream') (.header u.notes u.comments (t.getD []) l')) := by
    rw [e1, e2]
    have hk : ∀ n p k s tl, First (block.map .ok ++ .ok (.message n p k s) :: tl) (.header u.notes u.comments (t.getD []) (.ok (.message n p k s) :: tl)) := by
      intro n p k s tl
      refine .header h2 h3 ((ends_iff h2).mpr ⟨by simp [NoErr], ?_⟩)
      rintro ⟨p, hp⟩
      rw [h3] at hp
      cases hp
    cases ht with
    | nil => exact .inr ⟨.header h2 h3 (.inl rfl), .header h2 h3 (.inl rfl)⟩
    | error => exact .inl ⟨_, .unreadable (.inl (.inr (.inr ⟨u, h2⟩))), .unreadable (.inl (.inr (.inr ⟨u, h2⟩)))⟩
    | continuation => exact absurd rfl (hc _ _ _ _)
    | message => exact .inr ⟨hk _ _ _ _ _, hk _ _ _ _ _⟩
    | comment => exact .inr ⟨.header h2 h3 ((ends_iff h2).mpr ⟨by simp [NoErr], trivial⟩), .header h2 h3 ((ends_iff h2).mpr ⟨by simp [NoErr], trivial⟩)⟩
  rcases first with ⟨e, f, f'⟩ | ⟨f, f'⟩
  · exact .inl ⟨e, e, (rejects_iff _ _ _).mp (.first f), (rejects_iff _ _ _).mp (.first f'), rfl⟩
  · rcases parse_spec env stream with ⟨e, k1, k2⟩ | ⟨hdr, forms, us, e, k1, k2⟩
    · cases k2 with
      | first g => cases f.unique g
      | badForms g g2 g3 =>
        cases f.unique g
        exact .inl ⟨e, e, k1, (rejects_iff _ _ _).mp (.badForms f' g2 g3), rfl⟩
    · cases k2 with
      | nothing g => cases f.unique g
      | plain g => cases f.unique g
      | headed g g2 g3 g4 =>
        cases f.unique g
        obtain ⟨rfl, rfl⟩ := g4.unique (drain_run hb)
        obtain ⟨d1, d2⟩ := text_drain hR forms (l.length + 1) l l' (by omega) ⟨_, ht⟩
        obtain ⟨hdr', s1, s2⟩ := reads_yields (.headed f' g2 g3 (drain_run hb'))
        refine .inr ⟨_, _, _, _, _, _, k1, s2, ⟨s1.notes.symm, s1.comments.symm, fun k => (s1.properties k).symm, s1.language.symm⟩, d1, ?_⟩
        rw [d2]
        cases (drain forms l').2 with
        | none => exact .none
        | some e => exact .some rfl

/-! ### Translations -/

theorem retranslated_rel : TextRel Retranslated where
  append := by
    rintro k a a' b b' (rfl | ⟨h1, h2⟩) (rfl | ⟨h3, h4⟩)
    · exact .inl rfl
    · exact .inr ⟨h3, by simp [h4]⟩
    · exact .inr ⟨h1, by simp [h2]⟩
    · exact .inr ⟨h1, by simp [h2, h4]⟩
  empty := by
    rintro k a a' (rfl | ⟨h1, h2⟩)
    · exact Iff.rfl
    · exact h2

theorem retranslated_eq {k a a' : Str} (h : Retranslated k a a') (hk : ¬ IsTextKeyword k) : a = a' := by
  rcases h with h | ⟨h, _⟩
  · exact h
  · exact absurd h hk

theorem source_keywords : ¬ IsTextKeyword (c!"msgctxt") ∧ ¬ IsTextKeyword (c!"|msgctxt") ∧ ¬ IsTextKeyword (c!"msgid") ∧ ¬ IsTextKeyword (c!"|msgid") ∧
    ¬ IsTextKeyword (c!"msgid_plural") ∧ ¬ IsTextKeyword (c!"|msgid_plural") := by
  refine ⟨?_, ?_, ?_, ?_, ?_, ?_⟩ <;> rintro (h | ⟨i, h⟩) <;> revert h <;> simp [valueKeyword]

theorem both_eq {k : Str} (hk : ¬ IsTextKeyword k) {a a' : Option Str} (h : Both (Retranslated k) a a') : a = a' := by
  cases h with
  | none => rfl
  | some h => rw [retranslated_eq h hk]

theorem retranslated_unit {u u' : PoUnit} (h : UnitRel Retranslated u u') : SameSource u.message u'.message ∧ u' = { u with message := u'.message } := by
  obtain ⟨k1, k2, k3, k4, k5, k6⟩ := source_keywords
  constructor
  · have hm := h.message
    generalize u.message = m at hm
    generalize u'.message = m' at hm
    cases hm with
    | simple ha ht =>
      cases retranslated_eq ha k3
      refine .simple ?_
      cases ht <;> simp
    | plural ha hb hv =>
      cases retranslated_eq ha k3
      cases retranslated_eq hb k5
      exact .plural (hv.imp fun a b ⟨_, hr⟩ => retranslated_rel.empty hr)
  · have hq : u.prevMessage = u'.prevMessage := by
      have hm := h.prevMessage
      generalize u.prevMessage = m at hm
      generalize u'.prevMessage = m' at hm
      cases hm with
      | none => rfl
      | simple ha => rw [retranslated_eq ha k4]
      | plural ha hb => rw [retranslated_eq ha k4, retranslated_eq hb k6]
    obtain ⟨h1, h2, _, _, h5, h6, h7, h8, h9, h10⟩ := h
    have h1 := both_eq k1 h1
    have h2 := both_eq k2 h2
    cases u
    cases u'
    simp only at *
    subst h1 h2 h5 h6 h7 h8 h9 h10 hq
    rfl

/-- **C64** Changing translations: with the same header, if the lines after it differ only in the texts of `msgstr` and `msgstr[i]` fields, where empty texts
stay empty and others not empty, then the units differ only in the texts of their translations; the header data and the error are the same. -/
theorem C64_translations (env : Env) {stream stream' : List Event} {hd rs rs' : List (Except IoErr Str)}
    (h : rawLines (flatten stream) = hd ++ rs) (h' : rawLines (flatten stream') = hd ++ rs') (hh : HeaderLines hd) (hc : NoContinuation rs)
    (hrs : Retexted Retranslated [] rs rs') :
    Correspond SameHeader (fun u u' => SameSource u.message u'.message ∧ u' = { u with message := u'.message }) Eq (parse env stream) (parse env stream') :=
  correspond_imp (fun _ _ => retranslated_unit) (C64_headed retranslated_rel env h h' hh hc hrs)

/-! ### Characters -/

theorem replaced_rel (f : Char → Char) : TextRel (Replaced f) where
  append := by rintro k a a' b b' rfl rfl; simp [Replaced]
  empty := by rintro k a a' rfl; simp

theorem replaced_both {f : Char → Char} {k : Str} {a a' : Option Str} (h : Both (Replaced f k) a a') : a' = a.map (List.map f) := by
  cases h with
  | none => rfl
  | some h => cases h; rfl

theorem replaced_unit {f : Char → Char} {u u' : PoUnit} (h : UnitRel (Replaced f) u u') : u' = replaceUnit f u := by
  have hm : u'.message = replaceMessage f u.message := by
    have hm := h.message
    generalize u.message = m at hm
    generalize u'.message = m' at hm
    cases hm with
    | simple ha ht =>
      cases ha
      rw [replaced_both ht]
      rfl
    | plural ha hb hv =>
      cases ha
      cases hb
      rename_i vs vs' forms
      have : vs' = vs.map (List.map f) := by
        induction hv with
        | nil => rfl
        | cons h _ ih => obtain ⟨_, rfl⟩ := h; rw [ih]; rfl
      rw [this]
      rfl
  have hq : u'.prevMessage = replaceMessage f u.prevMessage := by
    have hm := h.prevMessage
    generalize u.prevMessage = m at hm
    generalize u'.prevMessage = m' at hm
    cases hm with
    | none => rfl
    | simple ha => cases ha; rfl
    | plural ha hb => cases ha; cases hb; rfl
  obtain ⟨h1, h2, _, _, h5, h6, h7, h8, h9, h10⟩ := h
  have h1 := replaced_both h1
  have h2 := replaced_both h2
  cases u
  cases u'
  simp only at *
  subst h1 h2 h5 h6 h7 h8 h9 h10 hq hm
  rfl

/-- **C64** Replacing characters: with the same header, if every character of the quoted texts after it is replaced (by `f`, the same one everywhere), then
every character of the texts of the units is replaced, and nothing else changes. -/
theorem C64_characters (f : Char → Char) (env : Env) {stream stream' : List Event} {hd rs rs' : List (Except IoErr Str)}
    (h : rawLines (flatten stream) = hd ++ rs) (h' : rawLines (flatten stream') = hd ++ rs') (hh : HeaderLines hd) (hc : NoContinuation rs)
    (hrs : Retexted (Replaced f) [] rs rs') :
    Correspond SameHeader (fun u u' => u' = replaceUnit f u) Eq (parse env stream) (parse env stream') :=
  correspond_imp (fun _ _ => replaced_unit) (C64_headed (replaced_rel f) env h h' hh hc hrs)

/-! ### Concrete cases -/

theorem quoted_spaces (m : Option Str) (k : Option Str) (raw line : Str) (a b : Nat) (h1 : ∀ m', m = some m' → IsMarker m') (h2 : ∀ k', k = some k' → IsKeyword k')
    (h3 : line = markerText m ++ (List.replicate a ' ' ++ (k.getD [] ++ (List.replicate b ' ' ++ '"' :: (raw ++ ['"']))))) : QuotedLine line m k raw := by
  have hw : ∀ n, White (List.replicate n ' ') := by intro n c hc; rw [List.eq_of_mem_replicate hc]; decide
  exact ⟨h1, h2, [], _, _, [], by decide, hw a, hw b, by decide, by rw [h3]; simp⟩

theorem not_quoted {s : Str} (hn : '\n' ∉ s) (h : (match Verif.parseLine s 0 with | some (.message ..) | some (.continuation ..) => true | _ => false) = false) :
    ∀ m k raw, ¬ QuotedLine s m k raw := by
  intro m k raw hq
  cases k with
  | none => rw [(C06_line_classification s 0 hn _).mpr (.continuation hq)] at h; cases h
  | some k => rw [(C06_line_classification s 0 hn _).mpr (.keyword hq)] at h; cases h

theorem noContinuation_head {s : Str} {rs : List (Except IoErr Str)} (hn : '\n' ∉ s)
    (h : (match Verif.parseLine s 0 with | some (.comment ..) => true | _ => false) = true) : NoContinuation (.ok s :: rs) := by
  intro n l m p t tl hl
  cases hx : Verif.parseLine s 0 with
  | none => rw [hx] at h; cases h
  | some x =>
    rw [hx] at h
    cases x with
    | comment n' p' k' =>
      have h0 := classified_renumber ((C06_line_classification s 0 hn _).mp hx) n
      rintro rfl
      cases hl with
      | blank h => have := classified_unique hn h h0; cases this
      | line h => have := classified_unique hn h h0; cases this
    | _ => cases h

/-- The lines of two entries, the second with plural forms, with the texts `a` … `g`. -/
def twoEntries (a b c d e f g : Str) : List Str :=
  [c!"#, fuzzy", c!"#| msgid \"" ++ a ++ c!"\"", c!"msgid \"" ++ b ++ c!"\"", c!"msgstr \"\"", c!"\"" ++ c ++ c!"\"", [], c!"msgid \"" ++ d ++ c!"\"",
   c!"msgid_plural \"" ++ e ++ c!"\"", c!"msgstr[0] \"" ++ f ++ c!"\"", c!"msgstr[1] \"" ++ g ++ c!"\""]

theorem twoEntries_retexted {R : Str → Str → Str → Prop} {a b c d e f g a' b' c' d' e' f' g' : Str} (h0 : ∀ k, R k [] []) (ha : R (c!"|msgid") (unesc a) (unesc a'))
    (hb : R (c!"msgid") (unesc b) (unesc b')) (hc : R (c!"msgstr") (unesc c) (unesc c')) (hd : R (c!"msgid") (unesc d) (unesc d'))
    (he : R (c!"msgid_plural") (unesc e) (unesc e')) (hf : R (c!"msgstr[0]") (unesc f) (unesc f')) (hg : R (c!"msgstr[1]") (unesc g) (unesc g')) :
    Retexted R [] ((twoEntries a b c d e f g).map .ok) ((twoEntries a' b' c' d' e' f' g').map .ok) := by
  have kv : ∀ {k : Str}, k ∈ [c!"msgid", c!"msgstr", c!"msgid_plural", c!"msgstr[0]", c!"msgstr[1]"] → ∀ k', some k = some k' → IsKeyword k' := by
    intro k hk k' h
    cases h
    revert hk
    simp only [List.mem_cons, List.not_mem_nil, or_false]
    rintro (rfl | rfl | rfl | rfl | rfl)
    · simp [IsKeyword]
    · simp [IsKeyword]
    · simp [IsKeyword]
    · exact .inr (.inr (.inr (.inr ⟨['0'], .inl rfl, rfl⟩)))
    · exact .inr (.inr (.inr (.inr ⟨['1'], .inr ⟨'1', [], rfl, by decide, by simp⟩, rfl⟩)))
  refine .line (not_quoted (by decide) rfl) ?_
  refine .keyword (m := some ['|']) (kw := c!"msgid") (quoted_spaces _ _ a _ 1 1 (by simp [IsMarker]) (kv (by simp)) rfl)
    (quoted_spaces _ _ a' _ 1 1 (by simp [IsMarker]) (kv (by simp)) rfl) ha ?_
  refine .keyword (m := none) (kw := c!"msgid") (quoted_spaces _ _ b _ 0 1 (by simp) (kv (by simp)) rfl) (quoted_spaces _ _ b' _ 0 1 (by simp) (kv (by simp)) rfl) hb ?_
  refine .keyword (m := none) (kw := c!"msgstr") (quoted_spaces _ _ [] _ 0 1 (by simp) (kv (by simp)) rfl) (quoted_spaces _ _ [] _ 0 1 (by simp) (kv (by simp)) rfl) (h0 _) ?_
  refine .continuation (m := none) (quoted_spaces _ _ c _ 0 0 (by simp) (by simp) rfl) (quoted_spaces _ _ c' _ 0 0 (by simp) (by simp) rfl) hc ?_
  refine .line (not_quoted (by decide) rfl) ?_
  refine .keyword (m := none) (kw := c!"msgid") (quoted_spaces _ _ d _ 0 1 (by simp) (kv (by simp)) rfl) (quoted_spaces _ _ d' _ 0 1 (by simp) (kv (by simp)) rfl) hd ?_
  refine .keyword (m := none) (kw := c!"msgid_plural") (quoted_spaces _ _ e _ 0 1 (by simp) (kv (by simp)) rfl) (quoted_spaces _ _ e' _ 0 1 (by simp) (kv (by simp)) rfl) he ?_
  refine .keyword (m := none) (kw := c!"msgstr[0]") (quoted_spaces _ _ f _ 0 1 (by simp) (kv (by simp)) rfl) (quoted_spaces _ _ f' _ 0 1 (by simp) (kv (by simp)) rfl) hf ?_
  exact .keyword (m := none) (kw := c!"msgstr[1]") (quoted_spaces _ _ g _ 0 1 (by simp) (kv (by simp)) rfl) (quoted_spaces _ _ g' _ 0 1 (by simp) (kv (by simp)) rfl) hg .nil

/-- A header that gives two plural forms. -/
def twoForms : Str := c!"Plural-Forms: nplurals=2; plural=n!=1;"

-- a catalogue and the same catalogue with other translations
example : Correspond SameHeader (fun u u' => SameSource u.message u'.message ∧ u' = { u with message := u'.message }) Eq
    (parse demoEnv (textStream (headLines twoForms ++ twoEntries (c!"o") (c!"hi") (c!"salut") (c!"a") (c!"b") (c!"c") [])))
    (parse demoEnv (textStream (headLines twoForms ++ twoEntries (c!"o") (c!"hi") (c!"hallo\\n") (c!"a") (c!"b") (c!"xyz") []))) := by
  refine C64_translations demoEnv (hd := (headLines twoForms).map .ok) (rs := (twoEntries _ _ _ _ _ _ _).map .ok) (rs' := (twoEntries _ _ _ _ _ _ _).map .ok)
    (by rw [rawLines_text (by decide)]; rfl) (by rw [rawLines_text (by decide)]; rfl) (headerLines_demo _) ?_
    (twoEntries_retexted (fun _ => .inl rfl) (.inl rfl) (.inl rfl) (.inr ⟨.inl rfl, by decide⟩) (.inl rfl) (.inl rfl) (.inr ⟨.inr ⟨0, rfl⟩, by decide⟩) (.inl rfl))
  exact noContinuation_head (by decide) rfl

set_option maxRecDepth 100000 in
-- what the second gives
example : Yields (parse demoEnv (textStream (headLines twoForms ++ twoEntries (c!"o") (c!"hi") (c!"hallo\\n") (c!"a") (c!"b") (c!"xyz") [])))
    ⟨[], [], [(c!"Plural-Forms", c!"nplurals=2; plural=n!=1;")], []⟩
    (results [{ unitAB (c!"hi") (c!"hallo\n") with prevMessage := .simple (c!"o") none, flags := [c!"fuzzy"], state := .needsWork },
      { PoUnit.default with message := .plural ⟨c!"a", c!"b", [c!"xyz", []], some ⟨.binop .ne .var (.num 1), 2, c!"nplurals=2; plural=n!=1;", c!"n!=1"⟩⟩, state := .final }]
      none) :=
  yields_text (env := demoEnv) (res := ⟨⟨[], [], [(c!"Plural-Forms", c!"nplurals=2; plural=n!=1;")], []⟩, _, [_, _], none⟩) (by decide) (by rfl)

-- the same catalogue with the letters of its texts changed
example : Correspond SameHeader (fun u u' => u' = replaceUnit Char.toUpper u) Eq
    (parse demoEnv (textStream (headLines twoForms ++ twoEntries (c!"o") (c!"hi") (c!"salut\\n") (c!"a") (c!"b") (c!"c") [])))
    (parse demoEnv (textStream (headLines twoForms ++ twoEntries (c!"O") (c!"HI") (c!"SALUT\\n") (c!"A") (c!"B") (c!"C") []))) := by
  refine C64_characters Char.toUpper demoEnv (hd := (headLines twoForms).map .ok) (rs := (twoEntries _ _ _ _ _ _ _).map .ok) (rs' := (twoEntries _ _ _ _ _ _ _).map .ok)
    (by rw [rawLines_text (by decide)]; rfl) (by rw [rawLines_text (by decide)]; rfl) (headerLines_demo _) (noContinuation_head (by decide) rfl) ?_
  refine twoEntries_retexted ?_ ?_ ?_ ?_ ?_ ?_ ?_ ?_ <;> first | exact rfl | exact fun _ => rfl

-- without a header: the texts may be replaced by any others that are empty exactly when they are
example : ∀ hdr hdr' us us' e e', Yields (parse demoEnv (textStream (twoEntries (c!"o") (c!"hi") (c!"salut") (c!"a") (c!"b") (c!"c") []))) hdr (results us e) →
    Yields (parse demoEnv (textStream (twoEntries (c!"p") (c!"q") (c!"r") (c!"s") (c!"t") (c!"u") []))) hdr' (results us' e') →
    hdr.properties.lookup (c!"Plural-Forms") = hdr'.properties.lookup (c!"Plural-Forms") →
    Each (UnitRel fun _ a a' => a = [] ↔ a' = []) us us' ∧ e = e' ∧ hdr.notes = hdr'.notes ∧ hdr.comments = hdr'.comments := by
  intro hdr hdr' us us' e e' h h' hp
  refine C64_texts ⟨?_, id⟩ ?_ h h' hp
  · intro k a a' b b' h1 h2
    simp [h1, h2]
  · rw [rawLines_text (by decide), rawLines_text (by decide)]
    refine twoEntries_retexted ?_ ?_ ?_ ?_ ?_ ?_ ?_ ?_ <;> first | decide | exact fun _ => Iff.rfl

-- `msgid` followed by `msgid` gives the same error whatever the texts
example : Fails (parse demoEnv (textStream [c!"msgid \"xyz\"", c!"msgid \"b\""])) (.parse 2 [] (c!"msgstr")) := by
  refine C64_fails (R := fun _ a a' => a = [] ↔ a' = []) ⟨?_, id⟩ (stream := textStream [c!"msgid \"a\"", c!"msgid \"c\""]) ?_
    (fails_text (env := demoEnv) (by decide) (by rfl)) (by simp) (by simp)
  · intro k a a' b b' h1 h2
    simp [h1, h2]
  · rw [rawLines_text (by decide), rawLines_text (by decide)]
    refine .keyword (m := none) (kw := c!"msgid") (quoted_spaces _ _ (c!"a") _ 0 1 (by simp) (by simp [IsKeyword]) rfl)
      (quoted_spaces _ _ (c!"xyz") _ 0 1 (by simp) (by simp [IsKeyword]) rfl) (by decide) ?_
    exact .keyword (m := none) (kw := c!"msgid") (quoted_spaces _ _ (c!"c") _ 0 1 (by simp) (by simp [IsKeyword]) rfl)
      (quoted_spaces _ _ (c!"b") _ 0 1 (by simp) (by simp [IsKeyword]) rfl) (by decide) .nil

end Verif
