import Verif.Spec.Front
import Verif.Props.Select

/-! C99: what `parse()` returns depends on the header and the line after it only. -/

namespace Verif
open Spec

theorem front_header {stream : List Event} {hd rs : List (Except IoErr Str)} (h : rawLines (flatten stream) = hd ++ rs) (hh : HeaderLines hd)
    (hc : NoContinuation rs) (hs : ReadableStart rs) : ∃ (block : List PoLine) (u : PoUnit) (t : Option Str) (rest : List Item), items 1 hd = block.map .ok ∧
      Entry none block u ∧ u.message = .simple [] t ∧ First (streamItems stream) (.header u.notes u.comments (t.getD []) rest) := by
  have hn : ∀ s, .ok s ∈ hd ++ rs → '\n' ∉ s := by rw [← h]; exact fun _ hs => rawLines_no_nl hs
  obtain ⟨block, u, t, h1, h2, h3, hf | ⟨h4, hf⟩⟩ := first_block h hh hc
  · obtain ⟨e, hf⟩ := hf
    exfalso
    have hi : streamItems stream = block.map .ok ++ items (1 + hd.length) rs := by rw [streamItems_code, h, items_append (by rw [h1]; simp), h1]
    have hl := items_lineItems (fun s hs => hn s (by simp [hs])) (1 + hd.length) (rs := rs)
    have he : EndsHere none block (items (1 + hd.length) rs) := by
      generalize items (1 + hd.length) rs = l at *
      rcases l with _ | ⟨e | ln, tl⟩
      · exact .inl rfl
      · exact absurd rfl (hs _ _ e tl hl)
      · refine (ends_iff h2).mpr ⟨by simp [NoErr], ?_⟩
        cases ln with
        | continuation m p s => exact absurd rfl (hc _ _ m p s tl hl)
        | message n p k s => rintro ⟨p, hp⟩; rw [h3] at hp; cases hp
        | comment => trivial
        | blank => trivial
    rw [hi] at hf
    cases hf.unique (.header h2 h3 he)
  · exact ⟨block, u, t, _, h1, h2, h3, hf⟩

/-- **C99** Two inputs with the same header, each ending there or going on with a line that can be read and is no continuation line: `parse()` fails on both with the same
error, or gives a reader for both, with the same header data. -/
theorem C99_depends {env : Env} {stream stream' : List Event} {hd rs rs' : List (Except IoErr Str)}
    (h : rawLines (flatten stream) = hd ++ rs) (h' : rawLines (flatten stream') = hd ++ rs') (hh : HeaderLines hd) (hc : NoContinuation rs) (hc' : NoContinuation rs')
    (hs : ReadableStart rs) (hs' : ReadableStart rs') :
    (∃ e, Fails (parse env stream) e ∧ Fails (parse env stream') e) ∨
      ∃ hdr hdr' xs xs', Yields (parse env stream) hdr xs ∧ Yields (parse env stream') hdr' xs' ∧ SameHeader hdr hdr' := by
  obtain ⟨b1, u1, t1, l1, i1, g1, m1, f1⟩ := front_header h hh hc hs
  obtain ⟨b2, u2, t2, l2, i2, g2, m2, f2⟩ := front_header h' hh hc' hs'
  cases map_ok_inj (i1.symm.trans i2)
  cases g1.unique g2
  cases m1.symm.trans m2
  rcases parse_spec env stream with ⟨e, p1, p2⟩ | ⟨hdr, forms, us, e, p1, p2⟩ <;> rcases parse_spec env stream' with ⟨e', q1, q2⟩ | ⟨hdr', forms', us', e', q1, q2⟩
  · left
    cases p2 with
    | first f => cases f1.unique f
    | badForms f r1 r2 =>
      cases f1.unique f
      have := (rejects_iff env stream' e).mp (.badForms f2 r1 r2)
      exact ⟨e, p1, this⟩
  · exfalso
    cases p2 with
    | first f => cases f1.unique f
    | badForms f r1 r2 => cases f1.unique f; exact not_rejects_reads (.badForms f2 r1 r2) q2
  · exfalso
    cases q2 with
    | first f => cases f2.unique f
    | badForms f r1 r2 => cases f2.unique f; exact not_rejects_reads (.badForms f1 r1 r2) p2
  · right
    refine ⟨hdr, hdr', _, _, p1, q1, ?_⟩
    cases p2 with
    | nothing f => cases f1.unique f
    | plain f => cases f1.unique f
    | headed f r1 =>
      cases f1.unique f
      cases q2 with
      | nothing f => cases f2.unique f
      | plain f => cases f2.unique f
      | headed f s1 => cases f2.unique f; exact headerRule_unique r1 s1

/-- **C99** If the line after the header cannot be read or is not recognised, `parse()` fails with its error, whatever the header is. -/
theorem C99_unreadable {env : Env} {stream : List Event} {hd rs : List (Except IoErr Str)} {e : Err} {tl : List Item}
    (h : rawLines (flatten stream) = hd ++ rs) (hh : HeaderLines hd) (hr : LineItems (1 + hd.length) rs (.error e :: tl)) : Fails (parse env stream) e := by
  have hn : ∀ s, .ok s ∈ hd ++ rs → '\n' ∉ s := by rw [← h]; exact fun _ hs => rawLines_no_nl hs
  have hl := items_lineItems (fun s hs => hn s (by simp [hs])) (1 + hd.length) (rs := rs)
  obtain ⟨block, u, t, h1, h2, h3⟩ := hh
  have h1 := h1.unique (fun s hs => hn s (by simp [hs])) (items_lineItems (fun s hs => hn s (by simp [hs])) 1)
  refine (rejects_iff env stream e).mp (.first ?_)
  rw [streamItems_code, h, items_append (by rw [← h1]; simp), ← h1, ← hr.unique (fun s hs => hn s (by simp [hs])) hl]
  exact .unreadable (.inl (.inr (.inr ⟨u, h2⟩)))

/-! Examples. -/

theorem readableStart_head {s : Str} {rs : List (Except IoErr Str)} {c : Char} {t : Str} (hn : '\n' ∉ s) (h : items 1 [.ok s] = [.ok (.comment 1 c t)]) :
    ReadableStart (.ok s :: rs) := by
  intro n l e tl hl he
  subst he
  obtain ⟨_, _, hc⟩ := comment_again (commentLine_text hn h) n
  cases hl with
  | unrecognised hu => cases classified_unique hn hu hc
  | blank hb _ => cases classified_unique hn hb hc

-- `C99_depends`: an error after the first entry does not matter for `parse()`
example : (∃ e, Fails (parse demoEnv (textStream (headLines (c!"X: y") ++ lessEntry))) e ∧ Fails (parse demoEnv (textStream (headLines (c!"X: y") ++ moreEntry))) e) ∨
    ∃ hdr hdr' xs xs', Yields (parse demoEnv (textStream (headLines (c!"X: y") ++ lessEntry))) hdr xs ∧
      Yields (parse demoEnv (textStream (headLines (c!"X: y") ++ moreEntry))) hdr' xs' ∧ SameHeader hdr hdr' :=
  C99_depends (hd := (headLines (c!"X: y")).map .ok) (rs := lessEntry.map .ok) (rs' := moreEntry.map .ok) (by rw [rawLines_text (by decide)]; rfl)
    (by rw [rawLines_text (by decide)]; rfl) (headerLines_demo _) (noContinuation_head (by decide) rfl) (noContinuation_head (by decide) rfl)
    (readableStart_head (by decide) rfl) (readableStart_head (by decide) rfl)

-- `C99_unreadable`
example : Fails (parse demoEnv (textStream (headLines (c!"X: y") ++ [c!"?", c!"msgid \"a\""]))) (.parse 4 (c!"?") []) := by
  have hl := items_lineItems (rs := [c!"?", c!"msgid \"a\""].map .ok) (by simp) 3
  refine C99_unreadable (hd := (headLines (c!"X: y")).map .ok) (rs := [c!"?", c!"msgid \"a\""].map .ok) (tl := [])
    (by rw [rawLines_text (by decide)]; rfl) (headerLines_demo _) ?_
  exact hl

end Verif
