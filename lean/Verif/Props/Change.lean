import Verif.Lemmas.Obsolete
import Verif.Props.Resume

/-! C52–C55: what a change of the input changes in the results. -/

namespace Verif
open Spec

theorem Spec.Each.imp {α : Type} {R Q : α → α → Prop} (h : ∀ a b, R a b → Q a b) {l l' : List α} (hl : Each R l l') : Each Q l l' := by
  induction hl with
  | nil => exact .nil
  | cons h' _ ih => exact .cons (h _ _ h') ih

theorem correspond_imp {σ σ' L : Type} [Src σ] [Src σ'] {H : Header L → Header L → Prop} {U U' : PoUnit → PoUnit → Prop} {E : Err → Err → Prop}
    {r : Out (Reader σ L)} {r' : Out (Reader σ' L)} (h : ∀ u u', U u u' → U' u u') (hc : Correspond H U E r r') : Correspond H U' E r r' := by
  rcases hc with h1 | ⟨a, b, c, d, e, f, h1, h2, h3, h4, h5⟩
  · exact .inl h1
  · exact .inr ⟨a, b, c, d, e, f, h1, h2, h3, h4.imp h, h5⟩

/-- **C52** Comments influence only what comes from comments: replacing comment lines by other comment lines, anywhere, and adding or removing comment
lines at the beginning, changes neither the number of units, nor their fields, nor the header properties and the language, nor the error up to line number
and shown comment kind. -/
theorem C52_comments (env : Env) {stream stream' : List Event} (h : Recommented true (rawLines (flatten stream)) (rawLines (flatten stream'))) :
    Correspond SameProperties SameFields SameButComment (parse env stream) (parse env stream') := by
  have hi : commentChange.S₀ (streamItems stream) (streamItems stream') :=
    recommented_items h (fun _ hs => rawLines_no_nl hs) (fun _ hs => rawLines_no_nl hs) ((stream_items stream _).mpr rfl) ((stream_items stream' _).mpr rfl)
  have := corr_results commentChange env SameProperties ⟨rfl, rfl⟩ (fun _ _ _ _ _ => ⟨rfl, rfl⟩) (fun _ => .same rfl) hi
  exact correspond_imp (fun u u' h => ⟨h.context, h.prevContext, h.message, h.prevMessage, h.obsolete⟩) this

/-- **C53** Marking all keyword and continuation lines of an input without obsolete lines as obsolete gives the same header data and the same units, marked
obsolete, and the same error, except that it may show a marker. -/
theorem C53_obsolete (env : Env) {stream stream' : List Event} (h : Obsoleted (rawLines (flatten stream)) (rawLines (flatten stream'))) :
    Correspond Eq (fun u u' => u.obsolete = false ∧ u' = { u with obsolete := true }) SameButMarker (parse env stream) (parse env stream') := by
  have hi : markChange.S₀ (streamItems stream) (streamItems stream') :=
    obsoleted_items h (fun _ hs => rawLines_no_nl hs) (fun _ hs => rawLines_no_nl hs) ((stream_items stream _).mpr rfl) ((stream_items stream' _).mpr rfl)
  have := corr_results markChange env Eq rfl (fun u u' _ _ h => by rw [h.notes, h.comments]) (fun _ => .same) hi
  refine correspond_imp (fun u u' h => ⟨h.obsolete.1, ?_⟩) this
  obtain ⟨h1, h2, h3, h4, ⟨h5, h6, h7, h8, h9⟩, _, h10⟩ := h
  cases u
  cases u'
  simp only at *
  subst h1 h2 h3 h4 h5 h6 h7 h8 h9 h10
  rfl

/-! ### The header and the units -/

theorem first_block {stream : List Event} {hd rs : List (Except IoErr Str)} (h : rawLines (flatten stream) = hd ++ rs) (hh : HeaderLines hd)
    (hc : NoContinuation rs) : ∃ (block : List PoLine) (u : PoUnit) (t : Option Str), items 1 hd = block.map .ok ∧ Entry none block u ∧ u.message = .simple [] t ∧
      ((∃ e, First (streamItems stream) (.fail e)) ∨ EndsHere none block (items (1 + hd.length) rs) ∧
        First (streamItems stream) (.header u.notes u.comments (t.getD []) (items (1 + hd.length) rs))) := by
  have hn : ∀ s, .ok s ∈ hd ++ rs → '\n' ∉ s := by rw [← h]; exact fun _ hs => rawLines_no_nl hs
  obtain ⟨block, u, t, h1, h2, h3⟩ := hh
  have h1 := h1.unique (fun s hs => hn s (by simp [hs])) (items_lineItems (fun s hs => hn s (by simp [hs])) 1)
  have hi : streamItems stream = block.map .ok ++ items (1 + hd.length) rs := by
    rw [streamItems_code, h, items_append, ← h1]
    rw [← h1]
    simp
  refine ⟨block, u, t, h1.symm, h2, h3, ?_⟩
  rw [hi]
  have hc := fun m p s tl => hc (1 + hd.length) _ m p s tl (items_lineItems (fun s hs => hn s (by simp [hs])) _)
  have hb := items_noBlank (1 + hd.length) rs
  generalize items (1 + hd.length) rs = l at *
  have key : EndsHere none block l → EndsHere none block l ∧ First (block.map .ok ++ l) (.header u.notes u.comments (t.getD []) l) :=
    fun hx => ⟨hx, .header h2 h3 hx⟩
  rcases l with _ | ⟨e | ln, tl⟩
  · exact .inr (key (.inl rfl))
  · exact .inl ⟨e, .unreadable (.inl (.inr (.inr ⟨u, h2⟩)))⟩
  · refine .inr (key ((ends_iff h2).mpr ⟨by simp [NoErr], ?_⟩))
    cases ln with
    | continuation m p s => exact absurd rfl (hc m p s tl)
    | message n p k s =>
      rintro ⟨p, hp⟩
      rw [h3] at hp
      cases hp
    | comment => trivial
    | blank => trivial

theorem first_headerLines {stream : List Event} {hd rs : List (Except IoErr Str)} (h : rawLines (flatten stream) = hd ++ rs) (hh : HeaderLines hd)
    (hc : NoContinuation rs) : (∃ e, First (streamItems stream) (.fail e)) ∨
      ∃ ns cs t, First (streamItems stream) (.header ns cs t (items (1 + hd.length) rs)) := by
  obtain ⟨block, u, t, _, _, _, hf | ⟨_, hf⟩⟩ := first_block h hh hc
  · exact .inl hf
  · exact .inr ⟨_, _, _, hf⟩

/-- **C54** The units depend on the header only through its `Plural-Forms` property: two inputs that begin with headers with the same `Plural-Forms` (or
both without) and have the same lines after them yield the same units and then the same error, at the same place after the header. -/
theorem C54_header {env : Env} {stream stream' : List Event} {hd hd' rs : List (Except IoErr Str)} {hdr hdr' : Header env.Lang}
    {us us' : List PoUnit} {e e' : Option Err} (h : rawLines (flatten stream) = hd ++ rs) (h' : rawLines (flatten stream') = hd' ++ rs)
    (hh : HeaderLines hd) (hh' : HeaderLines hd') (hc : NoContinuation rs)
    (hy : Yields (parse env stream) hdr (results us e)) (hy' : Yields (parse env stream') hdr' (results us' e'))
    (hp : hdr.properties.lookup (c!"Plural-Forms") = hdr'.properties.lookup (c!"Plural-Forms")) :
    us = us' ∧ SameEndAfter hd.length hd'.length e e' := by
  have key : ∀ {stream : List Event} {hd : List (Except IoErr Str)} {hdr : Header env.Lang} {us : List PoUnit} {e : Option Err},
      rawLines (flatten stream) = hd ++ rs → HeaderLines hd → Yields (parse env stream) hdr (results us e) →
      ∃ forms, FormsRule env (hdr.properties.lookup (c!"Plural-Forms")) (.ok forms) ∧ Run forms (items (1 + hd.length) rs) us e := by
    intro stream hd hdr us e h hh hy
    obtain ⟨forms, us', e', hx, hr⟩ := yields_reads hy
    obtain ⟨rfl, rfl⟩ := results_inj hx
    rcases first_headerLines h hh hc with ⟨e0, hf⟩ | ⟨ns, cs, t, hf⟩
    · exact (not_rejects_reads (.first hf) hr).elim
    · cases hr with
      | nothing f => cases hf.unique f
      | plain f => cases hf.unique f
      | headed f _ hfr hrun =>
        cases hf.unique f
        exact ⟨_, hfr, hrun⟩
  obtain ⟨f, hf, hr⟩ := key h hh hy
  obtain ⟨f', hf', hr'⟩ := key h' hh' hy'
  rw [formsRule_iff] at hf hf'
  rw [hp, hf'] at hf
  cases hf
  obtain ⟨e2, hr2, hs⟩ := run_renumber (m := hd'.length) hr
  obtain ⟨rfl, rfl⟩ := hr2.unique hr'
  exact ⟨rfl, hs⟩

/-- **C54** If moreover no unit has a plural message, and reading ends without error, the header does not matter at all. -/
theorem C54_noPlural {env : Env} {stream stream' : List Event} {hd hd' rs : List (Except IoErr Str)} {hdr hdr' : Header env.Lang}
    {us us' : List PoUnit} {e' : Option Err} (h : rawLines (flatten stream) = hd ++ rs) (h' : rawLines (flatten stream') = hd' ++ rs)
    (hh : HeaderLines hd) (hh' : HeaderLines hd') (hc : NoContinuation rs)
    (hy : Yields (parse env stream) hdr (results us none)) (hy' : Yields (parse env stream') hdr' (results us' e'))
    (hp : ∀ u ∈ us, NoPlural u) : us = us' ∧ e' = none := by
  have key : ∀ {stream : List Event} {hd : List (Except IoErr Str)} {hdr : Header env.Lang} {us : List PoUnit} {e : Option Err},
      rawLines (flatten stream) = hd ++ rs → HeaderLines hd → Yields (parse env stream) hdr (results us e) →
      ∃ forms, Run forms (items (1 + hd.length) rs) us e := by
    intro stream hd hdr us e h hh hy
    obtain ⟨forms, us', e', hx, hr⟩ := yields_reads hy
    obtain ⟨rfl, rfl⟩ := results_inj hx
    rcases first_headerLines h hh hc with ⟨e0, hf⟩ | ⟨ns, cs, t, hf⟩
    · exact (not_rejects_reads (.first hf) hr).elim
    · cases hr with
      | nothing f => cases hf.unique f
      | plain f => cases hf.unique f
      | headed f _ hfr hrun =>
        cases hf.unique f
        exact ⟨_, hrun⟩
  obtain ⟨f, hr⟩ := key h hh hy
  obtain ⟨f', hr'⟩ := key h' hh' hy'
  obtain ⟨e2, hr2, hs⟩ := run_renumber (m := hd'.length) hr
  cases sameEndAfter_none hs
  obtain ⟨rfl, rfl⟩ := (run_forms (forms' := f') hr2 hp).unique hr'
  exact ⟨rfl, rfl⟩

/-- **C54** A header without `Plural-Forms` can be left out: an input that consists of the lines after such a header, and does not itself begin with a
header, yields the same units and then the same error, with the number of lines of the header subtracted. -/
theorem C54_drop {env : Env} {stream stream' : List Event} {hd rs : List (Except IoErr Str)} {hdr hdr' : Header env.Lang}
    {us us' : List PoUnit} {e e' : Option Err} (h : rawLines (flatten stream) = hd ++ rs) (h' : rawLines (flatten stream') = rs)
    (hh : HeaderLines hd) (hc : NoContinuation rs)
    (hy : Yields (parse env stream) hdr (results us e)) (hy' : Yields (parse env stream') hdr' (results us' e'))
    (hp : hdr.properties.lookup (c!"Plural-Forms") = none ∨ hdr.properties.lookup (c!"Plural-Forms") = some [])
    (hn : ∀ ns cs t rest, ¬ First (streamItems stream') (.header ns cs t rest)) :
    us = us' ∧ e = e'.map (later hd.length) := by
  obtain ⟨forms, us1, e1, hx, hr⟩ := yields_reads hy
  obtain ⟨rfl, rfl⟩ := results_inj hx
  obtain ⟨forms', us2, e2, hx', hr'⟩ := yields_reads hy'
  obtain ⟨rfl, rfl⟩ := results_inj hx'
  have hrun : Run none (items (1 + hd.length) rs) us e := by
    rcases first_headerLines h hh hc with ⟨e0, hf⟩ | ⟨ns, cs, t, hf⟩
    · exact (not_rejects_reads (.first hf) hr).elim
    · cases hr with
      | nothing f => cases hf.unique f
      | plain f => cases hf.unique f
      | headed f _ hfr hrun =>
        cases hf.unique f
        rcases hp with hp | hp <;> rw [hp] at hfr
        · cases hfr with | absent => exact hrun
        · cases hfr with
          | empty => exact hrun
          | given h0 => exact (h0 rfl).elim
  have hrun' : Run none (items 1 rs) us' e' := by
    rw [streamItems_code, h'] at hr' hn
    cases hr' with
    | nothing f => exact .stop (first_nothing f)
    | plain f hrun =>
      obtain ⟨block, hl, hb, hsrc, hend⟩ := first_unit f
      rw [hl]
      exact .entry hb hsrc hend hrun
    | headed f => exact (hn _ _ _ _ f).elim
  obtain ⟨e3, hr3, hs⟩ := run_renumber (m := 0) hrun
  obtain ⟨rfl, rfl⟩ := hr3.unique hrun'
  exact ⟨rfl, sameEndAfter_drop hs⟩

/-! ### The first line -/

theorem fails_first (env : Env) {stream : List Event} {e : Err} {tl : List Item} (h : streamItems stream = .error e :: tl) : Fails (parse env stream) e := by
  have := parse_stream env stream
  rw [h] at this
  exact this

/-- A line whose first visible character begins no line. -/
theorem unrecognised_start {w t : Str} {c : Char} (hw : White w) (hc : isWhite c = false) (h1 : c ≠ '#') (h2 : c ≠ '"') (h3 : c ≠ 'm') (n : Nat) :
    Classified (w ++ c :: t) n none := by
  -- the first visible character
  have key : ∀ (w w' t t' : Str) (c' : Char), White w → White w' → isWhite c' = false → w ++ c :: t = w' ++ c' :: t' → c = c' := by
    intro w
    induction w with
    | nil =>
      intro w' t t' c' _ hw' hc' he
      cases w' with
      | nil => injection he
      | cons d w' =>
        injection he with he _
        subst he
        rw [hw' c (by simp)] at hc; cases hc
    | cons d w ih =>
      intro w' t t' c' hw hw' hc' he
      cases w' with
      | nil =>
        injection he with he _
        subst he
        rw [hw d (by simp)] at hc'; cases hc'
      | cons d' w' =>
        injection he with _ he
        exact ih w' t t' c' (fun x hx => hw x (by simp [hx])) (fun x hx => hw' x (by simp [hx])) hc' he
  refine .unrecognised ?_ ?_ ?_
  · intro h
    rw [h c (by simp)] at hc; cases hc
  · rintro m k raw ⟨_, hk, w₁, w₂, w₃, w₄, hw1, hw2, hw3, _, he⟩
    cases m with
    | some m => exact h1 (key w w₁ t _ '#' hw hw1 (by decide) (by rw [he]; simp [markerText]; rfl))
    | none =>
      cases k with
      | none =>
        refine h2 (key w (w₁ ++ (w₂ ++ w₃)) t _ '"' hw ?_ (by decide) (by rw [he]; simp [markerText]; rfl))
        intro x hx
        simp only [List.mem_append] at hx
        rcases hx with hx | hx | hx
        · exact hw1 x hx
        · exact hw2 x hx
        · exact hw3 x hx
      | some k =>
        have hm : ∃ r, k = 'm' :: r := by
          rcases hk k rfl with rfl | rfl | rfl | rfl | ⟨ds, _, rfl⟩ <;> exact ⟨_, rfl⟩
        obtain ⟨r, rfl⟩ := hm
        refine h3 (key w (w₁ ++ w₂) t _ 'm' hw ?_ (by decide) (by rw [he]; simp [markerText]; rfl))
        intro x hx
        simp only [List.mem_append] at hx
        rcases hx with hx | hx
        · exact hw1 x hx
        · exact hw2 x hx
  · intro w' r hw' he
    exact h1 (key w w' t r '#' hw hw' (by decide) he)

/-- **C55** If the first line begins, after white space, with a character that begins no line of a catalogue, `parse()` fails and shows the line; the
error has line number 2. -/
theorem C55_first_line (env : Env) {stream : List Event} {w t : Str} {c : Char} {rs : List (Except IoErr Str)}
    (h : rawLines (flatten stream) = .ok (w ++ c :: t) :: rs) (hw : White w) (hc : isWhite c = false) (h1 : c ≠ '#') (h2 : c ≠ '"') (h3 : c ≠ 'm') :
    Fails (parse env stream) (.parse 2 (w ++ c :: t) []) := by
  apply fails_first (tl := [])
  refine ((stream_items stream _).mp ?_).symm
  rw [h]
  exact .unrecognised (unrecognised_start hw hc h1 h2 h3 1)

theorem encode_bom {c : Char} {x y : List UInt8} (h : String.utf8EncodeChar c ++ x = 0xEF :: 0xBB :: 0xBF :: y) : c = '\uFEFF' := by
  have hc : c.val.toNat = c.toNat := rfl
  have ub : ∀ (x : Nat) (b : UInt8), UInt8.ofNat x = b → x % 256 = b.toNat := by rintro x _ rfl; simp
  unfold String.utf8EncodeChar at h
  simp only [hc] at h
  have e1 : (0xEF : UInt8).toNat = 239 := rfl
  have e2 : (0xBB : UInt8).toNat = 187 := rfl
  have e3 : (0xBF : UInt8).toNat = 191 := rfl
  split at h
  · simp only [List.cons_append, List.nil_append, List.cons.injEq] at h
    have := ub _ _ h.1; omega
  · split at h
    · simp only [List.cons_append, List.nil_append, List.cons.injEq] at h
      have := ub _ _ h.1; omega
    · split at h
      · simp only [List.cons_append, List.nil_append, List.cons.injEq] at h
        have h1 := ub _ _ h.1
        have h2 := ub _ _ h.2.1
        have h3 := ub _ _ h.2.2.1
        have : c.toNat = 65279 := by omega
        apply Char.toNat_inj.mp
        exact this
      · simp only [List.cons_append, List.nil_append, List.cons.injEq] at h
        have := ub _ _ h.1; omega

theorem chomp_cons {c : Char} {s : Str} (h : c ≠ '\n') (h' : c ≠ '\r') : ∃ t, chomp (c :: s) = c :: t := by
  unfold chomp
  have key : ∀ (s : Str) (x : Char), (c :: s).getLast? = some x → x ≠ c → ∃ s', s = s' ++ [x] := by
    intro s x hx hne
    cases s with
    | nil => simp at hx; exact absurd hx.symm hne
    | cons d s =>
      rw [List.getLast?_cons_cons] at hx
      obtain ⟨ys, hys⟩ := List.getLast?_eq_some_iff.mp hx
      exact ⟨ys, hys⟩
  split
  · rename_i hl
    obtain ⟨s', rfl⟩ := key s _ hl h.symm
    have : (c :: (s' ++ ['\n'])).dropLast = c :: s' := by
      rw [← List.cons_append, List.dropLast_concat]
    simp only [this]
    split
    · rename_i hl'
      obtain ⟨s'', rfl⟩ := key s' _ hl' h'.symm
      refine ⟨s'', ?_⟩
      rw [← List.cons_append, List.dropLast_concat]
    · exact ⟨_, rfl⟩
  · exact ⟨_, rfl⟩

/-- **C55** A byte order mark is not accepted: on every input that begins with the bytes `EF BB BF` `parse()` fails. -/
theorem C55_bom (env : Env) {stream : List Event} {bs : List UInt8} (h : (flatten stream).1 = 0xEF :: 0xBB :: 0xBF :: bs) :
    ∃ e, Fails (parse env stream) e := by
  have hl : ∀ {l y : List UInt8}, l = 0xEF :: 0xBB :: 0xBF :: y → ∀ {rs}, rawLines (flatten stream) = lineText l :: rs → ∃ e, Fails (parse env stream) e := by
    intro l y he rs hr
    rw [lineText_code] at hr
    cases hd : decodeUtf8 l with
    | none =>
      rw [hd] at hr
      refine ⟨_, fails_first (tl := []) env (e := .io 1 .invalidUtf8) ((stream_items stream _).mp ?_).symm⟩
      rw [hr]
      exact .failed
    | some s =>
      rw [hd] at hr
      rw [decodeUtf8_eq_some, he] at hd
      cases s with
      | nil => simp [utf8] at hd
      | cons c s =>
        rw [utf8_cons] at hd
        have := encode_bom hd.symm
        subst this
        obtain ⟨t, ht⟩ := chomp_cons (c := '\uFEFF') (s := s) (by decide) (by decide)
        simp only [ht] at hr
        exact ⟨_, C55_first_line env (w := []) hr (by simp [White]) (by decide) (by decide) (by decide) (by decide)⟩
  rcases hb : byteLines bs with ⟨ls, r⟩
  cases ls with
  | nil =>
    have hbl : byteLines (0xEF :: 0xBB :: 0xBF :: bs) = ([], 0xEF :: 0xBB :: 0xBF :: r) := by simp [byteLines, hb]
    rcases hf : (flatten stream).2 with _ | c
    · exact hl (l := 0xEF :: 0xBB :: 0xBF :: r) rfl (rs := []) (by simp [rawLines, h, hbl, hf])
    · refine ⟨_, fails_first (tl := []) env (e := .io 1 (.os c)) ((stream_items stream _).mp ?_).symm⟩
      have : rawLines (flatten stream) = [.error (.os c)] := by simp [rawLines, h, hbl, hf]
      rw [this]
      exact .failed
  | cons l ls =>
    have hbl : byteLines (0xEF :: 0xBB :: 0xBF :: bs) = ((0xEF :: 0xBB :: 0xBF :: l) :: ls, r) := by simp [byteLines, hb]
    exact hl (l := 0xEF :: 0xBB :: 0xBF :: l) rfl (by simp only [rawLines, h, hbl, List.map_cons, List.cons_append]; rfl)

/-- **C55** A text with a byte order mark: the error shows the first line, with the mark. -/
theorem C55_text (env : Env) {stream : List Event} {l : Str} {ls : List Str} {t : Str} (ht : Rendering (('\uFEFF' :: l) :: ls) t)
    (h : Delivers stream (utf8 t)) :
    Fails (parse env stream) (.parse 2 ('\uFEFF' :: l) []) := by
  refine C55_first_line env (w := []) (rs := ls.map .ok) ?_ (by simp [White]) (by decide) (by decide) (by decide) (by decide)
  rw [show flatten stream = _ from h, rawLines_rendering ht]
  rfl

/-! ### Examples -/

theorem commentLine_demo : CommentLine (c!"# note") ∧ CommentLine (c!"#, fuzzy") ∧ CommentLine (c!"#: x.c:1") := by
  refine ⟨⟨' ', c!"note", (C06_line_classification _ _ (by decide) _).mp rfl⟩, ⟨',', c!"fuzzy", (C06_line_classification _ _ (by decide) _).mp rfl⟩,
    ⟨':', c!"x.c:1", (C06_line_classification _ _ (by decide) _).mp rfl⟩⟩

theorem not_commentLine {s : Str} {x : Option PoLine} (h : Classified s 0 x) (hn : '\n' ∉ s) (hx : ∀ c t, x ≠ some (.comment 0 c t)) : ¬ CommentLine s := by
  rintro ⟨c, t, h'⟩
  exact hx c t (classified_unique hn h h')

-- a note before a unit replaced by a location and the fuzzy flag; a note at the beginning removed
example : Correspond SameProperties SameFields SameButComment
    (parse demoEnv (textStream [c!"# note", c!"msgid \"a\"", c!"msgstr \"b\"", c!"# note", c!"msgid \"c\"", c!"garbage"]))
    (parse demoEnv (textStream [c!"msgid \"a\"", c!"msgstr \"b\"", c!"#, fuzzy", c!"#: x.c:1", c!"", c!"msgid \"c\"", c!"garbage"])) := by
  have hl : ∀ s, '\n' ∉ s → (match Verif.parseLine s 0 with | some (.comment ..) => true | _ => false) = false → ¬ CommentLine s := by
    intro s hn h
    refine not_commentLine ((C06_line_classification _ _ hn _).mp rfl) hn fun c t hx => ?_
    rw [hx] at h
    cases h
  refine C52_comments demoEnv ?_
  rw [rawLines_text (by decide), rawLines_text (by decide)]
  refine .moreLeft commentLine_demo.1 (.line (hl _ (by decide) rfl) (.line (hl _ (by decide) rfl) ?_))
  refine .comments commentLine_demo.1 commentLine_demo.2.1 (.moreRight commentLine_demo.2.2 (.blankRight (by decide) ?_))
  exact .line (hl _ (by decide) rfl) (.line (hl _ (by decide) rfl) .nil)

-- what the two inputs give
example : Yields (parse demoEnv (textStream [c!"# note", c!"msgid \"a\"", c!"msgstr \"b\"", c!"# note", c!"msgid \"c\"", c!"garbage"])) (noHeader demoEnv)
      (results [{ unitAB (c!"a") (c!"b") with notes := [⟨.translator, c!"note"⟩] }] (some (.parse 7 (c!"garbage") []))) ∧
    Yields (parse demoEnv (textStream [c!"msgid \"a\"", c!"msgstr \"b\"", c!"#, fuzzy", c!"#: x.c:1", c!"", c!"msgid \"c\"", c!"garbage"])) (noHeader demoEnv)
      (results [unitAB (c!"a") (c!"b")] (some (.parse 8 (c!"garbage") []))) :=
  ⟨yields_text (env := demoEnv) (res := ⟨noHeader demoEnv, none, [{ unitAB (c!"a") (c!"b") with notes := [⟨.translator, c!"note"⟩] }], some (.parse 7 (c!"garbage") [])⟩) (by decide) (by rfl),
   yields_text (env := demoEnv) (res := ⟨noHeader demoEnv, none, [unitAB (c!"a") (c!"b")], some (.parse 8 (c!"garbage") [])⟩) (by decide) (by rfl)⟩

-- a comment line cannot simply be removed: between `msgid` and `msgstr` it is an error, and between `msgstr[0]` and `msgstr[1]` it ends the entry
example : Fails (parse demoEnv (textStream [c!"msgid \"a\"", c!"# note", c!"msgstr \"b\""])) (.parse 2 (c!"# ") (c!"msgstr")) :=
  fails_text (env := demoEnv) (by decide) (by rfl)

-- an entry with a continuation line and a previous id, active and obsolete
example : Correspond Eq (fun u u' => u.obsolete = false ∧ u' = { u with obsolete := true }) SameButMarker
    (parse demoEnv (textStream [c!"# note", c!"#| msgid \"o\"", c!"msgid \"a\"", c!"\"x\"", c!"msgstr \"b\"", c!"", c!"msgstr \"c\""]))
    (parse demoEnv (textStream [c!"# note", c!"#~| msgid \"o\"", c!"#~ msgid \"a\"", c!"#~ \"x\"", c!"#~ msgstr \"b\"", c!"", c!"#~msgstr \"c\""])) := by
  refine C53_obsolete demoEnv ?_
  rw [rawLines_text (by decide), rawLines_text (by decide)]
  have hw : ∀ n, White (List.replicate n ' ') := by intro n c hc; rw [List.eq_of_mem_replicate hc]; decide
  have q : ∀ (m : Option Str) (k : Option Str) (raw line : Str) (a b : Nat), (∀ m', m = some m' → IsMarker m') → (∀ k', k = some k' → IsKeyword k') →
      line = markerText m ++ (List.replicate a ' ' ++ (k.getD [] ++ (List.replicate b ' ' ++ '"' :: (raw ++ ['"'])))) → QuotedLine line m k raw :=
    fun m k raw line a b h1 h2 h3 => ⟨h1, h2, [], _, _, [], by decide, hw a, hw b, by decide, by rw [h3]; simp⟩
  have qm : ∀ s : Str, (∃ m k raw, QuotedLine s m k raw) → '\n' ∉ s → Verif.parseLine s 0 ≠ some .blank ∧ ∀ c t, Verif.parseLine s 0 ≠ some (.comment 0 c t) := by
    rintro s ⟨m, k, raw, h⟩ hn
    cases k with
    | none =>
      have := (C06_line_classification s 0 hn _).mpr (.continuation h)
      rw [this]; simp
    | some k =>
      have := (C06_line_classification s 0 hn _).mpr (.keyword h)
      rw [this]; simp
  have n1 : ∀ m k raw, ¬ QuotedLine (c!"# note") m k raw := fun m k raw h => (qm _ ⟨m, k, raw, h⟩ (by decide)).2 ' ' (c!"note") rfl
  have n2 : ∀ m k raw, ¬ QuotedLine [] m k raw := fun m k raw h => (qm _ ⟨m, k, raw, h⟩ (by decide)).1 rfl
  refine .line n1 ?_
  refine .quoted (m := some ['|']) (k := some (c!"msgid")) (raw := c!"o") (raw' := c!"o") (q _ _ _ _ 1 1 (by simp [IsMarker]) (by simp [IsKeyword]) rfl) (by simp [Tilde])
    (q _ _ _ _ 1 1 (by simp [IsMarker]) (by simp [IsKeyword]) rfl) rfl ?_
  refine .quoted (m := none) (k := some (c!"msgid")) (raw := c!"a") (raw' := c!"a") (q _ _ _ _ 0 1 (by simp) (by simp [IsKeyword]) rfl) (by simp [Tilde])
    (q _ _ _ _ 1 1 (by simp [IsMarker]) (by simp [IsKeyword]) rfl) rfl ?_
  refine .quoted (m := none) (k := none) (raw := c!"x") (raw' := c!"x") (q _ _ _ _ 0 0 (by simp) (by simp) rfl) (by simp [Tilde])
    (q _ _ _ _ 1 0 (by simp [IsMarker]) (by simp) rfl) rfl ?_
  refine .quoted (m := none) (k := some (c!"msgstr")) (raw := c!"b") (raw' := c!"b") (q _ _ _ _ 0 1 (by simp) (by simp [IsKeyword]) rfl) (by simp [Tilde])
    (q _ _ _ _ 1 1 (by simp [IsMarker]) (by simp [IsKeyword]) rfl) rfl (.line n2 ?_)
  exact .quoted (m := none) (k := some (c!"msgstr")) (raw := c!"c") (raw' := c!"c") (q _ _ _ _ 0 1 (by simp) (by simp [IsKeyword]) rfl) (by simp [Tilde])
    (q _ _ _ _ 0 1 (by simp [IsMarker]) (by simp [IsKeyword]) rfl) rfl .nil

-- what the two inputs give: the error shows the marker
example : Yields (parse demoEnv (textStream [c!"msgid \"a\"", c!"msgstr \"b\"", c!"msgstr \"c\""])) (noHeader demoEnv)
      (results [unitAB (c!"a") (c!"b")] (some (.parse 3 [] (c!"msgid")))) ∧
    Yields (parse demoEnv (textStream [c!"#~ msgid \"a\"", c!"#~ msgstr \"b\"", c!"#~ msgstr \"c\""])) (noHeader demoEnv)
      (results [{ unitAB (c!"a") (c!"b") with obsolete := true }] (some (.parse 3 (c!"~") (c!"msgid")))) :=
  ⟨yields_text (env := demoEnv) (res := ⟨noHeader demoEnv, none, [unitAB (c!"a") (c!"b")], some (.parse 3 [] (c!"msgid"))⟩) (by decide) (by rfl),
   yields_text (env := demoEnv) (res := ⟨noHeader demoEnv, none, [{ unitAB (c!"a") (c!"b") with obsolete := true }], some (.parse 3 (c!"~") (c!"msgid"))⟩) (by decide) (by rfl)⟩

/-- The lines of a header with text `t`. -/
def headLines (t : Str) : List Str := [c!"msgid \"\"", kwLine (c!"msgstr") t]

theorem headerLines_demo (t : Str) : HeaderLines ((headLines t).map .ok) := by
  refine ⟨_, _, if t = [] then none else some t, ?_, entry_plain none 1 2 [] t, rfl⟩
  have h1 : Classified (c!"msgid \"\"") 1 (some (.message 1 [] (c!"msgid") [])) := (C06_line_classification _ _ (by decide) _).mp rfl
  have h2 : Classified (kwLine (c!"msgstr") t) 2 (some (.message 2 [] (c!"msgstr") t)) := by
    have := Classified.keyword (n := 2) (quoted_kwLine (k := c!"msgstr") (by simp [IsKeyword]) t)
    rw [unesc_esc_eq] at this
    exact this
  exact .line h1 (by simp) (.line h2 (by simp) .nil)

theorem demo_noContinuation : NoContinuation (demoLines'.map .ok) := by
  intro n l m p s tl hl
  have h1 : Classified (c!"msgid \"a\"") n (some (.message n [] (c!"msgid") (c!"a"))) := by
    have : Classified (c!"msgid \"a\"") 0 (some (.message 0 [] (c!"msgid") (c!"a"))) := (C06_line_classification _ _ (by decide) _).mp rfl
    exact classified_renumber this n
  rintro rfl
  cases hl with
  | blank h => have := classified_unique (by decide) h h1; cases this
  | line h => have := classified_unique (by decide) h h1; cases this

-- two headers without plural forms, one with a language
example : ∀ us us' e e' (hdr hdr' : Header Str), Yields (parse demoEnv (textStream (headLines (c!"Language: fr") ++ demoLines'))) hdr (results us e) →
    Yields (parse demoEnv (textStream (headLines (c!"Project: x\nPlural-Forms:") ++ demoLines'))) hdr' (results us' e') →
    hdr.properties.lookup (c!"Plural-Forms") = hdr'.properties.lookup (c!"Plural-Forms") → us = us' ∧ SameEndAfter 2 2 e e' := by
  intro us us' e e' hdr hdr' h h' hp
  have hc := demo_noContinuation
  refine C54_header (hd := (headLines (c!"Language: fr")).map .ok) (hd' := (headLines (c!"Project: x\nPlural-Forms:")).map .ok) (rs := demoLines'.map .ok)
    ?_ ?_ (headerLines_demo _) (headerLines_demo _) hc h h' hp
  · rw [rawLines_text (by decide)]; rfl
  · rw [rawLines_text (by decide)]; rfl

-- the number of plural texts of a unit depends on the header
example : Yields (parse demoEnv (textStream (headLines (c!"Plural-Forms: nplurals=1; plural=0;") ++ [c!"msgid \"a\"", c!"msgid_plural \"b\"", c!"msgstr[0] \"c\"", c!"msgstr[1] \"d\""])))
    ⟨[], [], [(c!"Plural-Forms", c!"nplurals=1; plural=0;")], []⟩
    (results [{ PoUnit.default with message := .plural ⟨c!"a", c!"b", [c!"c"], some ⟨.num 0, 1, c!"nplurals=1; plural=0;", c!"0"⟩⟩, state := .final }] (some (.parse 6 [] (c!"msgid")))) :=
  yields_text (env := demoEnv) (res := ⟨⟨[], [], [(c!"Plural-Forms", c!"nplurals=1; plural=0;")], []⟩, _, [_], some (.parse 6 [] (c!"msgid"))⟩) (by decide) (by rfl)

-- a byte order mark before an otherwise correct catalogue
example : Fails (parse demoEnv (textStream [c!"\uFEFFmsgid \"a\"", c!"msgstr \"b\""])) (.parse 2 (c!"\uFEFFmsgid \"a\"") []) := by
  refine C55_text demoEnv (l := c!"msgid \"a\"") (ls := [c!"msgstr \"b\""]) (t := c!"\uFEFFmsgid \"a\"\nmsgstr \"b\"\n") ?_ ?_
  · exact .lf (l := c!"\uFEFFmsgid \"a\"") (by decide) (.lf (l := c!"msgstr \"b\"") (by decide) .nil)
  · exact textStream_flatten _

end Verif
