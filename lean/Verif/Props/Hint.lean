import Verif.Props.Breaks

/-! C101: the keyword that an error names would have been accepted. -/

namespace Verif
open Spec

/-- The keyword that is named may come at the place. -/
theorem expected_follows {hi : Nat} {c : Place} {m : Nat} {q s : Str} (hq : ∀ p k v, c = .field p k v → ¬ AtBorder c → (Tilde p ↔ Tilde q))
    (h1 : ∀ p, c ≠ .field p .id []) (h2 : ∀ p v, c = .field p .pluralId v → 0 < hi) : ∃ c', MayFollow hi c (.message m q c.expected s) c' := by
  cases c with
  | fresh => exact ⟨_, .begins (k := .id) .fresh .id⟩
  | field p k v =>
    have hq := hq p k v rfl
    cases k with
    | prevContext => exact ⟨_, .goesOn (k' := .id) .contextNow (hq nofun)⟩
    | prevId => exact ⟨_, .goesOn (k' := .id) .idNow (hq nofun)⟩
    | prevPluralId => exact ⟨_, .goesOn (k' := .id) .pluralNow (hq nofun)⟩
    | context => exact ⟨_, .goesOn (k' := .id) .context (hq nofun)⟩
    | id =>
      refine ⟨_, .goesOn (k' := .text) (.text ?_) (hq nofun)⟩
      rintro rfl
      exact h1 p rfl
    | pluralId => exact ⟨_, .goesOn (k' := .value 0) (.value (h2 p v rfl)) (hq nofun)⟩
    | text => exact ⟨_, .begins (k := .id) .text .id⟩
    | value i => exact ⟨_, .begins (k := .id) .value .id⟩

theorem body_none {env : Env} {stream : List Event} {rs : List (Except IoErr Str)} {n : Nat} {forms : Option PluralForms} {hdr : Header env.Lang}
    {us : List PoUnit} {e : Option Err} (h : BodyAt env stream hdr rs n forms) (hy : Yields (parse env stream) hdr (results us e)) {b : List PoLine} {c : Place}
    (hl : LineItems n rs (b.map .ok)) (hb : EachFollows (nplurals forms) .fresh b c) : e = none := by
  obtain ⟨h1, h2⟩ := body_forms h hy
  exact (run_none_iff h1 h2).mpr ⟨b, c, hl, hb⟩

/-- **C101** Where a line may not come, the error names a keyword.  If the input instead has there a line with this keyword, any text and a marker that
fits, and ends, it is read without error, unless the keyword is asked for after an empty id, or plural texts are asked for and there are none. -/
theorem C101_helps {env : Env} {stream : List Event} {rs : List (Except IoErr Str)} {n : Nat} {forms : Option PluralForms} {hdr : Header env.Lang}
    {us : List PoUnit} {e : Option Err} (h : BodyAt env stream hdr rs n forms) (hy : Yields (parse env stream) hdr (results us e))
    {b : List PoLine} {c : Place} {ln : PoLine} {tl : List Item} (hl : LineItems n rs (b.map .ok ++ .ok ln :: tl))
    (hb : EachFollows (nplurals forms) .fresh b c) (hn : ∀ c', ¬ MayFollow (nplurals forms) c ln c')
    (h1 : ∀ p, c ≠ .field p .id []) (h2 : ∀ p v, c = .field p .pluralId v → 0 < nplurals forms) :
    ∃ kw, e = some (.parse (lineNumber ln) (shown ln) kw) ∧
    ∀ {stream' : List Event} {rs' : List (Except IoErr Str)} {hdr' : Header env.Lang} {us' : List PoUnit} {e' : Option Err} {m : Nat} {q s : Str},
      BodyAt env stream' hdr' rs' n forms → Yields (parse env stream') hdr' (results us' e') → LineItems n rs' ((b ++ [PoLine.message m q kw s]).map .ok) →
      (∀ p k v, c = .field p k v → ¬ AtBorder c → (Tilde p ↔ Tilde q)) → e' = none := by
  have hs : ¬ EmptySource c ln := by
    rintro ⟨p, _, _, _, rfl, _⟩
    exact h1 p rfl
  refine ⟨c.expected, (C93_line h hy hl hb hn hs).1, fun {_ _ _ _ _ m q s} h' hy' hl' hq => ?_⟩
  obtain ⟨c', hc⟩ := expected_follows (hi := nplurals forms) (m := m) (s := s) hq h1 h2
  exact body_none h' hy' hl' (hb.append (.cons hc .nil))

theorem lineItems_error {n : Nat} {rs : List (Except IoErr Str)} {l : List Item} (h : LineItems n rs l) {k : Nat} {sh kw : Str}
    (hx : .error (.parse k sh kw) ∈ l) : kw = [] := by
  induction h with
  | nil => cases hx
  | failed => simp at hx
  | unrecognised =>
    simp only [List.mem_cons, Except.error.injEq, Err.parse.injEq, List.not_mem_nil, or_false] at hx
    exact hx.2.2
  | blank _ _ ih => exact ih hx
  | line _ _ _ ih =>
    simp only [List.mem_cons, reduceCtorEq, false_or] at hx
    exact ih hx

/-- **C101** Every error that names a keyword is of this kind. -/
theorem C101_named {env : Env} {stream : List Event} {rs : List (Except IoErr Str)} {n : Nat} {forms : Option PluralForms} {hdr : Header env.Lang}
    {us : List PoUnit} {k : Nat} {sh kw : Str} (h : BodyAt env stream hdr rs n forms)
    (hy : Yields (parse env stream) hdr (results us (some (.parse k sh kw)))) (hkw : kw ≠ []) :
    ∃ b c ln tl, LineItems n rs (b.map .ok ++ .ok ln :: tl) ∧ EachFollows (nplurals forms) .fresh b c ∧ (∀ c', ¬ MayFollow (nplurals forms) c ln c') ∧
      lineNumber ln = k ∧ shown ln = sh ∧ c.expected = kw := by
  obtain ⟨b, c, hb, h1 | ⟨x, tl, h1⟩ | ⟨ln, tl, h1, h2, h3⟩ | ⟨ln, q, cs, rest, h1, h2, h3, h4 | ⟨x, tl, rfl⟩⟩⟩ := C93_complete h hy
  · cases body_none h hy h1 hb
  · have := (C93_unreadable h hy h1 hb).1
    cases this
    exact absurd (lineItems_error h1 (k := k) (sh := sh) (by simp)) hkw
  · have := (C93_line h hy h1 hb h2 h3).1
    simp only [missing, Option.some.injEq, Err.parse.injEq] at this
    exact ⟨b, c, ln, tl, h1, hb, h2, this.1.symm, this.2.1.symm, this.2.2.symm⟩
  · obtain ⟨⟨_, _, hx⟩, _⟩ := C93_source h hy hb h1 h2 h3 h4
    cases hx
  · have := (C93_source_unreadable h hy hb h1 h2 h3).1
    cases this
    exact absurd (lineItems_error h3 (k := k) (sh := sh) (by simp)) hkw

/-- **C101** After a plural id and without plural texts (`nplurals=0`), nothing helps: every input that goes on with another line than a continuation of the
plural id fails there. -/
theorem C101_never {env : Env} {stream : List Event} {rs : List (Except IoErr Str)} {n : Nat} {forms : Option PluralForms} {hdr : Header env.Lang}
    {us : List PoUnit} {e : Option Err} (h : BodyAt env stream hdr rs n forms) (hy : Yields (parse env stream) hdr (results us e))
    {b : List PoLine} {p v : Str} {ln : PoLine} {tl : List Item} (hl : LineItems n rs (b.map .ok ++ .ok ln :: tl))
    (hb : EachFollows (nplurals forms) .fresh b (.field p .pluralId v)) (h0 : nplurals forms = 0) (hc : ∀ m t, ln ≠ .continuation m p t) :
    e = some (.parse (lineNumber ln) (shown ln) (c!"msgstr[0]")) := by
  refine (C93_line h hy hl hb (fun c' hf => ?_) ?_).1
  · cases hf with
    | comment ha => cases ha
    | begins ha => cases ha
    | continues => exact hc _ _ rfl
    | goesOn hk =>
      cases hk with
      | value hi => omega
  · rintro ⟨_, _, _, _, hx, _⟩
    cases hx

/-- **C101** After an empty id, the named keyword leads to the other error: the source is empty. -/
theorem C101_empty {env : Env} {stream : List Event} {rs : List (Except IoErr Str)} {n : Nat} {forms : Option PluralForms} {hdr : Header env.Lang}
    {us : List PoUnit} {e : Option Err} (h : BodyAt env stream hdr rs n forms) (hy : Yields (parse env stream) hdr (results us e))
    {b : List PoLine} {p q s : Str} {m : Nat} (hl : LineItems n rs ((b ++ [PoLine.message m q (Place.expected (.field p .id [])) s]).map .ok))
    (hb : EachFollows (nplurals forms) .fresh b (.field p .id [])) (hq : Tilde p ↔ Tilde q) :
    ∃ k, e = some (.unexpected k (c!"Source should not be empty")) := by
  obtain ⟨⟨x, _, hx⟩, _⟩ := C93_source (ln := .message m q (c!"msgstr") s) (q := q) (cs := []) (rest := []) h hy hb ⟨p, m, q, s, rfl, rfl, hq⟩ ⟨m, s, rfl⟩
    (by rw [List.append_nil]; exact hl) (.inl rfl)
  exact ⟨_, hx⟩

theorem lines_at {n : Nat} {ls : List Str} {l : List Item} (hn : ∀ s ∈ ls, '\n' ∉ s) (h : items n (ls.map .ok) = l) : LineItems n (ls.map .ok) l := by
  rw [← h]
  exact items_lineItems (by
    intro s hs
    simp only [List.mem_map, Except.ok.injEq, exists_eq_right] at hs
    exact hn s hs) n

/-- An id without translation, and the same with a translation. -/
def cutShort : List Str := [c!"# x", c!"msgid \"a\"", c!"# y"]

def mended : List Str := [c!"# x", c!"msgid \"a\"", c!"msgstr \"z\""]

-- `C101_helps`: the error names `msgstr`, and with a `msgstr` line the input is read
example {us us' : List PoUnit} {e e' : Option Err}
    (hy : Yields (parse demoEnv (textStream (headLines (c!"X: y") ++ cutShort))) ⟨[], [], [(c!"X", c!"y")], []⟩ (results us e))
    (hy' : Yields (parse demoEnv (textStream (headLines (c!"X: y") ++ mended))) ⟨[], [], [(c!"X", c!"y")], []⟩ (results us' e')) :
    e = some (.parse 5 (c!"# ") (c!"msgstr")) ∧ e' = none := by
  have body : BodyAt demoEnv (textStream (headLines (c!"X: y") ++ cutShort)) ⟨[], [], [(c!"X", c!"y")], []⟩ (cutShort.map .ok) 3 none :=
    .headed (hd := (headLines (c!"X: y")).map .ok) (forms := none) (by rw [rawLines_text (by decide)]; rfl) (headerLines_demo _)
      (noContinuation_head (by decide) rfl) .absent
  have body' : BodyAt demoEnv (textStream (headLines (c!"X: y") ++ mended)) ⟨[], [], [(c!"X", c!"y")], []⟩ (mended.map .ok) 3 none :=
    .headed (hd := (headLines (c!"X: y")).map .ok) (forms := none) (by rw [rawLines_text (by decide)]; rfl) (headerLines_demo _)
      (noContinuation_head (by decide) rfl) .absent
  have hc : EachFollows 2 .fresh [.comment 3 ' ' (c!"x"), .message 4 [] (c!"msgid") (c!"a")] (.field [] .id (c!"a")) :=
    .cons (.comment .fresh) (.cons (.begins (k := .id) .fresh .id) .nil)
  have hl : LineItems 3 (cutShort.map .ok) ([.comment 3 ' ' (c!"x"), .message 4 [] (c!"msgid") (c!"a")].map .ok ++ [.ok (.comment 5 ' ' (c!"y"))]) :=
    lines_at (by decide) (by rfl)
  obtain ⟨kw, h1, h2⟩ := C101_helps body hy hl hc (by rintro _ ⟨⟨⟩⟩) (by rintro p ⟨⟩) (by rintro p v ⟨⟩)
  have h3 : kw = c!"msgstr" := by
    have := (C93_line body hy hl hc (by rintro _ ⟨⟨⟩⟩) (by rintro ⟨_, _, _, _, ⟨⟩, _⟩)).1
    rw [h1] at this
    simpa [missing, Place.expected] using this
  subst h3
  exact ⟨h1, h2 (m := 5) (q := []) (s := c!"z") body' hy' (lines_at (by decide) (by rfl)) (by rintro p k v ⟨⟩ _; exact .rfl)⟩

-- `C101_named`
example {us : List PoUnit} {k : Nat} {sh kw : Str}
    (hy : Yields (parse demoEnv (textStream (headLines (c!"X: y") ++ cutShort))) ⟨[], [], [(c!"X", c!"y")], []⟩ (results us (some (.parse k sh kw)))) (hkw : kw ≠ []) :=
  C101_named (.headed (hd := (headLines (c!"X: y")).map .ok) (rs := cutShort.map .ok) (forms := none) (by rw [rawLines_text (by decide)]; rfl)
    (headerLines_demo _) (noContinuation_head (by decide) rfl) .absent) hy hkw

-- these inputs are read, with these errors
example : Yields (parse demoEnv (textStream (headLines (c!"X: y") ++ cutShort))) ⟨[], [], [(c!"X", c!"y")], []⟩ (results [] (some (.parse 5 (c!"# ") (c!"msgstr")))) :=
  yields_text (env := demoEnv) (res := ⟨⟨[], [], [(c!"X", c!"y")], []⟩, none, [], some (.parse 5 (c!"# ") (c!"msgstr"))⟩) (by decide) (by rfl)

example : Yields (parse demoEnv (textStream (headLines (c!"X: y") ++ mended))) ⟨[], [], [(c!"X", c!"y")], []⟩
    (results [{ unitAB (c!"a") (c!"z") with notes := [⟨.translator, c!"x"⟩] }] none) :=
  yields_text (env := demoEnv) (res := ⟨⟨[], [], [(c!"X", c!"y")], []⟩, none, _, none⟩) (by decide) (by rfl)

/-- A plural entry. -/
def pluralLines : List Str := [c!"# x", c!"msgid \"a\"", c!"msgid_plural \"b\"", c!"msgstr[0] \"c\""]

-- `C101_never`: the error asks for the line that is there
example {us : List PoUnit} {e : Option Err} (hy : Yields (parse demoEnv (textStream (headLines (c!"Plural-Forms: nplurals=0; plural=0;") ++ pluralLines)))
    ⟨[], [], [(c!"Plural-Forms", c!"nplurals=0; plural=0;")], []⟩ (results us e)) : e = some (.parse 6 [] (c!"msgstr[0]")) :=
  C101_never (b := [.comment 3 ' ' (c!"x"), .message 4 [] (c!"msgid") (c!"a"), .message 5 [] (c!"msgid_plural") (c!"b")])
    (ln := .message 6 [] (c!"msgstr[0]") (c!"c")) (tl := [])
    (.headed (hd := (headLines (c!"Plural-Forms: nplurals=0; plural=0;")).map .ok) (rs := pluralLines.map .ok)
      (forms := some ⟨.num 0, 0, c!"nplurals=0; plural=0;", c!"0"⟩) (by rw [rawLines_text (by decide)]; rfl) (headerLines_demo _)
      (noContinuation_head (by decide) rfl) ((formsRule_iff ..).mpr (by rfl))) hy (lines_at (by decide) (by rfl))
    (.cons (.comment .fresh) (.cons (.begins (k := .id) .fresh .id) (.cons (.goesOn (k' := .pluralId) .plural .rfl) .nil))) (by rfl) (by simp)

example : Yields (parse demoEnv (textStream (headLines (c!"Plural-Forms: nplurals=0; plural=0;") ++ pluralLines)))
    ⟨[], [], [(c!"Plural-Forms", c!"nplurals=0; plural=0;")], []⟩ (results [] (some (.parse 6 [] (c!"msgstr[0]")))) :=
  yields_text (env := demoEnv) (res := ⟨⟨[], [], [(c!"Plural-Forms", c!"nplurals=0; plural=0;")], []⟩, _, [], some (.parse 6 [] (c!"msgstr[0]"))⟩) (by decide) (by rfl)

-- `C101_empty`
example {us : List PoUnit} {e : Option Err}
    (hy : Yields (parse demoEnv (textStream (headLines (c!"X: y") ++ [c!"# x", c!"msgid \"\"", c!"msgstr \"a\""]))) ⟨[], [], [(c!"X", c!"y")], []⟩ (results us e)) :
    ∃ k, e = some (.unexpected k (c!"Source should not be empty")) :=
  C101_empty (b := [.comment 3 ' ' (c!"x"), .message 4 [] (c!"msgid") []]) (p := []) (q := []) (s := c!"a") (m := 5)
    (.headed (hd := (headLines (c!"X: y")).map .ok) (rs := [c!"# x", c!"msgid \"\"", c!"msgstr \"a\""].map .ok) (forms := none)
      (by rw [rawLines_text (by decide)]; rfl) (headerLines_demo _) (noContinuation_head (by decide) rfl) .absent) hy
    (lines_at (by decide) (by rfl)) (.cons (.comment .fresh) (.cons (.begins (k := .id) .fresh .id) .nil)) .rfl

end Verif
