import Verif.Spec.Work
import Verif.Lemmas.Work
import Verif.Lemmas.Resume
import Verif.Props.Lazy
import Verif.Props.RoundTrip

/-! C59: how many calls of the line source reading needs. -/

namespace Verif
open Spec

theorem calls_rel_fwd {σ τ L : Type} [Src σ] [Src τ] {R : σ → τ → Prop}
    (hU : ∀ (L : Type) (first : Bool), Sim (ReaderRel (L := L) R) (readUnit first) (readUnit first)) {xs : List (Option (Except Err PoUnit))}
    {q q' : Reader σ L} {r : Reader τ L} (h : Calls q xs q') (hr : ReaderRel R q r) : ∃ r', Calls r xs r' ∧ ReaderRel R q' r' := by
  induction h generalizing r with
  | nil => exact ⟨r, .nil, hr⟩
  | @cons q x q1 xs q2 h1 h2 ih =>
    obtain ⟨g1, g2⟩ := sim_next hU q r hr
    rw [h1] at g1 g2
    obtain ⟨r', i1, i2⟩ := ih g2
    exact ⟨r', .cons (r' := r.next.2) (Prod.ext g1.symm rfl) i1, i2⟩

theorem trace_calls {σ L : Type} [Src σ] (k : Nat) : ∀ {r : Reader σ L} {xs : List (Header L × Option (Except Err PoUnit))}, trace k r = .ok xs →
    ∃ r', Calls r (xs.map Prod.snd) r' := by
  induction k with
  | zero => intro r xs h; cases h; exact ⟨r, .nil⟩
  | succ k ih =>
    intro r xs h
    rw [trace] at h
    rcases hn : r.next with ⟨x | e | _, r'⟩ <;> rw [hn] at h
    · simp only at h
      rcases ht : trace k r' with ys | e | _ <;> rw [ht] at h
      · cases h
        obtain ⟨r2, h2⟩ := ih ht
        exact ⟨r2, .cons hn h2⟩
      · cases h
      · cases h
    · cases h
    · cases h

/-- What a user sees, as calls. -/
theorem yields_calls {σ L : Type} [Src σ] {r : Out (Reader σ L)} {hdr : Header L} {res : List (Except Err PoUnit)} (h : Yields r hdr res) :
    ∃ q, r = .ok q ∧ headerOf q = hdr ∧ ∀ k, ∃ q', Calls q ((List.range k).map fun i => res[i]?) q' := by
  rcases r with q | e | _
  · refine ⟨q, rfl, ?_, ?_⟩
    · have := h 0
      simp only [observe, Out.bind, trace, Out.ok.injEq, Prod.mk.injEq] at this
      exact this.1
    · intro k
      have := h k
      simp only [observe, Out.bind] at this
      rcases ht : trace k q with ys | e | _ <;> rw [ht] at this
      · simp only [Out.ok.injEq, Prod.mk.injEq] at this
        obtain ⟨q', hq⟩ := trace_calls k ht
        rw [this.2, List.map_map] at hq
        exact ⟨q', hq⟩
      · cases this
      · cases this
  · cases h 0
  · cases h 0

variable {env : Env}

/-- **C59** Counting changes nothing that a user sees. -/
theorem C59_same (stream : List Event) (k : Nat) : observe k (parseCounted env stream) = observe k (parse env stream) :=
  observe_new (fun _ => sim_readUnit forget_srcRel) env k _ _ rfl

/-- **C59** A reader with `nplurals` plural texts, after any calls of `next()`, has called its line source at most `2 nplurals + 24` times for every
line of the stream and for two more. -/
theorem C59_bound {stream : List Event} {r r' : Reader (Counted Peekable) env.Lang} {xs : List (Option (Except Err PoUnit))} {forms : Option PluralForms}
    (h : parseCounted env stream = .ok r) (hf : FormsRule env ((headerOf r).properties.lookup (c!"Plural-Forms")) (.ok forms)) (hc : Calls r xs r') :
    r'.lines.calls ≤ (2 * nplurals forms + 24) * ((rawLines (flatten stream)).length + 2) := by
  have hU := fun (L : Type) (first : Bool) => sim_readUnit (L := L) (first := first) count_srcRel
  have h0 : CountRel (⟨⟨.new stream [], none⟩, 0⟩ : Counted Peekable) ⟨streamItems stream, 0⟩ := by
    refine ⟨?_, rfl⟩
    show (LineIter.new stream []).polls = _
    rw [LineIter.new_polls, rawPolls, pollItems_some, streamItems_code]
  have hnew := sim_new hU env _ _ h0
  rw [show Reader.new env (⟨⟨.new stream [], none⟩, 0⟩ : Counted Peekable) = .ok r from h] at hnew
  generalize hq : Reader.new env (⟨streamItems stream, 0⟩ : Counted (List Item)) = y at hnew
  cases hnew with
  | @ok _ q hrel =>
    obtain ⟨w1, w2⟩ := within_new env hq
    obtain ⟨q', c1, c2⟩ := calls_rel_fwd hU hc hrel
    obtain ⟨w3, w4⟩ := within_calls c1 w1
    rw [headerOf_rel hrel] at hf
    have e : q.pluralForms = forms := by
      rw [formsRule_iff] at hf w2
      rw [hf] at w2
      cases w2
      rfl
    have hl : (streamItems stream).length ≤ (rawLines (flatten stream)).length := by rw [streamItems_code]; exact items_length _ _
    rw [c2.lines.2]
    unfold Within at w3
    rw [w4, e] at w3
    unfold pot' at w3
    generalize nplurals forms = n at *
    have hm := Nat.mul_le_mul_left (2 * n + 24) hl
    rw [Nat.mul_add]
    split at w3 <;> omega

theorem parsePoHeader_lines {σ : Type} (env : Env) (r : Reader σ env.Lang) : (parsePoHeader env r).2.lines = r.lines := by
  unfold parsePoHeader
  rcases r.nextUnit with _ | e | u
  · rfl
  · rfl
  · simp only
    split
    · rfl
    · split
      · rfl
      · split <;> rfl

theorem linesAfterNew_ok {σ : Type} [Src σ] {env : Env} {s : σ} {r : Reader σ env.Lang} (h : Reader.new env s = .ok r) : linesAfterNew env s = r.lines := by
  unfold Reader.new at h
  unfold linesAfterNew
  simp only at h ⊢
  generalize nextUnitM true (⟨s, none, [], [], [], env.langInvariant, none⟩ : Reader σ env.Lang) = x at h ⊢
  rcases x with ⟨(_ | e | u) | e | _, q⟩
  · cases h; rfl
  · cases h
  · simp only at h ⊢
    by_cases hu : u.message.isEmpty = true
    · rw [if_pos hu] at h ⊢
      generalize parsePoHeader env { q with nextUnit := some (.ok u) } = x at h ⊢
      rcases x with ⟨o | e | _, q'⟩
      · simp only at h ⊢
        generalize nextUnitM false q' = y at h ⊢
        rcases y with ⟨y | e | _, t⟩
        · cases h; rfl
        · cases h
        · cases h
      · cases h
      · cases h
    · rw [if_neg hu] at h ⊢
      cases h; rfl
  · cases h
  · cases h

theorem linesAfterNew_err {σ : Type} [Src σ] [LawfulSrc σ] {env : Env} {s : σ} {e : Err} (h : Reader.new env s = .err e) :
    linesAfterNew env s = (nextUnitM true (⟨s, none, [], [], [], env.langInvariant, none⟩ : Reader σ env.Lang)).2.lines := by
  unfold Reader.new at h
  unfold linesAfterNew
  simp only at h ⊢
  generalize nextUnitM true (⟨s, none, [], [], [], env.langInvariant, none⟩ : Reader σ env.Lang) = x at h ⊢
  rcases x with ⟨(_ | e | u) | e | _, q⟩
  · cases h
  · rfl
  · simp only at h ⊢
    by_cases hu : u.message.isEmpty = true
    · rw [if_pos hu] at h ⊢
      have hl := parsePoHeader_lines env { q with nextUnit := some (.ok u) }
      rcases hp : parsePoHeader env { q with nextUnit := some (.ok u) } with ⟨o | e | _, q'⟩
      · rw [hp] at h
        simp only at h
        have hn : ∀ e, (nextUnitM false q').1 ≠ .err e := by
          intro e hc
          unfold nextUnitM at hc
          rcases hr : readUnit false q' with ⟨(_ | _) | _ | _, _⟩ <;> rw [hr] at hc <;> cases hc
        rcases hz : nextUnitM false q' with ⟨y | e | _, t⟩
        · rw [hz] at h; cases h
        · exact absurd (by rw [hz]) (hn e)
        · rw [hz] at h; cases h
      · rw [hp] at hl; exact hl
      · rw [hp] at h; cases h
    · rw [if_neg hu] at h; cases h
  · rfl
  · cases h

/-- **C59** A `parse()` that fails has called its line source at most three times for every line and 25 times more, whatever the plural forms. -/
theorem C59_fails {stream : List Event} {e : Err} (h : Fails (parse env stream) e) : callsOfParse env stream ≤ 3 * (rawLines (flatten stream)).length + 25 := by
  have hU := fun (L : Type) (first : Bool) => sim_readUnit (L := L) (first := first) count_srcRel
  have h0 : CountRel (⟨⟨.new stream [], none⟩, 0⟩ : Counted Peekable) ⟨streamItems stream, 0⟩ := by
    refine ⟨?_, rfl⟩
    show (LineIter.new stream []).polls = _
    rw [LineIter.new_polls, rawPolls, pollItems_some, streamItems_code]
  have hf : parseCounted env stream = .err e := by
    have := C59_same (env := env) stream 0
    rw [h] at this
    rcases hp : parseCounted env stream with r | e' | _ <;> rw [hp] at this <;> cases this
    rfl
  unfold callsOfParse
  rw [linesAfterNew_err hf]
  have hs := sim_nextUnitM hU true (⟨⟨⟨.new stream [], none⟩, 0⟩, none, [], [], [], env.langInvariant, none⟩ : Reader (Counted Peekable) env.Lang)
    ⟨⟨streamItems stream, 0⟩, none, [], [], [], env.langInvariant, none⟩ ⟨h0, rfl, rfl, rfl, rfl, rfl, rfl⟩
  rw [hs.2.lines.2]
  obtain ⟨h1, _⟩ := cheapR_nextUnitM true (⟨⟨streamItems stream, 0⟩, none, [], [], [], env.langInvariant, none⟩ : Reader (Counted (List Item)) env.Lang)
  have hl : (streamItems stream).length ≤ (rawLines (flatten stream)).length := by rw [streamItems_code]; exact items_length _ _
  have h2 : ∀ s, s.calls ≤ pot s := fun s => Nat.le_add_right _ _
  have h3 := h2 (nextUnitM true (⟨⟨streamItems stream, 0⟩, none, [], [], [], env.langInvariant, none⟩ : Reader (Counted (List Item)) env.Lang)).2.lines
  have h4 : pot (⟨streamItems stream, 0⟩ : Counted (List Item)) = 0 + 3 * (streamItems stream).length := rfl
  have h5 : 2 * nplurals none + 21 = 25 := rfl
  simp only at h1 h4
  omega

/-- **C59** The calls of a `parse()` that succeeds are those that its reader has counted. -/
theorem C59_calls {stream : List Event} {r : Reader (Counted Peekable) env.Lang} (h : parseCounted env stream = .ok r) : callsOfParse env stream = r.lines.calls := by
  unfold callsOfParse
  rw [linesAfterNew_ok h]

theorem calls_end {σ L : Type} [Src σ] {r r' : Reader σ L} {xs : List (Option (Except Err PoUnit))} (h : r.nextUnit = none) (hc : Calls r xs r') : r' = r ∧ ∀ x ∈ xs, x = none := by
  induction hc with
  | nil => exact ⟨rfl, by simp⟩
  | @cons r x r1 xs r2 h1 _ ih =>
    unfold Reader.next at h1
    rw [h] at h1
    cases h1
    obtain ⟨rfl, h2⟩ := ih h
    exact ⟨rfl, by simpa using h2⟩

/-- **C59** Once `next()` has returned `None` or an error, further calls return `None` and leave the line source alone. -/
theorem C59_idle {L : Type} {r r' r'' : Reader (Counted Peekable) L} {x : Option (Except Err PoUnit)} {xs : List (Option (Except Err PoUnit))} (h : Calls r [x] r')
    (hx : ∀ u, x ≠ some (.ok u)) (hc : Calls r' xs r'') : r''.lines.calls = r'.lines.calls ∧ ∀ y ∈ xs, y = none := by
  cases h with
  | cons h1 h2 =>
    cases h2
    have hn : r'.nextUnit = none := by
      rcases hr : r.nextUnit with _ | e | u
      · unfold Reader.next at h1; rw [hr] at h1; cases h1; exact hr
      · unfold Reader.next at h1; rw [hr] at h1; cases h1; rfl
      · obtain ⟨y, q, hy, hk, _⟩ := nextUnitM_good false r
        rw [next_ok hr, hy] at h1
        cases h1
        exact absurd rfl (hx u)
    obtain ⟨rfl, h3⟩ := calls_end hn hc
    exact ⟨rfl, h3⟩

/-- **C59** It has called its line source at least `nplurals` times for every plural unit that it has returned. -/
theorem C59_least {stream : List Event} {r r' : Reader (Counted Peekable) env.Lang} {xs : List (Option (Except Err PoUnit))}
    (h : parseCounted env stream = .ok r) (hc : Calls r xs r') : (xs.map lookups).sum ≤ r'.lines.calls := by
  have h1 := busy_new env h
  have h2 := busy_calls hc
  omega

/-! ### A short catalogue that takes 2^64 calls -/

/-- Its plural forms. -/
def slowForms : PluralForms := ⟨.var, 18446744073709551615, c!"nplurals=18446744073709551615; plural=n;", c!"n"⟩

/-- Its header data. -/
def slowHeader : Header demoEnv.Lang := ⟨[], [], [(c!"Plural-Forms", c!"nplurals=18446744073709551615; plural=n;")], []⟩

/-- Its unit. -/
def slowUnit : PoUnit := { PoUnit.default with message := .plural ⟨c!"a", c!"b", [c!"x"], some slowForms⟩, state := .final }

/-- The catalogue. -/
def slowLines : List Str := [c!"msgid \"\"", c!"msgstr \"Plural-Forms: nplurals=18446744073709551615; plural=n;\\n\"", c!"", c!"msgid \"a\"", c!"msgid_plural \"b\"",
  c!"msgstr[0] \"x\"", c!""]

set_option maxRecDepth 100000 in
theorem slow_writable : WritableCat demoEnv ⟨some slowHeader, [slowUnit]⟩ (some slowForms) := by
  refine ⟨⟨⟨?_, ?_, ?_, by decide, rfl⟩, .given (by decide) ((formsParse_iff (env := demoEnv)).mp (by rfl))⟩, ?_⟩
  · intro x hx; cases hx
  · intro x hx; cases hx
  · intro x hx
    simp only [slowHeader, List.mem_singleton] at hx
    subst hx
    simp only [WritableProperty, Trimmed]
    decide
  · intro u hu
    simp only [List.mem_singleton] at hu
    subst hu
    refine ⟨?_, ?_, ?_, ?_, by decide, ⟨by decide, by decide, rfl⟩, rfl, ⟨by decide, ?_⟩⟩
    · intro x hx; cases hx
    · intro x hx; cases hx
    · intro x hx; cases hx
    · intro x hx; cases hx
    · constructor
      · intro _; exact ⟨by decide, _, List.mem_cons_self, by decide⟩
      · intro _; rfl

set_option maxRecDepth 100000 in
theorem slow_lines : catLines (⟨some slowHeader, [slowUnit]⟩ : Cat demoEnv.Lang) = slowLines := by rfl

set_option maxRecDepth 100000 in
/-- **C59** The number of calls is not bounded by the size of the input: a catalogue of seven lines is read without error, and its only unit has
cost at least 2^64 - 1 calls. -/
theorem C59_slow : (∃ hdr, Yields (parse demoEnv (textStream slowLines)) hdr (results [slowUnit] none)) ∧
    ∃ r r', parseCounted demoEnv (textStream slowLines) = .ok r ∧ Calls r [some (.ok slowUnit)] r' ∧ 2 ^ 64 - 1 ≤ r'.lines.calls := by
  obtain ⟨hdr, _, hy⟩ := C13_round_trip slow_writable (slow_lines ▸ rendering_lf (ls := slowLines) (by decide)) (textStream_flatten slowLines)
  have hy' : Yields (parseCounted demoEnv (textStream slowLines)) hdr (results [slowUnit] none) := fun k => (C59_same _ k).trans (hy k)
  obtain ⟨r, h1, _, h2⟩ := yields_calls hy'
  obtain ⟨r', h3⟩ := h2 1
  refine ⟨⟨hdr, hy⟩, r, r', h1, h3, ?_⟩
  have := C59_least h1 h3
  simp only [List.range_one, List.map_cons, List.map_nil, List.sum_cons, List.sum_nil] at this
  have e : lookups (results [slowUnit] none)[0]? = 18446744073709551615 := rfl
  rw [e] at this
  omega

-- the bound for the demo catalogue
set_option maxRecDepth 100000 in
example : ∃ r, parseCounted demoEnv (textStream richLines) = .ok r ∧
    ∀ xs r', Calls r xs r' → r'.lines.calls ≤ 28 * ((rawLines (flatten (textStream richLines))).length + 2) := by
  obtain ⟨r, h1, h2, _⟩ := yields_calls (r := parseCounted demoEnv (textStream richLines)) fun k => (C59_same _ k).trans (rich_yields k)
  exact ⟨r, h1, fun xs r' hc => C59_bound (forms := some richForms) h1 (by rw [h2]; exact .given (by decide) ((formsParse_iff (env := demoEnv)).mp (by rfl))) hc⟩

-- asking again after the end
set_option maxRecDepth 100000 in
example : ∃ (r r' : Reader (Counted Peekable) demoEnv.Lang), parseCounted demoEnv (textStream slowLines) = .ok r ∧ Calls r [some (.ok slowUnit), none] r' ∧
    ∀ xs r'', Calls r' xs r'' → r''.lines.calls = r'.lines.calls ∧ ∀ y ∈ xs, y = none := by
  obtain ⟨hdr, _, hy⟩ := C13_round_trip slow_writable (slow_lines ▸ rendering_lf (ls := slowLines) (by decide)) (textStream_flatten slowLines)
  obtain ⟨r, h1, _, h2⟩ := yields_calls (r := parseCounted demoEnv (textStream slowLines)) fun k => (C59_same _ k).trans (hy k)
  obtain ⟨r', h3⟩ := h2 2
  refine ⟨r, r', h1, h3, fun xs r'' hc => ?_⟩
  cases h3 with
  | cons _ h4 => exact C59_idle h4 (fun u h => by cases h) hc

-- a catalogue that is refused at its second line
example : callsOfParse demoEnv (textStream [c!"msgid \"a\"", c!"garbage"]) ≤ 31 :=
  C59_fails (env := demoEnv) (e := .parse 3 (c!"garbage") []) (fails_text (env := demoEnv) (by decide) (by rfl))

end Verif
