import Verif.Spec.Markers
import Verif.Props.Select

/-! C98: obsolete markers decide only which units are obsolete. -/

namespace Verif
open Spec

/-- The same lines with other numbers and markers. -/
inductive Remarked : List PoLine → List PoLine → Prop
  | nil : Remarked [] []
  | comment {n n' c s b b'} : Remarked b b' → Remarked (.comment n c s :: b) (.comment n' c s :: b')
  | message {n n' p p' k s b b'} : Remarked b b' → Remarked (.message n p k s :: b) (.message n' p' k s :: b')
  | continuation {n n' p p' s b b'} : Remarked b b' → Remarked (.continuation n p s :: b) (.continuation n' p' s :: b')

theorem Remarked.split {a b c : List PoLine} (h : Remarked (a ++ b) c) : ∃ a' b', c = a' ++ b' ∧ Remarked a a' ∧ Remarked b b' := by
  induction a generalizing c with
  | nil => exact ⟨[], c, rfl, .nil, h⟩
  | cons x a ih =>
    cases h with
    | comment h => obtain ⟨a', b', rfl, h1, h2⟩ := ih h; exact ⟨_ :: a', b', rfl, .comment h1, h2⟩
    | message h => obtain ⟨a', b', rfl, h1, h2⟩ := ih h; exact ⟨_ :: a', b', rfl, .message h1, h2⟩
    | continuation h => obtain ⟨a', b', rfl, h1, h2⟩ := ih h; exact ⟨_ :: a', b', rfl, .continuation h1, h2⟩

theorem remark_comments {hi : Nat} {cs : List (Nat × Char × Str)} {b' : List PoLine} (h : Remarked (cs.map commentLine) b') {a c : Place} (ha : AtBorder a)
    (hf : EachFollows hi a b' c) : ∃ cs' : List (Nat × Char × Str), b' = cs'.map commentLine ∧ cs'.map Prod.snd = cs.map Prod.snd ∧ AtBorder c := by
  induction cs generalizing b' a with
  | nil => cases h; cases hf; exact ⟨[], rfl, rfl, ha⟩
  | cons d cs ih =>
    cases h with
    | @comment _ n' _ _ _ _ h =>
      cases hf with
      | cons g hf =>
        cases g with
        | comment =>
          obtain ⟨cs', rfl, h2, h3⟩ := ih h .fresh hf
          exact ⟨(n', d.2) :: cs', rfl, by simp [h2], h3⟩

theorem remark_continuations {hi : Nat} {q p : Str} {cs : List (Nat × Str)} {b' : List PoLine} (h : Remarked (cs.map fun c => PoLine.continuation c.1 q c.2) b')
    {k : FieldKind} {v : Str} {c : Place} (hf : EachFollows hi (.field p k v) b' c) :
    ∃ cs' : List (Nat × Str), b' = (cs'.map fun c => PoLine.continuation c.1 p c.2) ∧ cs'.map Prod.snd = cs.map Prod.snd ∧
      c = .field p k (v ++ (cs.map Prod.snd).flatten) := by
  induction cs generalizing b' v with
  | nil => cases h; cases hf; exact ⟨[], rfl, rfl, by simp⟩
  | cons d cs ih =>
    cases h with
    | @continuation _ n' _ _ _ _ _ h =>
      cases hf with
      | cons g hf =>
        cases g with
        | continues =>
          obtain ⟨cs', h1, h2, h3⟩ := ih h hf
          exact ⟨(n', d.2) :: cs', by rw [h1]; rfl, by simp [h2], by rw [h3]; simp⟩

theorem remark_field {hi : Nat} {k : FieldKind} {o : Bool} {b b' : List PoLine} {v : Str} (f : Field k.word o b v) (h : Remarked b b') {a c : Place}
    (hf : EachFollows hi a b' c) : ∃ p, FieldLines k.word p b' v ∧ c = .field p k v ∧
      ((AtBorder a ∧ MayBegin k) ∨ ∃ q k0 v0, a = .field q k0 v0 ∧ (Tilde q ↔ Tilde p)) := by
  obtain ⟨q, ⟨n, s, cs, rfl, rfl⟩, _⟩ := f
  cases h with
  | @message _ n' _ p _ _ _ _ h =>
    cases hf with
    | cons g hf =>
      generalize hw : k.word = w at g
      cases g with
      | begins ha hk =>
        cases word_inj hw
        obtain ⟨cs', h1, h2, h3⟩ := remark_continuations h hf
        exact ⟨p, ⟨n', s, cs', by rw [h1], by rw [h2]⟩, h3, .inl ⟨ha, hk⟩⟩
      | goesOn hk hp =>
        cases word_inj hw
        obtain ⟨cs', h1, h2, h3⟩ := remark_continuations h hf
        exact ⟨p, ⟨n', s, cs', by rw [h1], by rw [h2]⟩, h3, .inr ⟨_, _, _, rfl, hp⟩⟩

/-- The place is at a border, or in an entry of kind `o`. -/
def PlaceFits (o : Bool) (a : Place) : Prop := AtBorder a ∨ ∃ p k v, a = .field p k v ∧ (o = true ↔ Tilde p)

theorem fits_exists (a : Place) : ∃ o, PlaceFits o a := by
  cases a with
  | fresh => exact ⟨true, .inl .fresh⟩
  | field p k v =>
    by_cases h : Tilde p
    · exact ⟨true, .inr ⟨p, k, v, rfl, by simp [h]⟩⟩
    · exact ⟨false, .inr ⟨p, k, v, rfl, by simp [h]⟩⟩

theorem remark_first {hi : Nat} {k : FieldKind} {o o' : Bool} {b b' : List PoLine} {v : Str} (f : Field k.word o b v) (h : Remarked b b') {a c : Place}
    (hf : EachFollows hi a b' c) (hk : ∀ p v, ¬ AtBorder (.field p k v)) (ho : PlaceFits o' c) : Field k.word o' b' v ∧ PlaceFits o' a := by
  obtain ⟨p, h1, rfl, h2⟩ := remark_field f h hf
  rcases ho with ho | ⟨_, _, _, he, ho⟩
  · exact absurd ho (hk _ _)
  · cases he
    refine ⟨⟨p, h1, ho⟩, ?_⟩
    rcases h2 with ⟨h2, _⟩ | ⟨q, k0, v0, rfl, h2⟩
    · exact .inl h2
    · exact .inr ⟨_, _, _, rfl, ho.trans h2.symm⟩

theorem remark_opt {hi : Nat} {k : FieldKind} {o o' : Bool} {b b' : List PoLine} {v : Option Str} (f : OptField k.word o b v) (h : Remarked b b') {a c : Place}
    (hf : EachFollows hi a b' c) (hk : ∀ p v, ¬ AtBorder (.field p k v)) (ho : PlaceFits o' c) : OptField k.word o' b' v ∧ PlaceFits o' a := by
  cases f with
  | none => cases h; cases hf; exact ⟨.none, ho⟩
  | some f => obtain ⟨h1, h2⟩ := remark_first f h hf hk ho; exact ⟨.some h1, h2⟩

theorem remark_values {o o' : Bool} {hi lo : Nat} {b b' : List PoLine} {vs : List Str} (f : ValueFields o hi lo b vs) (h : Remarked b b') {p : Str} {k : FieldKind} {v : Str}
    {c : Place} (hf : EachFollows hi (.field p k v) b' c) (ho : o' = true ↔ Tilde p) :
    ValueFields o' hi lo b' vs ∧ ((vs = [] ∧ c = .field p k v) ∨ AtBorder c) := by
  induction f generalizing b' p k v with
  | nil => cases h; cases hf; exact ⟨.nil, .inl ⟨rfl, rfl⟩⟩
  | @cons lo i b v bs vs h1 h2 f _ ih =>
    obtain ⟨b1, b2, rfl, g1, g2⟩ := h.split
    obtain ⟨x, hf1, hf2⟩ := follows_split hf
    obtain ⟨q, h3, rfl, h4⟩ := remark_field (k := .value i) f g1 hf1
    have hq : o' = true ↔ Tilde q := by
      rcases h4 with ⟨_, h4⟩ | ⟨_, _, _, he, h4⟩
      · cases h4
      · cases he; exact ho.trans h4
    obtain ⟨h5, h6⟩ := ih g2 hf2 hq
    refine ⟨.cons h1 h2 ⟨q, h3, hq⟩ h5, .inr ?_⟩
    rcases h6 with ⟨_, rfl⟩ | h6
    · exact .value
    · exact h6

theorem remark_texts {forms : Option PluralForms} {o o' : Bool} {id : Str} {idPl : Option Str} {b b' : List PoLine} {m : Message} (f : TextFields forms o id idPl b m)
    (h : Remarked b b') {p : Str} {k : FieldKind} {v : Str} {c : Place} (hf : EachFollows (nplurals forms) (.field p k v) b' c) (ho : o' = true ↔ Tilde p) :
    TextFields forms o' id idPl b' m ∧ AtBorder c := by
  cases f with
  | simple f =>
    obtain ⟨q, h3, rfl, h4⟩ := remark_field (k := .text) f h hf
    have hq : o' = true ↔ Tilde q := by
      rcases h4 with ⟨_, h4⟩ | ⟨_, _, _, he, h4⟩
      · cases h4
      · cases he; exact ho.trans h4
    exact ⟨.simple ⟨q, h3, hq⟩, .text⟩
  | plural f hv =>
    obtain ⟨h1, h2⟩ := remark_values f h hf ho
    exact ⟨.plural h1 hv, h2.resolve_left fun h => hv h.1⟩

theorem remark_head {hi : Nat} {o o' : Bool} {b b' : List PoLine} (f : EntryHead o b) (h : Remarked b b') {a c : Place} (ha : AtBorder a) (hf : EachFollows hi a b' c)
    (ho : PlaceFits o' c) : EntryHead o' b' := by
  obtain ⟨cs, b1, b2, b3, b4, _, _, _, _, rfl, f1, f2, f3, g3, f4⟩ := f
  obtain ⟨c0, _, rfl, k0, h⟩ := h.split
  obtain ⟨c1, _, rfl, k1, h⟩ := h.split
  obtain ⟨c2, _, rfl, k2, h⟩ := h.split
  obtain ⟨c3, c4, rfl, k3, k4⟩ := h.split
  obtain ⟨a0, w0, hf⟩ := follows_split hf
  obtain ⟨a1, w1, hf⟩ := follows_split hf
  obtain ⟨a2, w2, hf⟩ := follows_split hf
  obtain ⟨a3, w3, w4⟩ := follows_split hf
  obtain ⟨cs', rfl, _, _⟩ := remark_comments k0 ha w0
  obtain ⟨r4, ho⟩ := remark_opt (k := .context) f4 k4 w4 (by rintro _ _ ⟨⟩) ho
  obtain ⟨r3, ho⟩ := remark_opt (k := .prevPluralId) f3 k3 w3 (by rintro _ _ ⟨⟩) ho
  obtain ⟨r2, ho⟩ := remark_opt (k := .prevId) f2 k2 w2 (by rintro _ _ ⟨⟩) ho
  obtain ⟨r1, _⟩ := remark_opt (k := .prevContext) f1 k1 w1 (by rintro _ _ ⟨⟩) ho
  exact ⟨cs', c1, c2, c3, c4, _, _, _, _, rfl, r1, r2, r3, g3, r4⟩

theorem remark_ids {hi : Nat} {o o' : Bool} {idPl : Option Str} {b b' : List PoLine} (f : EntryIds o idPl b) (h : Remarked b b') {a c : Place} (ha : AtBorder a)
    (hf : EachFollows hi a b' c) (ho : PlaceFits o' c) : EntryIds o' idPl b' := by
  obtain ⟨b0, b5, b6, id, rfl, f0, f5, f6⟩ := f
  obtain ⟨c0, _, rfl, k0, h⟩ := h.split
  obtain ⟨c5, c6, rfl, k5, k6⟩ := h.split
  obtain ⟨a0, w0, hf⟩ := follows_split hf
  obtain ⟨a5, w5, w6⟩ := follows_split hf
  obtain ⟨r6, ho⟩ := remark_opt (k := .pluralId) f6 k6 w6 (by rintro _ _ ⟨⟩) ho
  obtain ⟨r5, ho⟩ := remark_first (k := .id) f5 k5 w5 (by rintro _ _ ⟨⟩) ho
  exact ⟨c0, c5, c6, id, rfl, remark_head f0 k0 ha w0 ho, r5, r6⟩

theorem remark_entry {forms : Option PluralForms} {b b' : List PoLine} {u : PoUnit} (f : Entry forms b u) (h : Remarked b b') {a c : Place} (ha : AtBorder a)
    (hf : EachFollows (nplurals forms) a b' c) : AtBorder c ∧ ∃ o, Entry forms b' { u with obsolete := o } := by
  obtain ⟨cs, b1, b2, b3, b4, b5, b6, b7, pid, ppl, id, idPl, rfl, f1, f2, f3, g3, f4, f5, f6, f7, f8, f9, f10⟩ := f
  obtain ⟨c0, _, rfl, k0, h⟩ := h.split
  obtain ⟨c1, _, rfl, k1, h⟩ := h.split
  obtain ⟨c2, _, rfl, k2, h⟩ := h.split
  obtain ⟨c3, _, rfl, k3, h⟩ := h.split
  obtain ⟨c4, _, rfl, k4, h⟩ := h.split
  obtain ⟨c5, _, rfl, k5, h⟩ := h.split
  obtain ⟨c6, c7, rfl, k6, k7⟩ := h.split
  obtain ⟨a0, w0, hf⟩ := follows_split hf
  obtain ⟨a1, w1, hf⟩ := follows_split hf
  obtain ⟨a2, w2, hf⟩ := follows_split hf
  obtain ⟨a3, w3, hf⟩ := follows_split hf
  obtain ⟨a4, w4, hf⟩ := follows_split hf
  obtain ⟨a5, w5, hf⟩ := follows_split hf
  obtain ⟨a6, w6, w7⟩ := follows_split hf
  have h6 : ∃ p k v, a6 = .field p k v := by
    obtain ⟨p, _, rfl, _⟩ := remark_field (k := .id) f5 k5 w5
    cases f6 with
    | none => cases k6; cases w6; exact ⟨_, _, _, rfl⟩
    | some f6 => obtain ⟨p, _, rfl, _⟩ := remark_field (k := .pluralId) f6 k6 w6; exact ⟨_, _, _, rfl⟩
  obtain ⟨p, k, v, rfl⟩ := h6
  obtain ⟨o, hp⟩ : ∃ o : Bool, o = true ↔ Tilde p := by
    by_cases h : Tilde p
    · exact ⟨true, by simp [h]⟩
    · exact ⟨false, by simp [h]⟩
  obtain ⟨r7, hc⟩ := remark_texts f7 k7 w7 hp
  obtain ⟨r6, ho⟩ := remark_opt (k := .pluralId) f6 k6 w6 (by rintro _ _ ⟨⟩) (.inr ⟨p, k, v, rfl, hp⟩)
  obtain ⟨r5, ho⟩ := remark_first (k := .id) f5 k5 w5 (by rintro _ _ ⟨⟩) ho
  obtain ⟨r4, ho⟩ := remark_opt (k := .context) f4 k4 w4 (by rintro _ _ ⟨⟩) ho
  obtain ⟨r3, ho⟩ := remark_opt (k := .prevPluralId) f3 k3 w3 (by rintro _ _ ⟨⟩) ho
  obtain ⟨r2, ho⟩ := remark_opt (k := .prevId) f2 k2 w2 (by rintro _ _ ⟨⟩) ho
  obtain ⟨r1, _⟩ := remark_opt (k := .prevContext) f1 k1 w1 (by rintro _ _ ⟨⟩) ho
  obtain ⟨cs', rfl, hcs, _⟩ := remark_comments k0 ha w0
  exact ⟨hc, o, cs', c1, c2, c3, c4, c5, c6, c7, pid, ppl, id, idPl, rfl, r1, r2, r3, g3, r4, r5, r6, r7, f8, by
    rw [hcs]
    exact ⟨f9.flags, f9.locations, f9.notes, f9.comments⟩, ⟨f10.needsWork, f10.final⟩⟩

theorem remark_run {forms : Option PluralForms} {l : List Item} {us : List PoUnit} {e : Option Err} (h : Run forms l us e) (he : e = none) {b b' : List PoLine}
    (hl : l = b.map .ok) (hk : Remarked b b') {a c : Place} (ha : AtBorder a) (hf : EachFollows (nplurals forms) a b' c) :
    ∃ us', Run forms (b'.map .ok) us' none ∧ Each OnlyObsolete us us' := by
  induction h generalizing b b' a with
  | stop h =>
    subst he hl
    generalize hb : b.map Except.ok = l at h
    generalize he : (none : Option Err) = e at h
    obtain ⟨o', ho⟩ := fits_exists c
    cases h with
    | endsInHead h => cases map_ok_inj hb; exact ⟨[], .stop (.endsInHead (remark_head h hk ha hf ho)), .nil⟩
    | endsAfterIds h => cases map_ok_inj hb; exact ⟨[], .stop (.endsAfterIds (remark_ids h hk ha hf ho)), .nil⟩
    | _ => cases he
  | @entry block u rest us e h1 h2 h3 hr ih =>
    subst he
    obtain ⟨r, _, rfl, _⟩ := follows_run hr rfl .fresh
    rw [← List.map_append] at hl
    cases map_ok_inj hl
    obtain ⟨b1, b2, rfl, k1, k2⟩ := hk.split
    obtain ⟨x, w1, w2⟩ := follows_split hf
    obtain ⟨hx, o, h4⟩ := remark_entry h1 k1 ha w1
    obtain ⟨us', h5, h7⟩ := ih rfl rfl k2 hx w2
    refine ⟨{ u with obsolete := o } :: us', ?_, .cons rfl h7⟩
    rw [List.map_append]
    exact .entry h4 h2 ((ends_iff h4).mpr (entryEnd_fresh (run_fresh h5 (.inr rfl)))) h5

theorem remark_lines {n : Nat} {rs rs' : List (Except IoErr Str)} {b : List PoLine} (hn : ∀ s, .ok s ∈ rs → '\n' ∉ s) (h : LineItems n rs (b.map .ok))
    (hc : OtherMarkers rs rs') (n' : Nat) : ∃ b', LineItems n' rs' (b'.map .ok) ∧ Remarked b b' := by
  induction hc generalizing n n' b with
  | nil => generalize hl : b.map Except.ok = l at h; cases h; cases List.map_eq_nil_iff.mp hl; exact ⟨[], .nil, .nil⟩
  | same _ ih =>
    generalize hl : b.map Except.ok = l at h
    cases h with
    | failed => cases b <;> simp at hl
    | unrecognised => cases b <;> simp at hl
    | blank hc h =>
      subst hl
      obtain ⟨b', h1, h2⟩ := ih (fun s hs => hn s (List.mem_cons_of_mem _ hs)) h (n' + 1)
      cases hc with
      | blank hw => exact ⟨b', .blank (.blank hw) h1, h2⟩
    | line hc hb h =>
      cases b with
      | nil => cases hl
      | cons x b =>
        simp only [List.map_cons, List.cons.injEq, Except.ok.injEq] at hl
        obtain ⟨rfl, rfl⟩ := hl
        obtain ⟨b', h1, h2⟩ := ih (fun s hs => hn s (List.mem_cons_of_mem _ hs)) h (n' + 1)
        cases hc with
        | blank => exact absurd rfl hb
        | keyword g => exact ⟨_ :: b', .line (.keyword g) (by simp) h1, .message h2⟩
        | continuation g => exact ⟨_ :: b', .line (.continuation g) (by simp) h1, .continuation h2⟩
        | comment g1 g2 g3 => exact ⟨_ :: b', .line (.comment g1 g2 g3) (by simp) h1, .comment h2⟩
  | @quoted s s' m m' k raw raw' rs rs' hq hq' hm hr _ ih =>
    have hs := hn _ (List.mem_cons_self ..)
    have hc : ∀ n, ∃ ln, Classified s n (some ln) ∧ ln ≠ .blank := by
      intro n
      cases k with
      | none => exact ⟨_, .continuation hq, by simp⟩
      | some k => exact ⟨_, .keyword hq, by simp⟩
    obtain ⟨ln, hln, hnb⟩ := hc n
    generalize hl : b.map Except.ok = l at h
    cases h with
    | unrecognised => cases b <;> simp at hl
    | blank hc _ => exact absurd (by simpa using classified_unique hs hln hc) hnb
    | line hc hb h =>
      cases b with
      | nil => cases hl
      | cons x b =>
        simp only [List.map_cons, List.cons.injEq, Except.ok.injEq] at hl
        obtain ⟨rfl, rfl⟩ := hl
        obtain ⟨b', h1, h2⟩ := ih (fun s hs => hn s (List.mem_cons_of_mem _ hs)) h (n' + 1)
        cases k with
        | none =>
          cases classified_unique hs hc (.continuation hq)
          exact ⟨_ :: b', .line (.continuation hq') (by simp) h1, by rw [hr]; exact .continuation h2⟩
        | some k =>
          cases classified_unique hs hc (.keyword hq)
          refine ⟨_ :: b', .line (.keyword hq') (by simp) h1, ?_⟩
          have : taggedKeyword m k = taggedKeyword m' k := by simp only [taggedKeyword, hm]
          rw [hr, this]
          exact .message h2

theorem remark_runs {forms : Option PluralForms} {n n' : Nat} {rs rs' : List (Except IoErr Str)} {us us' : List PoUnit} (hn : ∀ s, .ok s ∈ rs → '\n' ∉ s)
    (hn' : ∀ s, .ok s ∈ rs' → '\n' ∉ s) (h : Run forms (items n rs) us none) (h' : Run forms (items n' rs') us' none) (hc : OtherMarkers rs rs') :
    Each OnlyObsolete us us' := by
  obtain ⟨b, c, hb, _⟩ := follows_run h rfl .fresh
  have hl := items_lineItems hn n
  rw [hb] at hl h
  obtain ⟨b', h1, h2⟩ := remark_lines hn hl hc n'
  have he := h1.unique hn' (items_lineItems hn' n')
  obtain ⟨b1, c', hb', hf⟩ := follows_run h' rfl .fresh
  cases map_ok_inj (he.trans hb')
  obtain ⟨us1, h3, h4⟩ := remark_run h rfl rfl h2 .fresh hf
  rw [he] at h3
  obtain ⟨rfl, _⟩ := h3.unique h'
  exact h4

/-- **C98** Two inputs that differ only in the obsolete markers after the header and are both read without error have the same header data and the same units, except
for which are obsolete. -/
theorem C98_headed {env : Env} {stream stream' : List Event} {hd rs rs' : List (Except IoErr Str)} {hdr hdr' : Header env.Lang} {us us' : List PoUnit}
    (h : rawLines (flatten stream) = hd ++ rs) (h' : rawLines (flatten stream') = hd ++ rs') (hh : HeaderLines hd) (hc : NoContinuation rs) (hr : OtherMarkers rs rs')
    (hy : Yields (parse env stream) hdr (results us none)) (hy' : Yields (parse env stream') hdr' (results us' none)) :
    SameHeader hdr hdr' ∧ Each OnlyObsolete us us' := by
  have hn : ∀ s, .ok s ∈ rs → '\n' ∉ s := fun s hs => rawLines_no_nl (inp := flatten stream) (s := s) (by rw [h]; simp [hs])
  have hn' : ∀ s, .ok s ∈ rs' → '\n' ∉ s := fun s hs => rawLines_no_nl (inp := flatten stream') (s := s) (by rw [h']; simp [hs])
  obtain ⟨forms, hf, hrun⟩ := after_header h hh hc hy
  have hc' : NoContinuation rs' := by
    intro n l m p s tl hli heq
    obtain ⟨b, _, hb, _⟩ := follows_run hrun rfl .fresh
    have hl := items_lineItems hn (1 + hd.length)
    rw [hb] at hl
    obtain ⟨b', h1, h2⟩ := remark_lines hn hl hr n
    have := (h1.unique hn' hli).trans heq
    cases h2 with
    | continuation _ => exact hc _ _ _ _ _ _ hl rfl
    | _ => simp at this
  have hs := headed_same h h' hh hc hc' hy hy'
  obtain ⟨forms', hf', hrun'⟩ := after_header h' hh hc' hy'
  have : forms = forms' := by
    rw [← hs.properties] at hf'
    have := ((formsRule_iff ..).mp hf).symm.trans ((formsRule_iff ..).mp hf')
    simpa using this
  subst this
  exact ⟨hs, remark_runs hn hn' hrun hrun' hr⟩

theorem plain_run {env : Env} {stream : List Event} {hdr : Header env.Lang} {us : List PoUnit} {e : Option Err} (hf : ∀ ns cs t rest, ¬ First (streamItems stream) (.header ns cs t rest))
    (hy : Yields (parse env stream) hdr (results us e)) : hdr = plainHeader env ∧ Run none (items 1 (rawLines (flatten stream))) us e := by
  obtain ⟨forms, us1, e1, hx, hr⟩ := yields_reads hy
  obtain ⟨rfl, rfl⟩ := results_inj hx
  rw [streamItems_code] at hr hf
  cases hr with
  | nothing f => exact ⟨rfl, .stop (first_nothing f)⟩
  | plain f hrun =>
    obtain ⟨block, hl, hb, hsrc, hend⟩ := first_unit f
    rw [hl]
    exact ⟨rfl, .entry hb hsrc hend hrun⟩
  | headed f => exact (hf _ _ _ _ f).elim

/-- **C98** The same for inputs without header. -/
theorem C98_plain {env : Env} {stream stream' : List Event} {hdr hdr' : Header env.Lang} {us us' : List PoUnit}
    (hf : ∀ ns cs t rest, ¬ First (streamItems stream) (.header ns cs t rest)) (hf' : ∀ ns cs t rest, ¬ First (streamItems stream') (.header ns cs t rest))
    (hr : OtherMarkers (rawLines (flatten stream)) (rawLines (flatten stream'))) (hy : Yields (parse env stream) hdr (results us none))
    (hy' : Yields (parse env stream') hdr' (results us' none)) : hdr = hdr' ∧ Each OnlyObsolete us us' := by
  obtain ⟨h1, h2⟩ := plain_run hf hy
  obtain ⟨h1', h2'⟩ := plain_run hf' hy'
  exact ⟨h1.trans h1'.symm, remark_runs (fun _ hs => rawLines_no_nl hs) (fun _ hs => rawLines_no_nl hs) h2 h2' hr⟩

/-! Examples. -/

/-- Two entries, and the same with the second marked as obsolete. -/
def plainPair : List Str := [c!"# x", c!"msgid \"a\"", c!"msgstr \"b\"", c!"#| msgid \"e\"", c!"msgid \"c\"", c!"msgstr \"d\""]

def markedPair : List Str := [c!"# x", c!"msgid \"a\"", c!"msgstr \"b\"", c!"#~| msgid \"e\"", c!"#~ msgid \"c\"", c!"#~msgstr \"d\""]

def pairUnits (o : Bool) : List PoUnit :=
  [{ unitAB (c!"a") (c!"b") with notes := [⟨.translator, c!"x"⟩] }, { unitAB (c!"c") (c!"d") with prevMessage := .simple (c!"e") none, obsolete := o }]

theorem pair_marked : OtherMarkers (plainPair.map .ok) (markedPair.map .ok) := by
  refine .same (.same (.same (.quoted (m := some (c!"|")) (m' := some (c!"~|")) (k := some (c!"msgid")) (raw := c!"e") (raw' := c!"e") ?_ ?_ (by simp) rfl
    (.quoted (m := none) (m' := some (c!"~")) (k := some (c!"msgid")) (raw := c!"c") (raw' := c!"c") ?_ ?_ (by simp) rfl
    (.quoted (m := none) (m' := some (c!"~")) (k := some (c!"msgstr")) (raw := c!"d") (raw' := c!"d") ?_ ?_ (by simp) rfl .nil)))))
  · exact ⟨by simp [IsMarker], by simp [IsKeyword], [], [' '], [' '], [], by simp [White], by simp [White, isWhite], by simp [White, isWhite], by simp [White], rfl⟩
  · exact ⟨by simp [IsMarker], by simp [IsKeyword], [], [' '], [' '], [], by simp [White], by simp [White, isWhite], by simp [White, isWhite], by simp [White], rfl⟩
  · exact ⟨by simp, by simp [IsKeyword], [], [], [' '], [], by simp [White], by simp [White], by simp [White, isWhite], by simp [White], rfl⟩
  · exact ⟨by simp [IsMarker], by simp [IsKeyword], [], [' '], [' '], [], by simp [White], by simp [White, isWhite], by simp [White, isWhite], by simp [White], rfl⟩
  · exact ⟨by simp, by simp [IsKeyword], [], [], [' '], [], by simp [White], by simp [White], by simp [White, isWhite], by simp [White], rfl⟩
  · exact ⟨by simp [IsMarker], by simp [IsKeyword], [], [], [' '], [], by simp [White], by simp [White], by simp [White, isWhite], by simp [White], rfl⟩

theorem plainPair_yields : Yields (parse demoEnv (textStream (headLines (c!"X: y") ++ plainPair))) ⟨[], [], [(c!"X", c!"y")], []⟩ (results (pairUnits false) none) :=
  yields_text (env := demoEnv) (res := ⟨⟨[], [], [(c!"X", c!"y")], []⟩, none, pairUnits false, none⟩) (by decide) (by rfl)

theorem markedPair_yields : Yields (parse demoEnv (textStream (headLines (c!"X: y") ++ markedPair))) ⟨[], [], [(c!"X", c!"y")], []⟩ (results (pairUnits true) none) :=
  yields_text (env := demoEnv) (res := ⟨⟨[], [], [(c!"X", c!"y")], []⟩, none, pairUnits true, none⟩) (by decide) (by rfl)

-- `C98_headed`
example : Each OnlyObsolete (pairUnits false) (pairUnits true) :=
  (C98_headed (hd := (headLines (c!"X: y")).map .ok) (rs' := markedPair.map .ok) (by rw [rawLines_text (by decide)]; rfl) (by rw [rawLines_text (by decide)]; rfl)
    (headerLines_demo _) (noContinuation_head (by decide) rfl) pair_marked plainPair_yields markedPair_yields).2

-- `C98_plain`
example {hdr : Header demoEnv.Lang} {us : List PoUnit} (hy : Yields (parse demoEnv (textStream markedPair)) hdr (results us none)) :
    noHeader demoEnv = hdr ∧ Each OnlyObsolete (pairUnits false) us :=
  C98_plain (stream := textStream plainPair) (by
      intro ns cs t rest hf
      rw [streamItems_code, rawLines_text (by decide), first_iff (items_noBlank _ _)] at hf
      cases hf)
    (by
      intro ns cs t rest hf
      rw [streamItems_code, rawLines_text (by decide), first_iff (items_noBlank _ _)] at hf
      cases hf)
    (by rw [rawLines_text (by decide), rawLines_text (by decide)]; exact pair_marked)
    (yields_text (env := demoEnv) (res := ⟨noHeader demoEnv, none, pairUnits false, none⟩) (by decide) (by rfl)) hy

end Verif
