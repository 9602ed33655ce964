import Verif.Spec.Extractor

/-! The extractor as a plan of questions. -/

namespace Verif
open Spec

/-- What to do: return a unit, say what is missing, or ask and go on with the answer. -/
inductive Plan where
  | give (u : PoUnit)
  | stop (tag : Str)
  | ask (tag : Str) (k : Option Str → Plan)

namespace Plan
variable {δ : Type}

def run (D : Decoder δ) (u : PoUnit) : Plan → Eff δ (Option PoUnit)
  | .give u' => Eff.pure (some u')
  | .stop tag => Eff.bind (D.expected tag) fun _ => Eff.pure none
  | .ask tag k => Eff.bind (D.parseMsg tag u) fun a => (k a).run D u

/-- A way through the plan. -/
inductive Path : Plan → Dialog → Option PoUnit → Str → Prop
  | give {u} : Path (.give u) [] (some u) []
  | stop {tag} : Path (.stop tag) [] none tag
  | ask {tag k a d o t} : Path (k a) d o t → Path (.ask tag k) ((tag, a) :: d) o t

theorem path_exists (p : Plan) : ∃ d o t, Path p d o t := by
  induction p with
  | give u => exact ⟨_, _, _, .give⟩
  | stop t => exact ⟨_, _, _, .stop⟩
  | ask tag k ih => obtain ⟨d, o, t, h⟩ := ih none; exact ⟨_, _, _, .ask h⟩

/-- The results of the plan, by its ways. -/
inductive Result (D : Decoder δ) (u : PoUnit) (p : Plan) (s : δ) : Out (Option PoUnit) → δ → Prop
  | unit {d u' t s'} : Path p d (some u') t → Talk D u s d s' → Result D u p s (.ok (some u')) s'
  | nothing {d tag s' s''} : Path p d none tag → Talk D u s d s' → D.expected tag s' = (.ok (), s'') → Result D u p s (.ok none) s''
  | refusal {d tag s' e s''} : Path p d none tag → Talk D u s d s' → D.expected tag s' = (.err e, s'') → Result D u p s (.err e) s''
  | failure {d tag a rest o t s' e s''} : Path p (d ++ (tag, a) :: rest) o t → Talk D u s d s' → D.parseMsg tag u s' = (.err e, s'') → Result D u p s (.err e) s''
  | crash {d tag s' s''} : Path p d none tag → Talk D u s d s' → D.expected tag s' = (.panic, s'') → Result D u p s .panic s''
  | crashAsked {d tag a rest o t s' s''} : Path p (d ++ (tag, a) :: rest) o t → Talk D u s d s' → D.parseMsg tag u s' = (.panic, s'') → Result D u p s .panic s''

theorem result_ask {D : Decoder δ} {u : PoUnit} {tag : Str} {k : Option Str → Plan} {s s' s'' : δ} {a : Option Str} {o : Out (Option PoUnit)}
    (h : D.parseMsg tag u s = (.ok a, s')) (hr : Result D u (k a) s' o s'') : Result D u (.ask tag k) s o s'' := by
  cases hr with
  | unit h1 h2 => exact .unit (.ask h1) (.cons h h2)
  | nothing h1 h2 h3 => exact .nothing (.ask h1) (.cons h h2) h3
  | refusal h1 h2 h3 => exact .refusal (.ask h1) (.cons h h2) h3
  | failure h1 h2 h3 => exact .failure (d := _ :: _) (.ask h1) (.cons h h2) h3
  | crash h1 h2 h3 => exact .crash (.ask h1) (.cons h h2) h3
  | crashAsked h1 h2 h3 => exact .crashAsked (d := _ :: _) (.ask h1) (.cons h h2) h3

theorem run_result (D : Decoder δ) (u : PoUnit) (p : Plan) (s : δ) : Result D u p s (p.run D u s).1 (p.run D u s).2 := by
  induction p generalizing s with
  | give u' => exact .unit .give .nil
  | stop tag =>
    rw [run, Eff.bind]
    rcases h : D.expected tag s with ⟨_ | _ | _, s'⟩
    · exact .nothing .stop .nil h
    · exact .refusal .stop .nil h
    · exact .crash .stop .nil h
  | ask tag k ih =>
    rw [run, Eff.bind]
    rcases h : D.parseMsg tag u s with ⟨a | e | _, s'⟩
    · exact result_ask h (ih a s')
    · obtain ⟨d, o, t, hp⟩ := path_exists (k none)
      exact .failure (d := []) (.ask hp) .nil h
    · obtain ⟨d, o, t, hp⟩ := path_exists (k none)
      exact .crashAsked (d := []) (.ask hp) .nil h

theorem path_talk {D : Decoder δ} {u : PoUnit} {p : Plan} {d d' : Dialog} {o o' : Option PoUnit} {t t' : Str} {s s1 : δ} (h : Path p d o t) (h' : Path p d' o' t')
    (ht : Talk D u s d s1) {s2 : δ} (ht' : Talk D u s d' s2) : d = d' ∧ o = o' ∧ t = t' ∧ s1 = s2 := by
  induction h generalizing d' s with
  | give => cases h'; cases ht; cases ht'; exact ⟨rfl, rfl, rfl, rfl⟩
  | stop => cases h'; cases ht; cases ht'; exact ⟨rfl, rfl, rfl, rfl⟩
  | ask _ ih =>
    cases h' with
    | ask h' =>
      cases ht with
      | cons a1 a2 =>
        cases ht' with
        | cons b1 b2 =>
          rw [a1] at b1; cases b1
          obtain ⟨rfl, h2⟩ := ih h' a2 b2
          exact ⟨rfl, h2⟩

/-- The result is the one of the run. -/
theorem result_eq {D : Decoder δ} {u : PoUnit} {p : Plan} {s s' : δ} {o : Out (Option PoUnit)} (h : Result D u p s o s') : p.run D u s = (o, s') := by
  have key : ∀ {p d o t}, Path p d o t → ∀ {s s1}, Talk D u s d s1 → p.run D u s = (match o with | some u' => Eff.pure (some u') | none => Eff.bind (D.expected t) fun _ => Eff.pure none) s1 := by
    intro p d o t h
    induction h with
    | give => intro s s1 h; cases h; rfl
    | stop => intro s s1 h; cases h; rfl
    | ask _ ih => intro s s1 h; cases h with | cons h1 h2 => rw [run, Eff.bind, h1]; exact ih h2
  have key2 : ∀ {d p tag a rest o t}, Path p (d ++ (tag, a) :: rest) o t → ∀ {s s1 s2}, Talk D u s d s1 → ∀ {x : Out (Option Str)}, D.parseMsg tag u s1 = (x, s2) →
      ∀ {y : Out (Option PoUnit)}, ((∃ e, x = .err e ∧ y = .err e) ∨ (x = .panic ∧ y = .panic)) → p.run D u s = (y, s2) := by
    intro d
    induction d with
    | nil =>
      intro p tag a rest o t h s s1 s2 ht x hx y hy
      cases ht
      cases h with
      | ask h =>
        rw [run, Eff.bind, hx]
        rcases hy with ⟨e, rfl, rfl⟩ | ⟨rfl, rfl⟩ <;> rfl
    | cons q d ih =>
      intro p tag a rest o t h s s1 s2 ht x hx y hy
      cases h with
      | ask h =>
        cases ht with
        | cons h1 h2 => rw [run, Eff.bind, h1]; exact ih h h2 hx hy
  cases h with
  | unit h1 h2 => exact key h1 h2
  | nothing h1 h2 h3 => rw [key h1 h2]; simp only [Eff.bind, h3]; rfl
  | refusal h1 h2 h3 => rw [key h1 h2]; simp only [Eff.bind, h3]
  | crash h1 h2 h3 => rw [key h1 h2]; simp only [Eff.bind, h3]
  | failure h1 h2 h3 => exact key2 h1 h2 h3 (.inl ⟨_, rfl, rfl⟩)
  | crashAsked h1 h2 h3 => exact key2 h1 h2 h3 (.inr ⟨rfl, rfl⟩)

end Plan

/-! ### The plan of the extractor -/

def textsPlan (k : List Str → Plan) : Nat → Nat → List Str → Plan
  | 0, _, vs => k vs
  | n + 1, i, vs => .ask (msgstrTag i) fun a => textsPlan k n (i + 1) (vs ++ a.toList)

def messagePlan (forms : Option PluralForms) (mk : Message → PoUnit) : Option Str → Option Str → Plan
  | none, _ => .give (mk .default)
  | some i, some p => textsPlan (fun vs => if vs.isEmpty then .stop (c!"msgstr[0]") else .give (mk (.plural ⟨i, p, vs, forms⟩))) ((forms.map PluralForms.getCount).getD 2) 0 []
  | some i, none => .ask (c!"msgstr") fun
    | some t => .give (mk (.simple i (if t.isEmpty then none else some t)))
    | none => .stop (c!"msgstr")

def mainPlan (forms : Option PluralForms) (u : PoUnit) (first : Bool) (pc : Option Str) (pm : Message) : Plan :=
  .ask (c!"msgctxt") fun c => .ask (c!"msgid") fun i =>
    if !first && i.isNone then .stop (c!"msgid")
    else .ask (c!"msgid_plural") fun p => messagePlan forms (fun m => { u with prevContext := pc, prevMessage := pm, context := c, message := m }) i p

def extractPlan (forms : Option PluralForms) (u : PoUnit) (first : Bool) : Plan :=
  .ask (c!"|msgctxt") fun pc => .ask (c!"|msgid") fun
    | some i => .ask (c!"|msgid_plural") fun p => mainPlan forms u first pc (newPrevious forms (some i) p)
    | none => mainPlan forms u first pc (newPrevious forms none none)

section
variable {δ : Type} {D : Decoder δ}

theorem bind_congr {α β : Type} {x : Eff δ α} {f g : α → Eff δ β} (h : ∀ a, f a = g a) : Eff.bind x f = Eff.bind x g := by
  rw [funext h]

theorem bind_assoc' {α β γ : Type} (x : Eff δ α) (f : α → Eff δ β) (g : β → Eff δ γ) : Eff.bind (Eff.bind x f) g = Eff.bind x fun a => Eff.bind (f a) g := by
  funext s
  simp only [Eff.bind]
  rcases x s with ⟨_ | _ | _, s'⟩ <;> rfl

theorem pure_bind' {α β : Type} (a : α) (f : α → Eff δ β) : Eff.bind (Eff.pure a) f = f a := rfl

theorem texts_run {u : PoUnit} {k : List Str → Plan} {f : List Str → Eff δ (Option PoUnit)} (h : ∀ vs, f vs = (k vs).run D u) (n i : Nat) (vs : List Str) :
    Eff.bind (D.valuesLoop u n i vs) f = (textsPlan k n i vs).run D u := by
  induction n generalizing i vs with
  | zero => exact h vs
  | succ n ih =>
    show Eff.bind (Eff.bind (D.parseMsg (msgstrTag i) u) _) f = Eff.bind _ _
    rw [bind_assoc']
    refine bind_congr fun a => ?_
    cases a with
    | none => simpa using ih (i + 1) vs
    | some v => exact ih (i + 1) (vs ++ [v])

theorem message_run {forms : Option PluralForms} {u : PoUnit} {mk : Message → PoUnit} (i p : Option Str) :
    Eff.bind (D.newMessage forms u i p) (fun | none => Eff.pure none | some m => Eff.pure (some (mk m))) = (messagePlan forms mk i p).run D u := by
  cases i with
  | none => rfl
  | some i =>
    cases p with
    | some p =>
      show Eff.bind (Eff.bind (D.valuesLoop u _ 0 []) _) _ = _
      rw [bind_assoc']
      apply texts_run
      intro vs
      cases vs with
      | nil =>
        show Eff.bind (Eff.bind (D.expected _) _) _ = Eff.bind (D.expected _) _
        rw [bind_assoc']; rfl
      | cons v vs => rfl
    | none =>
      show Eff.bind (Eff.bind (D.parseMsg _ u) _) _ = Eff.bind (D.parseMsg _ u) _
      rw [bind_assoc']
      refine bind_congr fun a => ?_
      cases a with
      | some t => rfl
      | none =>
        show Eff.bind (Eff.bind (D.expected _) _) _ = Eff.bind (D.expected _) _
        rw [bind_assoc']; rfl

theorem main_run {forms : Option PluralForms} {u : PoUnit} {first : Bool} {pc : Option Str} {pm : Message} :
    (Eff.bind (D.parseMsg (c!"msgctxt") u) fun c => Eff.bind (D.parseMsg (c!"msgid") u) fun i =>
      if !first && i.isNone then Eff.bind (D.expected (c!"msgid")) fun _ => Eff.pure none
      else Eff.bind (D.parseMsg (c!"msgid_plural") u) fun p => Eff.bind (D.newMessage forms u i p) fun
        | none => Eff.pure none
        | some m => Eff.pure (some { u with prevContext := pc, prevMessage := pm, context := c, message := m })) = (mainPlan forms u first pc pm).run D u := by
  refine bind_congr fun c => bind_congr fun i => ?_
  by_cases h : (!first && i.isNone) = true
  · simp only [if_pos h]; rfl
  · simp only [if_neg h]
    exact bind_congr fun p => message_run (mk := fun m => { u with prevContext := pc, prevMessage := pm, context := c, message := m }) i p

/-- The extractor does what the plan says. -/
theorem extract_run (forms : Option PluralForms) (u : PoUnit) (first : Bool) : D.parseMessageFields forms u first = (extractPlan forms u first).run D u := by
  show Eff.bind (D.parseMsg _ u) _ = Eff.bind (D.parseMsg _ u) _
  refine bind_congr fun pc => ?_
  show Eff.bind (D.parseMsg _ u) _ = Eff.bind (D.parseMsg _ u) _
  refine bind_congr fun i => ?_
  cases i with
  | none => exact main_run
  | some i =>
    show Eff.bind (D.parseMsg _ u) _ = Eff.bind (D.parseMsg _ u) _
    exact bind_congr fun p => main_run
end

/-! ### The ways through the plan -/

open Plan

theorem path_texts {k : List Str → Plan} {n i : Nat} {vs : List Str} {d : Dialog} {o : Option PoUnit} {t : Str} : Path (textsPlan k n i vs) d o t ↔
    ∃ (as : List (Option Str)) (d' : Dialog), as.length = n ∧ d = ((as.zipIdx i).map fun p => (msgstrTag p.2, p.1)) ++ d' ∧ Path (k (vs ++ as.filterMap id)) d' o t := by
  induction n generalizing i vs d with
  | zero =>
    constructor
    · intro h; rw [textsPlan] at h; exact ⟨[], d, rfl, rfl, by simpa using h⟩
    · rintro ⟨as, d', h1, h2, h3⟩
      obtain rfl := List.length_eq_zero_iff.mp h1
      rw [h2, textsPlan]; simpa using h3
  | succ n ih =>
    constructor
    · intro h
      cases h with
      | ask h =>
        rename_i a d
        obtain ⟨as, d', h1, h2, h3⟩ := ih.mp h
        refine ⟨a :: as, d', by simp [h1], by simp [List.zipIdx_cons, h2], ?_⟩
        cases a <;> simpa using h3
    · rintro ⟨as, d', h1, h2, h3⟩
      cases as with
      | nil => simp at h1
      | cons a as =>
        rw [h2]
        simp only [List.zipIdx_cons, List.map_cons, List.cons_append]
        refine .ask (ih.mpr ⟨as, d', by simpa using h1, rfl, ?_⟩)
        cases a <;> simpa using h3

theorem forms_count (forms : Option PluralForms) : (forms.map PluralForms.getCount).getD 2 = forms.elim 2 (·.count) := by cases forms <;> rfl

theorem path_main {forms : Option PluralForms} {u : PoUnit} {first : Bool} {pc : Option Str} {pm : Message} {d0 d : Dialog} {o : Option PoUnit} {t : Str}
    (hp : PreviousPart forms pc pm d0) (h : Path (mainPlan forms u first pc pm) d o t) :
    (∃ u', o = some u' ∧ Makes forms u first (d0 ++ d) u') ∨ (o = none ∧ Lacks forms first (d0 ++ d) t) := by
  cases h with
  | ask h =>
    cases h with
    | ask h =>
      rename_i c i d
      cases i with
      | none =>
        cases first with
        | false => cases h with | stop => exact .inr ⟨rfl, .noId rfl hp⟩
        | true => cases h with | ask h => cases h with | give => exact .inl ⟨_, rfl, .noId rfl hp⟩
      | some i =>
        simp only [Option.isNone_some, Bool.and_false, Bool.false_eq_true, if_false] at h
        cases h with
        | ask h =>
          rename_i p d
          cases p with
          | none =>
            cases h with
            | ask h =>
              rename_i a d
              cases a with
              | none => cases h with | stop => exact .inr ⟨rfl, .noText hp⟩
              | some x =>
                cases h with
                | give =>
                  left
                  refine ⟨_, rfl, ?_⟩
                  have := Makes.simple (u := u) (first := first) (c := c) (i := i) (t := x) hp
                  cases x <;> exact this
          | some p =>
            obtain ⟨as, d', h1, h2, h3⟩ := path_texts.mp h
            have ht : TextPart forms (as.filterMap id) ((as.zipIdx).map fun p => (msgstrTag p.2, p.1)) := ⟨as, by rw [h1, forms_count], rfl, rfl⟩
            simp only [List.nil_append] at h3
            by_cases he : as.filterMap id = []
            · rw [he] at h3 ht
              cases h3 with
              | stop =>
                have := Lacks.noTexts (first := first) (c := c) (i := i) (p := p) hp ht
                refine .inr ⟨rfl, ?_⟩
                rw [h2]; simpa using this
            · rw [if_neg (by simpa using he)] at h3
              cases h3 with
              | give =>
                have := Makes.plural (u := u) (first := first) (c := c) (i := i) (p := p) hp ht he
                refine .inl ⟨_, rfl, ?_⟩
                rw [h2]; simpa using this

theorem previous_path {forms : Option PluralForms} {u : PoUnit} {first : Bool} {pc : Option Str} {pm : Message} {d0 d : Dialog} {o : Option PoUnit} {t : Str}
    (hp : PreviousPart forms pc pm d0) (h : Path (mainPlan forms u first pc pm) d o t) : Path (extractPlan forms u first) (d0 ++ d) o t := by
  cases hp with
  | none => exact .ask (.ask h)
  | simple => exact .ask (.ask (.ask h))
  | plural => exact .ask (.ask (.ask h))

theorem path_previous {forms : Option PluralForms} {u : PoUnit} {first : Bool} {d : Dialog} {o : Option PoUnit} {t : Str} (h : Path (extractPlan forms u first) d o t) :
    ∃ pc pm d0 d1, PreviousPart forms pc pm d0 ∧ Path (mainPlan forms u first pc pm) d1 o t ∧ d = d0 ++ d1 := by
  cases h with
  | ask h =>
    cases h with
    | ask h =>
      rename_i i d
      cases i with
      | none => exact ⟨_, _, _, _, .none, h, rfl⟩
      | some i =>
        cases h with
        | ask h =>
          rename_i p d
          cases p with
          | none => exact ⟨_, _, _, _, .simple, h, rfl⟩
          | some p => exact ⟨_, _, _, _, .plural, h, rfl⟩

/-- Every way gives a unit or says what is missing. -/
theorem path_ends {forms : Option PluralForms} {u : PoUnit} {first : Bool} {d : Dialog} {o : Option PoUnit} {t : Str} (h : Path (extractPlan forms u first) d o t) :
    (∃ u', o = some u' ∧ Makes forms u first d u') ∨ (o = none ∧ Lacks forms first d t) := by
  obtain ⟨pc, pm, d0, d1, h1, h2, rfl⟩ := path_previous h
  exact path_main h1 h2

theorem gives_path {forms : Option PluralForms} {u u' : PoUnit} {first : Bool} {d : Dialog} (h : Makes forms u first d u') :
    Path (extractPlan forms u first) d (some u') [] := by
  cases h with
  | noId hf hp =>
    subst hf
    exact previous_path hp (.ask (.ask (.ask .give)))
  | @simple pc pm d c i t hp =>
    refine previous_path hp (.ask (.ask ?_))
    simp only [Option.isNone_some, Bool.and_false, Bool.false_eq_true, if_false]
    refine .ask (.ask ?_)
    cases t <;> exact .give
  | @plural pc pm d c i p vs d' hp ht hv =>
    rw [List.append_assoc]
    refine previous_path hp (.ask (.ask ?_))
    simp only [Option.isNone_some, Bool.and_false, Bool.false_eq_true, if_false]
    refine .ask ?_
    obtain ⟨as, h1, rfl, rfl⟩ := ht
    refine path_texts.mpr ⟨as, [], by rw [h1, forms_count], (List.append_nil _).symm, ?_⟩
    rw [List.nil_append, if_neg (by simpa using hv)]
    exact .give

theorem lacks_path {forms : Option PluralForms} {u : PoUnit} {first : Bool} {d : Dialog} {t : Str} (h : Lacks forms first d t) :
    Path (extractPlan forms u first) d none t := by
  cases h with
  | noId hf hp =>
    subst hf
    exact previous_path hp (.ask (.ask .stop))
  | @noText pc pm d c i hp =>
    refine previous_path hp (.ask (.ask ?_))
    simp only [Option.isNone_some, Bool.and_false, Bool.false_eq_true, if_false]
    exact .ask (.ask .stop)
  | @noTexts pc pm d c i p d' hp ht =>
    rw [List.append_assoc]
    refine previous_path hp (.ask (.ask ?_))
    simp only [Option.isNone_some, Bool.and_false, Bool.false_eq_true, if_false]
    refine .ask ?_
    obtain ⟨as, h1, h2, rfl⟩ := ht
    refine path_texts.mpr ⟨as, [], by rw [h1, forms_count], (List.append_nil _).symm, ?_⟩
    rw [List.nil_append, ← h2]
    exact .stop

theorem asks_path {forms : Option PluralForms} {u : PoUnit} {first : Bool} {d : Dialog} {tag : Str} :
    Asks forms u first d tag ↔ ∃ a rest o t, Path (extractPlan forms u first) (d ++ (tag, a) :: rest) o t := by
  constructor
  · rintro ⟨a, rest, ⟨u', h⟩ | ⟨t, h⟩⟩
    · exact ⟨a, rest, _, _, gives_path h⟩
    · exact ⟨a, rest, _, _, lacks_path h⟩
  · rintro ⟨a, rest, o, t, h⟩
    rcases path_ends h with ⟨u', rfl, h'⟩ | ⟨rfl, h'⟩
    · exact ⟨a, rest, .inl ⟨u', h'⟩⟩
    · exact ⟨a, rest, .inr ⟨t, h'⟩⟩

theorem result_iff {δ : Type} {D : Decoder δ} {forms : Option PluralForms} {u : PoUnit} {first : Bool} {s s' : δ} {o : Out (Option PoUnit)} :
    Result D u (extractPlan forms u first) s o s' ↔ Extracts D forms u first s o s' := by
  have hl : ∀ {d t}, Path (extractPlan forms u first) d none t → Lacks forms first d t := by
    intro d t h
    rcases path_ends h with ⟨u', h, _⟩ | ⟨_, h⟩
    · cases h
    · exact h
  constructor
  · intro h
    cases h with
    | unit h1 h2 =>
      rcases path_ends h1 with ⟨u', h, h'⟩ | ⟨h, _⟩
      · cases h; exact .unit h' h2
      · cases h
    | nothing h1 h2 h3 => exact .nothing (hl h1) h2 h3
    | refusal h1 h2 h3 => exact .refusal (hl h1) h2 h3
    | crash h1 h2 h3 => exact .crash (hl h1) h2 h3
    | failure h1 h2 h3 => exact .failure (asks_path.mpr ⟨_, _, _, _, h1⟩) h2 h3
    | crashAsked h1 h2 h3 => exact .crashAsked (asks_path.mpr ⟨_, _, _, _, h1⟩) h2 h3
  · intro h
    cases h with
    | unit h1 h2 => exact .unit (gives_path h1) h2
    | nothing h1 h2 h3 => exact .nothing (lacks_path h1) h2 h3
    | refusal h1 h2 h3 => exact .refusal (lacks_path h1) h2 h3
    | crash h1 h2 h3 => exact .crash (lacks_path h1) h2 h3
    | failure h1 h2 h3 => obtain ⟨_, _, _, _, h⟩ := asks_path.mp h1; exact .failure h h2 h3
    | crashAsked h1 h2 h3 => obtain ⟨_, _, _, _, h⟩ := asks_path.mp h1; exact .crashAsked h h2 h3

theorem extracts_iff {δ : Type} {D : Decoder δ} {forms : Option PluralForms} {u : PoUnit} {first : Bool} {s s' : δ} {o : Out (Option PoUnit)} :
    D.parseMessageFields forms u first s = (o, s') ↔ Extracts D forms u first s o s' := by
  rw [extract_run, ← result_iff]
  constructor
  · intro h
    have := run_result D u (extractPlan forms u first) s
    rwa [h] at this
  · exact result_eq

/-! ### The decoder of the lines -/

theorem line_values {σ : Type} [Src σ] (u : PoUnit) (n i : Nat) (vs : List Str) : (lineDecoder (σ := σ)).valuesLoop u n i vs = Verif.valuesLoop u.obsolete n i vs := by
  induction n generalizing i vs with
  | zero => rfl
  | succ n ih =>
    show Eff.bind _ _ = Eff.bind _ _
    refine bind_congr fun a => ?_
    cases a <;> exact ih _ _

theorem line_message {σ : Type} [Src σ] (forms : Option PluralForms) (u : PoUnit) (i p : Option Str) :
    (lineDecoder (σ := σ)).newMessage forms u i p = Verif.newMessage forms u.obsolete i p := by
  rcases i with _ | i
  · rfl
  rcases p with _ | p
  · rfl
  · show Eff.bind _ _ = Eff.bind _ _
    rw [line_values]
    rfl

theorem line_fields {σ : Type} [Src σ] (forms : Option PluralForms) (u : PoUnit) (first : Bool) :
    (lineDecoder (σ := σ)).parseMessageFields forms u first = Verif.parseMessageFields forms u first := by
  have h := funext fun i => funext fun p => line_message (σ := σ) forms u i p
  unfold Decoder.parseMessageFields Verif.parseMessageFields
  rw [h]
  rfl

/-! ### The questions -/

theorem digits_inj {m n : Nat} (h : Nat.toDigits 10 m = Nat.toDigits 10 n) : m = n := by
  rw [← Nat.ofDigitChars_ten_toDigits (n := m), h, Nat.ofDigitChars_ten_toDigits]

theorem textPart_tags {forms : Option PluralForms} {vs : List Str} {d : Dialog} (h : TextPart forms vs d) :
    (d.map Prod.fst).Nodup ∧ ∀ tag ∈ d.map Prod.fst, c!"msgstr[" <+: tag := by
  obtain ⟨as, _, _, rfl⟩ := h
  constructor
  · rw [List.map_map]
    have h : (as.zipIdx.map Prod.snd).Nodup := by
      rw [List.zipIdx_map_snd]; exact List.nodup_range'
    have e : (Prod.fst ∘ fun p : Option Str × Nat => (c!"msgstr[" ++ Nat.toDigits 10 p.2 ++ c!"]", p.1)) = (fun n => c!"msgstr[" ++ Nat.toDigits 10 n ++ c!"]") ∘ Prod.snd := rfl
    rw [e, ← List.map_map]
    refine List.Pairwise.map _ ?_ h
    intro a b hab he
    exact hab (digits_inj (List.append_cancel_left (List.append_cancel_right he)))
  · intro tag ht
    simp only [List.map_map, List.mem_map] at ht
    obtain ⟨p, _, rfl⟩ := ht
    exact ⟨Nat.toDigits 10 p.2 ++ c!"]", by simp⟩

theorem nodup_texts {l : List Str} {d : Dialog} (hl : l.Nodup) (hd : (d.map Prod.fst).Nodup ∧ ∀ tag ∈ d.map Prod.fst, c!"msgstr[" <+: tag) (h : ∀ tag ∈ l, ¬ c!"msgstr[" <+: tag) :
    (l ++ d.map Prod.fst).Nodup :=
  List.nodup_append.mpr ⟨hl, hd.1, fun a ha b hb e => h a ha (e ▸ hd.2 b hb)⟩

theorem previous_tags {forms : Option PluralForms} {pc : Option Str} {pm : Message} {d : Dialog} (h : PreviousPart forms pc pm d) :
    d.map Prod.fst = [c!"|msgctxt", c!"|msgid"] ∨ d.map Prod.fst = [c!"|msgctxt", c!"|msgid", c!"|msgid_plural"] := by
  cases h
  · exact .inl rfl
  · exact .inr rfl
  · exact .inr rfl

theorem gives_nodup {forms : Option PluralForms} {u u' : PoUnit} {first : Bool} {d : Dialog} (h : Makes forms u first d u') : (d.map Prod.fst).Nodup := by
  cases h with
  | noId _ hp => rw [List.map_append]; rcases previous_tags hp with h | h <;> rw [h] <;> simp only [List.map_cons, List.map_nil] <;> decide
  | simple hp => rw [List.map_append]; rcases previous_tags hp with h | h <;> rw [h] <;> simp only [List.map_cons, List.map_nil] <;> decide
  | plural hp ht _ =>
    rw [List.map_append, List.map_append]
    rcases previous_tags hp with h | h <;> rw [h] <;> simp only [List.map_cons, List.map_nil] <;> exact nodup_texts (by decide) (textPart_tags ht) (by decide)

theorem lacks_nodup {forms : Option PluralForms} {first : Bool} {d : Dialog} {t : Str} (h : Lacks forms first d t) : (d.map Prod.fst).Nodup := by
  cases h with
  | noId _ hp => rw [List.map_append]; rcases previous_tags hp with h | h <;> rw [h] <;> simp only [List.map_cons, List.map_nil] <;> decide
  | noText hp => rw [List.map_append]; rcases previous_tags hp with h | h <;> rw [h] <;> simp only [List.map_cons, List.map_nil] <;> decide
  | noTexts hp ht =>
    rw [List.map_append, List.map_append]
    rcases previous_tags hp with h | h <;> rw [h] <;> simp only [List.map_cons, List.map_nil] <;> exact nodup_texts (by decide) (textPart_tags ht) (by decide)

/-- The decoder that answers by a table. -/
def tableDecoder (answer : Str → Option Str) : Decoder Unit := ⟨fun tag _ s => (.ok (answer tag), s), fun _ => Eff.pure ()⟩

theorem table_talk {answer : Str → Option Str} {u : PoUnit} {d : Dialog} (h : ∀ q ∈ d, q.2 = answer q.1) : Talk (tableDecoder answer) u () d () := by
  induction d with
  | nil => exact .nil
  | cons q d ih =>
    obtain ⟨tag, a⟩ := q
    have : a = answer tag := h _ List.mem_cons_self
    subst this
    exact .cons rfl (ih fun q hq => h q (List.mem_cons_of_mem _ hq))

theorem table_path (answer : Str → Option Str) (p : Plan) : ∃ d o t, Path p d o t ∧ ∀ q ∈ d, q.2 = answer q.1 := by
  induction p with
  | give u => exact ⟨_, _, _, .give, by simp⟩
  | stop t => exact ⟨_, _, _, .stop, by simp⟩
  | ask tag k ih =>
    obtain ⟨d, o, t, h, h'⟩ := ih (answer tag)
    refine ⟨_, _, _, .ask h, ?_⟩
    intro q hq
    rcases List.mem_cons.mp hq with rfl | hq
    · rfl
    · exact h' q hq

theorem lookup_nodup {d : Dialog} (hd : (d.map Prod.fst).Nodup) {q : Str × Option Str} (hq : q ∈ d) : (d.lookup q.1).getD none = q.2 := by
  induction d with
  | nil => cases hq
  | cons p d ih =>
    rw [List.map_cons, List.nodup_cons] at hd
    rcases List.mem_cons.mp hq with rfl | hq'
    · rw [List.lookup_cons_self]; rfl
    · have hne : (q.1 == p.1) = false := by
        simp only [beq_eq_false_iff_ne]
        intro e; exact hd.1 (e ▸ List.mem_map_of_mem hq')
      obtain ⟨p1, p2⟩ := p
      rw [List.lookup_cons, hne]; exact ih hd.2 hq'

end Verif
