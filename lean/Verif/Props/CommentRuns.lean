import Verif.Lemmas.CommentRuns
import Verif.Props.Change

/-! C56: what each kind of comment lines contributes. -/

namespace Verif
open Spec

/-- **C56** Each class of comment lines influences only its own data.  If runs of comment lines are replaced by other runs that agree in the flags, in the
locations, in the notes or in the other comments (as chosen), then the units correspond one by one and agree in the fields and in the chosen data (with the
flags also in the state), and so do the header data; errors agree up to line number and shown comment kind. -/
theorem C56_classes (env : Env) (f l n c : Bool) {stream stream' : List Event}
    (h : Rewritten (Agree f l n c) (rawLines (flatten stream)) (rawLines (flatten stream'))) :
    Correspond (AgreeHeaders n c) (AgreeUnits f l n c) SameButComment (parse env stream) (parse env stream') := by
  have hi : (agreeChange f l n c).S₀ (streamItems stream) (streamItems stream') :=
    rewritten_items h (fun _ hs => rawLines_no_nl hs) (fun _ hs => rawLines_no_nl hs) ((stream_items stream _).mpr rfl) ((stream_items stream' _).mpr rfl)
  have := corr_results (agreeChange f l n c) env (AgreeHeaders n c) ⟨⟨rfl, rfl⟩, fun _ => rfl, fun _ => rfl⟩
    (fun u u' _ _ h => ⟨⟨rfl, rfl⟩, h.notes, h.comments⟩) (fun _ => .same rfl) hi
  exact correspond_imp (fun u u' h => ⟨⟨h.context, h.prevContext, h.message, h.prevMessage, h.obsolete⟩, h.comments.flags, h.comments.locations,
    h.comments.notes, h.comments.comments⟩) this

theorem agreeUnits_eq {u u' : PoUnit} (h : AgreeUnits true true true true u u') : u = u' := by
  obtain ⟨⟨h1, h2, h3, h4, h5⟩, h6, h7, h8, h9⟩ := h
  replace h6 := h6 rfl
  obtain ⟨h6, h6'⟩ := h6
  replace h7 := h7 rfl
  replace h8 := h8 rfl
  replace h9 := h9 rfl
  cases u
  cases u'
  simp only at *
  subst h1 h2 h3 h4 h5 h6 h6' h7 h8 h9
  rfl

theorem agreeHeaders_eq {L : Type} {h h' : Header L} (hh : AgreeHeaders true true h h') : h = h' := by
  obtain ⟨⟨h1, h2⟩, h3, h4⟩ := hh
  replace h3 := h3 rfl
  replace h4 := h4 rfl
  cases h
  cases h'
  simp only at *
  subst h1 h2 h3 h4
  rfl

/-- **C56** Runs of comment lines that agree in all data give the same results. -/
theorem C56_same (env : Env) {stream stream' : List Event}
    (h : Rewritten (Agree true true true true) (rawLines (flatten stream)) (rawLines (flatten stream'))) :
    Correspond Eq Eq SameButComment (parse env stream) (parse env stream') := by
  rcases C56_classes env _ _ _ _ h with h1 | ⟨a, b, c, d, e, f, h1, h2, h3, h4, h5⟩
  · exact .inl h1
  · exact .inr ⟨a, b, c, d, e, f, h1, h2, agreeHeaders_eq h3, h4.imp fun _ _ => agreeUnits_eq, h5⟩

theorem Spec.Rewritten.imp {R Q : List (Char × Str) → List (Char × Str) → Prop} (h : ∀ a b, R a b → Q a b) {rs rs' : List (Except IoErr Str)}
    (hr : Rewritten R rs rs') : Rewritten Q rs rs' := by
  induction hr with
  | nil => exact .nil
  | failed => exact .failed
  | line h1 _ ih => exact .line h1 ih
  | blankLeft h1 _ ih => exact .blankLeft h1 ih
  | blankRight h1 _ ih => exact .blankRight h1 ih
  | run h1 h2 h3 h4 h5 _ ih => exact .run h1 h2 h3 h4 (h _ _ h5) ih

/-- **C56** The order of comment lines of different classes does not matter. -/
theorem C56_order (env : Env) {stream stream' : List Event} (h : Rewritten Shuffled (rawLines (flatten stream)) (rawLines (flatten stream'))) :
    Correspond Eq Eq SameButComment (parse env stream) (parse env stream') :=
  C56_same env (h.imp fun _ _ => shuffled_filter)

/-! ### Examples -/

theorem not_comment_text {s : Str} (hn : '\n' ∉ s) (h : (match Verif.parseLine s 0 with | some (.comment ..) => true | _ => false) = false) : ¬ CommentLine s := by
  refine not_commentLine ((C06_line_classification _ _ hn _).mp rfl) hn fun c t hx => ?_
  rw [hx] at h
  cases h

theorem flagItems_code (s : Str) : flagItems (',', s) = (splitP (· == ',') s).map trim := by
  unfold flagItems
  rw [if_pos rfl, show (fun c : Char => c = ',') = (fun c : Char => (c == ',') = true) by funext c; simp, cut_eq]
  congr 1
  funext s
  exact strip_eq s

-- flags in one line or in two, after a location or before
example : Correspond Eq Eq SameButComment
    (parse demoEnv (textStream [c!"#, a, fuzzy", c!"#: x.c:1", c!"msgid \"a\"", c!"msgstr \"b\""]))
    (parse demoEnv (textStream [c!"#: x.c:1", c!"#, a", c!"#,fuzzy", c!"msgid \"a\"", c!"msgstr \"b\""])) := by
  refine C56_same demoEnv ?_
  rw [rawLines_text (by decide), rawLines_text (by decide)]
  refine .run (ss := [(c!"#, a, fuzzy", ',', c!"a, fuzzy"), (c!"#: x.c:1", ':', c!"x.c:1")])
    (ss' := [(c!"#: x.c:1", ':', c!"x.c:1"), (c!"#, a", ',', c!"a"), (c!"#,fuzzy", ',', c!"fuzzy")]) (by simp) (by simp) ?_ ?_ ?_ ?_
  · intro x hx
    simp only [List.mem_cons, List.not_mem_nil, or_false] at hx
    rcases hx with rfl | rfl <;> exact (C06_line_classification _ _ (by decide) _).mp rfl
  · intro x hx
    simp only [List.mem_cons, List.not_mem_nil, or_false] at hx
    rcases hx with rfl | rfl | rfl <;> exact (C06_line_classification _ _ (by decide) _).mp rfl
  · refine ⟨fun _ => ?_, fun _ => ?_, fun _ => rfl, fun _ => rfl⟩
    · simp only [List.map, List.flatMap_cons, List.flatMap_nil, flagItems_code]
      simp only [flagItems, show (':' : Char) ≠ ',' by decide, if_false]
      rfl
    · simp [locationItems]
  · exact .line (not_comment_text (by decide) rfl) (.line (not_comment_text (by decide) rfl) .nil)

-- adding the fuzzy flag to a unit with a note changes only flags and state
example : Correspond (AgreeHeaders true true) (AgreeUnits false true true true) SameButComment
    (parse demoEnv (textStream [c!"msgid \"\"", c!"msgstr \"\"", c!"# note", c!"msgid \"a\"", c!"msgstr \"b\""]))
    (parse demoEnv (textStream [c!"msgid \"\"", c!"msgstr \"\"", c!"# note", c!"#, fuzzy", c!"msgid \"a\"", c!"msgstr \"b\""])) := by
  refine C56_classes demoEnv _ _ _ _ ?_
  rw [rawLines_text (by decide), rawLines_text (by decide)]
  refine .line (not_comment_text (by decide) rfl) (.line (not_comment_text (by decide) rfl) ?_)
  refine .run (ss := [(c!"# note", ' ', c!"note")]) (ss' := [(c!"# note", ' ', c!"note"), (c!"#, fuzzy", ',', c!"fuzzy")]) (by simp) (by simp) ?_ ?_ ?_ ?_
  · intro x hx
    simp only [List.mem_cons, List.not_mem_nil, or_false] at hx
    rcases hx with rfl
    exact (C06_line_classification _ _ (by decide) _).mp rfl
  · intro x hx
    simp only [List.mem_cons, List.not_mem_nil, or_false] at hx
    rcases hx with rfl | rfl <;> exact (C06_line_classification _ _ (by decide) _).mp rfl
  · refine ⟨(by simp), fun _ => ?_, fun _ => rfl, fun _ => rfl⟩
    simp [locationItems]
  · exact .line (not_comment_text (by decide) rfl) (.line (not_comment_text (by decide) rfl) .nil)

-- a note and a flag exchanged
example : Shuffled [(' ', c!"note"), (',', c!"fuzzy"), ('.', c!"dev")] [(',', c!"fuzzy"), (' ', c!"note"), ('.', c!"dev")] := by
  intro k
  revert k
  decide

-- two notes exchanged are seen
example : ¬ Shuffled [(' ', c!"note"), ('.', c!"dev")] [('.', c!"dev"), (' ', c!"note")] := fun h => by
  have := h 2
  revert this
  decide

end Verif
