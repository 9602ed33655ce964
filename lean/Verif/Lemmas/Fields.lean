import Verif.Lemmas.Sim

/-! Closed forms of the decoding functions on lists of items. -/

namespace Verif
open Spec

theorem bind_eq {σ α β : Type} (x : Eff σ α) (f : α → Eff σ β) (s : σ) : (x >>= f) s =
    match x s with
    | (.ok a, s') => f a s'
    | (.err e, s') => (.err e, s')
    | (.panic, s') => (.panic, s') := rfl

/-- The text of the continuation lines with marker `p` at the beginning of a list, and the rest of the list. -/
def takeCont (p : Str) : List Item → Str × List Item
  | .ok (.continuation n q s) :: tl =>
    if q = p then (s ++ (takeCont p tl).1, (takeCont p tl).2) else ([], .ok (.continuation n q s) :: tl)
  | l => ([], l)

/-- The end of reading a field: an error item directly after it is the result. -/
def afterField {α : Type} (v : α) (rest : List Item) : Out α × List Item :=
  match rest with
  | .error e :: tl => (.err e, tl)
  | rest => (.ok v, rest)

theorem contLoop_list (p : Str) (k : Nat) (acc : Str) (l : List Item) (h : l.length < k) :
    contLoop p k acc l = afterField (acc ++ (takeCont p l).1) (takeCont p l).2 := by
  induction l generalizing k acc with
  | nil =>
    cases k with
    | zero => simp at h
    | succ k => rw [contLoop_cons]; simp [takeCont, afterField]
  | cons x tl ih =>
    cases k with
    | zero => simp at h
    | succ k =>
      simp only [List.length_cons] at h
      rw [contLoop_cons]
      rcases x with e | ln
      · rfl
      · cases ln with
        | continuation n q s =>
          simp only [takeCont]
          by_cases hq : q = p
          · simp only [hq, ne_eq, not_true_eq_false, if_false, if_true]
            rw [ih k _ (by omega), List.append_assoc]
          · simp [hq, afterField]
        | _ => simp [takeCont, afterField]

/-- `parseMsg` on a list. -/
theorem parseMsg_list (tag : Str) (o : Bool) (l : List Item) : parseMsg tag o l =
    match l with
    | .error e :: tl => (.err e, tl)
    | .ok (.message n p t s) :: tl =>
      if t = tag ∧ startsTilde p = o then afterField (some (s ++ (takeCont p tl).1)) (takeCont p tl).2
      else (.ok none, .ok (.message n p t s) :: tl)
    | l => (.ok none, l) := by
  unfold parseMsg
  rw [bind_eq, fetchNext_list]
  rcases l with _ | ⟨e | ln, tl⟩
  · rfl
  · rfl
  · cases ln with
    | message n p t s =>
      simp only
      split
      · show Eff.bind _ _ _ = _
        unfold Eff.bind
        have : contLoop p (Src.bound tl + 1) s tl = afterField (s ++ (takeCont p tl).1) (takeCont p tl).2 :=
          contLoop_list p _ s tl (by simp [Src.bound])
        simp only [nextE, Src.next, List.head?_cons, List.tail_cons]
        rw [bind_eq]
        simp only [this]
        rcases (takeCont p tl).2 with _ | ⟨e | ln, tl'⟩ <;> rfl
      · rfl
    | _ => rfl

theorem expected_list (exp : Str) (l : List Item) : expected exp l =
    match l with
    | [] => (.ok (), [])
    | .error e :: tl => (.err e, tl)
    | .ok .blank :: tl => (.ok (), .ok .blank :: tl)
    | .ok (.message n p t s) :: tl => (.err (.parse n p exp), .ok (.message n p t s) :: tl)
    | .ok (.continuation n p s) :: tl => (.err (.parse n (c!"\"") exp), .ok (.continuation n p s) :: tl)
    | .ok (.comment n c s) :: tl => (.err (.parse n ['#', c] exp), .ok (.comment n c s) :: tl) := by
  rcases l with _ | ⟨e | ln, tl⟩
  · rfl
  · rfl
  · cases ln <;> rfl

/-- The comment lines at the beginning of a list, and the rest. -/
def takeComments : List Item → List (Char × Str) × List Item
  | .ok (.comment _ c s) :: tl => ((c, s) :: (takeComments tl).1, (takeComments tl).2)
  | l => ([], l)

theorem commentLoop_list (k : Nat) (u : PoUnit) (l : List Item) (h : l.length < k) :
    commentLoop k u l = (.ok ((takeComments l).1.foldl (fun u c => addComment u c.1 c.2) u), (takeComments l).2) := by
  induction l generalizing k u with
  | nil =>
    cases k with
    | zero => simp at h
    | succ k => rw [commentLoop_cons]; simp [takeComments]
  | cons x tl ih =>
    cases k with
    | zero => simp at h
    | succ k =>
      simp only [List.length_cons] at h
      rw [commentLoop_cons]
      rcases x with e | ln
      · rfl
      · cases ln with
        | comment n c s => simp only [takeComments]; rw [ih k _ (by omega)]; rfl
        | _ => rfl

theorem parseComments_list (u : PoUnit) (l : List Item) : parseComments u l =
    afterField ((takeComments l).1.foldl (fun u c => addComment u c.1 c.2) u) (takeComments l).2 := by
  unfold parseComments
  rw [bind_eq]
  have : commentLoop (Src.bound l + 1) u l = _ := commentLoop_list (Src.bound l + 1) u l (by simp [Src.bound])
  rw [this]
  simp only
  rw [bind_eq]
  rcases h : (takeComments l).2 with _ | ⟨e | ln, tl⟩ <;> rfl

theorem takeComments_head (l : List Item) (n c s tl) : (takeComments l).2 ≠ .ok (.comment n c s) :: tl := by
  induction l with
  | nil => simp [takeComments]
  | cons x l ih =>
    rcases x with e | ln
    · simp [takeComments]
    · cases ln with
      | comment => exact ih
      | _ => simp [takeComments]

/-- Whether a line is marked obsolete, as `read_line` sees it. -/
def lineObsolete : PoLine → Bool
  | .message _ p _ _ => startsTilde p
  | _ => false

/-- `readUnit` as a function of the items alone. -/
def entry (forms : Option PluralForms) (first : Bool) (l : List Item) : Out (Option PoUnit) × List Item :=
  match parseComments .default l with
  | (.err e, l') => (.err e, l')
  | (.panic, l') => (.panic, l')
  | (.ok u, l') =>
    match l' with
    | [] => (.ok none, [])
    | .error _ :: _ => (.panic, l')
    | .ok v :: _ =>
      match parseMessageFields forms { u with obsolete := lineObsolete v } first l' with
      | (.err e, l2) => (.err e, l2)
      | (.panic, l2) => (.panic, l2)
      | (.ok none, l2) => (.ok none, l2)
      | (.ok (some u'), l2) =>
        match finishUnit first v.line u' with
        | .error e => (.err e, l2)
        | .ok u2 => (.ok (some u2), l2)

theorem readUnit_list {L : Type} (first : Bool) (r : Reader (List Item) L) :
    readUnit first r = ((entry r.pluralForms first r.lines).1, { r with lines := (entry r.pluralForms first r.lines).2 }) := by
  unfold readUnit entry
  rw [bind_eq]
  simp only [onLines]
  rcases hp : parseComments .default r.lines with ⟨o, l'⟩
  cases o with
  | err e => rfl
  | panic => rfl
  | ok u =>
    simp only
    rw [bind_eq]
    have hne : ∀ e tl, l' ≠ .error e :: tl := by
      rw [parseComments_list] at hp
      unfold afterField at hp
      split at hp
      · simp at hp
      · rename_i h
        simp only [Prod.mk.injEq, Out.ok.injEq] at hp
        intro e tl he
        exact h e tl (hp.2.trans he)
    have hrl : (readLine { r with lines := l' }) =
        (match l' with
          | .ok v :: _ => .ok (some (v.line, lineObsolete v))
          | _ => .ok none, { r with lines := l' }) := by
      unfold readLine
      rw [bind_eq]
      rcases l' with _ | ⟨e | v, tl⟩
      · rfl
      · exact absurd rfl (hne _ _)
      · cases v with
        | message n p t s =>
          simp only [onLines, peekE, Src.peek, List.head?_cons, lineObsolete]
          cases startsTilde p <;> rfl
        | _ => rfl
    rw [hrl]
    rcases l' with _ | ⟨e | v, tl⟩
    · rfl
    · exact absurd rfl (hne _ _)
    · simp only
      rw [bind_eq]
      unfold parseUnit onLines
      rcases hf : parseMessageFields r.pluralForms { u with obsolete := lineObsolete v } first (.ok v :: tl) with ⟨o, l2⟩
      simp only [hf]
      rcases o with (_ | u') | e | _
      · rfl
      · simp only
        cases finishUnit first v.line u' <;> rfl
      · rfl
      · rfl

end Verif
