import Verif.Lemmas.Regex
import Verif.Spec.Line

/-! `unescape` against the structural specification. -/

namespace Verif
open Spec

/-- The five characters that may follow the backslash. -/
def isEscChar (c : Char) : Bool := c == 'r' || c == 't' || c == 'n' || c == '"' || c == '\\'

theorem escSet_test (c : Char) :
    (Cls.set [('r', 'r'), ('t', 't'), ('n', 'n'), ('"', '"'), ('\\', '\\')]).test c = isEscChar c := by
  have h : ∀ d : Char, (decide (d.toNat ≤ c.toNat) && decide (c.toNat ≤ d.toNat)) = (c == d) := by
    intro d
    by_cases hc : c = d
    · subst hc; simp
    · have : c.toNat ≠ d.toNat := fun h => hc (Char.toNat_inj.mp h)
      have hb : (c == d) = false := by simpa using hc
      rw [hb]
      simp only [Bool.and_eq_false_iff, decide_eq_false_iff_not]
      omega
  unfold Cls.test
  simp only [List.any_cons, List.any_nil, -Char.reduceToNat, Bool.or_false]
  rw [h, h, h, h, h]
  simp only [isEscChar, Bool.or_assoc]

theorem unescapeRe_run_esc (b : Bool) (d : Char) (cs : Str) (h : isEscChar d = true) :
    unescapeRe.run ⟨b, '\\' :: d :: cs, []⟩ = [⟨false, cs, [(1, [d])]⟩] := by
  unfold unescapeRe
  rw [← escSet_test] at h
  generalize Cls.set [('r', 'r'), ('t', 't'), ('n', 'n'), ('"', '"'), ('\\', '\\')] = p at h ⊢
  have h1 : (Cls.lit '\\').test '\\' = true := by decide
  simp [Re.run, h, h1]

theorem unescapeRe_run_other (b : Bool) (s : Str) (h : ¬ ∃ d cs, s = '\\' :: d :: cs ∧ isEscChar d = true) :
    unescapeRe.run ⟨b, s, []⟩ = [] := by
  rw [List.eq_nil_iff_forall_not_mem]
  intro t ht
  unfold unescapeRe at ht
  obtain ⟨u, hu, ht⟩ := mem_seq.mp ht
  obtain ⟨cs, h1, rfl⟩ := (mem_chr (d := '\\')).mp hu
  obtain ⟨v, hv, rfl⟩ := mem_cap.mp ht
  obtain ⟨d, cs', h2, h3, rfl⟩ := mem_cls.mp hv
  simp only at h1 h2
  subst h1 h2
  exact h ⟨d, cs', rfl, by rw [← escSet_test]; exact h3⟩

/-- What a decoded escape stands for. -/
def escVal (d : Char) : Char :=
  if d = 'r' then '\r' else if d = 't' then '\t' else if d = 'n' then '\n' else d

theorem unescapeGroup_eq {d : Char} {cs : Str} {b : Bool} (h : isEscChar d = true) :
    unescapeGroup ⟨b, cs, [(1, [d])]⟩ = [escVal d] := by
  unfold isEscChar at h
  simp only [Bool.or_eq_true, beq_iff_eq] at h
  rcases h with (((rfl | rfl) | rfl) | rfl) | rfl <;> rfl

theorem unesc_esc {d : Char} {cs : Str} (h : isEscChar d = true) : unesc ('\\' :: d :: cs) = escVal d :: unesc cs := by
  unfold isEscChar at h
  simp only [Bool.or_eq_true, beq_iff_eq] at h
  rcases h with (((rfl | rfl) | rfl) | rfl) | rfl <;> simp [unesc, escVal]

theorem unesc_other {c : Char} {cs : Str} (h : ∀ d cs', c = '\\' → cs = d :: cs' → isEscChar d = false) :
    unesc (c :: cs) = c :: unesc cs := by
  have key : ∀ d cs', c = '\\' → cs = d :: cs' → d ≠ 'r' ∧ d ≠ 't' ∧ d ≠ 'n' ∧ d ≠ '"' ∧ d ≠ '\\' := by
    intro d cs' h1 h2
    have := h d cs' h1 h2
    simpa [isEscChar, and_assoc] using this
  rw [unesc.eq_def]
  split
  · rename_i heq; obtain ⟨rfl, rfl⟩ := by simpa using heq
    exact absurd rfl (key _ _ rfl rfl).1
  · rename_i heq; obtain ⟨rfl, rfl⟩ := by simpa using heq
    exact absurd rfl (key _ _ rfl rfl).2.1
  · rename_i heq; obtain ⟨rfl, rfl⟩ := by simpa using heq
    exact absurd rfl (key _ _ rfl rfl).2.2.1
  · rename_i heq; obtain ⟨rfl, rfl⟩ := by simpa using heq
    exact absurd rfl (key _ _ rfl rfl).2.2.2.1
  · rename_i heq; obtain ⟨rfl, rfl⟩ := by simpa using heq
    exact absurd rfl (key _ _ rfl rfl).2.2.2.2
  · rename_i heq; obtain ⟨rfl, rfl⟩ := by simpa using heq
    rfl
  · simp at *

/-- `replace_all` started in the middle of a text. -/
def unescapeFrom (n : Nat) (b : Bool) (s : Str) : Str :=
  let (ms, tail) := unescapeRe.iterAux n b s
  (ms.flatMap fun (p, t) => p ++ unescapeGroup t) ++ tail

theorem find_eq (r : Re) (b : Bool) (s : Str) : r.find b s =
    match r.run ⟨b, s, []⟩ with
    | t :: _ => some ([], t)
    | [] =>
      match s with
      | [] => none
      | c :: cs => (r.find false cs).map fun (p, t) => (c :: p, t) := by
  rw [Re.find.eq_def]; rfl

theorem unescapeFrom_eq (n : Nat) (b : Bool) (s : Str) (hn : s.length < n) : unescapeFrom n b s = unesc s := by
  induction h : s.length using Nat.strongRecOn generalizing n b s with
  | ind len ih =>
    cases n with
    | zero => omega
    | succ n =>
      unfold unescapeFrom Re.iterAux
      by_cases hm : ∃ d cs, s = '\\' :: d :: cs ∧ isEscChar d = true
      · obtain ⟨d, cs, rfl, hd⟩ := hm
        rw [find_eq, unescapeRe_run_esc _ _ _ hd]
        simp only
        have := ih cs.length (by simp at h; omega) n false cs (by simp at hn; omega) rfl
        unfold unescapeFrom at this
        simp only [List.flatMap_cons, List.nil_append]
        rw [unescapeGroup_eq hd, unesc_esc hd, ← this]
        simp
      · cases s with
        | nil => rw [find_eq, unescapeRe_run_other _ _ hm]; simp [unesc]
        | cons c cs =>
          have hrun := unescapeRe_run_other b _ hm
          have hu : unesc (c :: cs) = c :: unesc cs := by
            apply unesc_other
            rintro d cs' rfl rfl
            by_cases hd : isEscChar d = true
            · exact absurd ⟨d, cs', rfl, hd⟩ hm
            · simpa using hd
          have := ih cs.length (by simp at h; omega) (n + 1) false cs (by simp at hn; omega) rfl
          unfold unescapeFrom Re.iterAux at this
          rw [find_eq, hrun, hu, ← this]
          simp only
          cases hf : unescapeRe.find false cs with
          | none => simp
          | some pt =>
            obtain ⟨p, t⟩ := pt
            simp

theorem unescape_eq (s : Str) : unescape s = unesc s := by
  have := unescapeFrom_eq (s.length + 1) true s (by omega)
  unfold unescapeFrom at this
  unfold unescape Re.replaceAll
  exact this

theorem unesc_esc_eq (s : Str) : unesc (esc s) = s := by
  induction s with
  | nil => simp [esc, unesc]
  | cons c s ih =>
    unfold esc
    split
    · simp [unesc, *]
    · split
      · simp [unesc, *]
      · split
        · simp [unesc, *]
        · split
          · simp [unesc, *]
          · split
            · simp [unesc, *]
            · rw [List.singleton_append, unesc_other (by simp_all), ih]

end Verif
