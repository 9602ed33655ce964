import Verif.Model.Debug
import Verif.Spec.Debug

/-! The texts of `Debug` can be read back. -/

namespace Verif
open Spec

/-! ### Hexadecimal numbers -/

theorem hexValue_snoc (ds : Str) (d : Char) : hexValue (ds ++ [d]) = 16 * hexValue ds + (c!"0123456789abcdef").idxOf d := by
  simp [hexValue, List.foldl_append]

theorem hex_digit : ∀ n < 16, (c!"0123456789abcdef").idxOf (Nat.digitChar n) = n ∧ Nat.digitChar n ∈ c!"0123456789abcdef" := by decide

theorem hex_digits (n : Nat) : hexValue (Nat.toDigits 16 n) = n ∧ ∀ d ∈ Nat.toDigits 16 n, d ∈ c!"0123456789abcdef" := by
  induction n using Nat.strongRecOn with
  | ind n ih =>
    by_cases h : n < 16
    · rw [Nat.toDigits_of_lt_base h]
      refine ⟨?_, ?_⟩
      · show 16 * 0 + _ = _
        rw [(hex_digit n h).1]; omega
      · intro d hd
        rw [List.mem_singleton] at hd
        exact hd ▸ (hex_digit n h).2
    · rw [Nat.toDigits_of_base_le (by decide) (by omega)]
      have hd := hex_digit (n % 16) (Nat.mod_lt _ (by decide))
      obtain ⟨h1, h2⟩ := ih (n / 16) (by omega)
      refine ⟨?_, ?_⟩
      · rw [hexValue_snoc, h1, hd.1]; omega
      · intro d hm
        rcases List.mem_append.mp hm with hm | hm
        · exact h2 d hm
        · rw [List.mem_singleton] at hm
          exact hm ▸ hd.2

/-! ### Literals -/

theorem escape_quoted (plain : Char → Bool) {q : Char} (hq : q = '"' ∨ q = '\'') (c : Char) {t s : Str} (h : LitBody q t s) :
    LitBody q (escapeDebug plain q c ++ t) (c :: s) := by
  unfold escapeDebug
  split
  · rename_i e; subst e; exact .escape (by decide) h
  split
  · rename_i e; subst e; exact .escape (by decide) h
  split
  · rename_i e; subst e; exact .escape (by decide) h
  split
  · rename_i e; subst e; exact .escape (by decide) h
  split
  · rename_i e; subst e; exact .escape (by decide) h
  split
  · rename_i e; subst e
    rcases hq with rfl | rfl
    · exact .escape (by decide) h
    · exact .escape (by decide) h
  split
  · exact .plain (by assumption) (by assumption) h
  · exact .unicode Nat.toDigits_ne_nil (hex_digits _).2 (hex_digits _).1.symm h

theorem quoted_flatMap (plain : Char → Bool) {q : Char} (hq : q = '"' ∨ q = '\'') (s : Str) : LitBody q (s.flatMap (escapeDebug plain q)) s := by
  induction s with
  | nil => exact .nil
  | cons c s ih => exact escape_quoted plain hq c ih

theorem escape_unique : ∀ e c c' : Char, (e, c) ∈ [('0', '\x00'), ('t', '\t'), ('n', '\n'), ('r', '\r'), ('\\', '\\'), ('"', '"'), ('\'', '\'')] →
    (e, c') ∈ [('0', '\x00'), ('t', '\t'), ('n', '\n'), ('r', '\r'), ('\\', '\\'), ('"', '"'), ('\'', '\'')] → c = c' := by
  intro e c c' h h'
  simp only [List.mem_cons, Prod.mk.injEq, List.not_mem_nil, or_false] at h h'
  rcases h with ⟨rfl, rfl⟩ | ⟨rfl, rfl⟩ | ⟨rfl, rfl⟩ | ⟨rfl, rfl⟩ | ⟨rfl, rfl⟩ | ⟨rfl, rfl⟩ | ⟨rfl, rfl⟩ <;> simp at h' <;> exact h'.symm

theorem not_u {c : Char} : ('u', c) ∉ [('0', '\x00'), ('t', '\t'), ('n', '\n'), ('r', '\r'), ('\\', '\\'), ('"', '"'), ('\'', '\'')] := by simp

theorem hex_end {ds ds' t t' : Str} (h : ∀ d ∈ ds, d ∈ c!"0123456789abcdef") (h' : ∀ d ∈ ds', d ∈ c!"0123456789abcdef") (e : ds ++ '}' :: t = ds' ++ '}' :: t') :
    ds = ds' ∧ t = t' := by
  induction ds generalizing ds' with
  | nil =>
    cases ds' with
    | nil => exact ⟨rfl, (List.cons.inj e).2⟩
    | cons d ds' =>
      have := h' d List.mem_cons_self
      rw [← (List.cons.inj e).1] at this
      exact absurd this (by decide)
  | cons d ds ih =>
    cases ds' with
    | nil =>
      have := h d List.mem_cons_self
      rw [(List.cons.inj e).1] at this
      exact absurd this (by decide)
    | cons d' ds' =>
      obtain ⟨h1, h2⟩ := List.cons.inj e
      obtain ⟨rfl, rfl⟩ := ih (fun x hx => h x (List.mem_cons_of_mem _ hx)) (fun x hx => h' x (List.mem_cons_of_mem _ hx)) h2
      exact ⟨by rw [h1], rfl⟩

/-- A literal ends at its first free quotation mark, and stands for one text. -/
theorem quoted_unique {q : Char} (hq : q ≠ '\\') {t s t' s' r r' : Str} (h : LitBody q t s) (h' : LitBody q t' s') (e : t ++ q :: r = t' ++ q :: r') :
    t = t' ∧ s = s' ∧ r = r' := by
  induction h generalizing t' s' with
  | nil =>
    cases h' with
    | nil => exact ⟨rfl, rfl, (List.cons.inj e).2⟩
    | plain h1 _ _ => exact absurd (List.cons.inj e).1.symm h1
    | escape _ _ => exact absurd (List.cons.inj e).1 hq
    | unicode _ _ _ _ => exact absurd (List.cons.inj e).1 hq
  | @plain c t s h1 h2 _ ih =>
    cases h' with
    | nil => exact absurd (List.cons.inj e).1 h1
    | plain _ _ h =>
      obtain ⟨rfl, e'⟩ := List.cons.inj e
      obtain ⟨rfl, rfl, rfl⟩ := ih h e'
      exact ⟨rfl, rfl, rfl⟩
    | escape _ _ => exact absurd (List.cons.inj e).1 h2
    | unicode _ _ _ _ => exact absurd (List.cons.inj e).1 h2
  | @escape x c t s h1 _ ih =>
    cases h' with
    | nil => exact absurd (List.cons.inj e).1.symm hq
    | plain _ h2 _ => exact absurd (List.cons.inj e).1.symm h2
    | escape h1' h =>
      obtain ⟨rfl, e'⟩ := List.cons.inj (List.cons.inj e).2
      obtain ⟨rfl, rfl, rfl⟩ := ih h e'
      rw [escape_unique _ _ _ h1 h1']
      exact ⟨rfl, rfl, rfl⟩
    | unicode _ _ _ _ =>
      have := (List.cons.inj (List.cons.inj e).2).1
      rw [this] at h1
      exact absurd h1 not_u
  | @unicode ds c t s h0 h1 h2 _ ih =>
    cases h' with
    | nil => exact absurd (List.cons.inj e).1.symm hq
    | plain _ h2 _ => exact absurd (List.cons.inj e).1.symm h2
    | escape h1' h =>
      have := (List.cons.inj (List.cons.inj e).2).1
      rw [← this] at h1'
      exact absurd h1' not_u
    | @unicode ds' c' t' s' g0 g1 g2 h =>
      have e : ds ++ '}' :: (t ++ q :: r) = ds' ++ '}' :: (t' ++ q :: r') := by
        simpa using e
      obtain ⟨rfl, e'⟩ := hex_end h1 g1 e
      obtain ⟨rfl, rfl, rfl⟩ := ih h e'
      have : c = c' := Char.ext (UInt32.toNat_inj.mp (by rw [← g2] at h2; exact h2))
      exact ⟨rfl, by rw [this], rfl⟩

/-! ### Texts that can be read back -/

/-- What follows a value does not go on with a name or number. -/
def Closes (r : Str) : Prop := ∀ c, r.head? = some c → c ∈ c!", )]}"

/-- A value and what follows can be told from the text. -/
def Code {α : Type} (f : α → Str) : Prop := ∀ a b r r', Closes r → Closes r' → f a ++ r = f b ++ r' → a = b ∧ r = r'

theorem Code.inj {α : Type} {f : α → Str} (h : Code f) {a b : α} (e : f a = f b) : a = b :=
  (h a b [] [] (by simp [Closes]) (by simp [Closes]) (by rw [e])).1

theorem stop_nil : Closes [] := by simp [Closes]

theorem stop_cons {c : Char} {r : Str} (h : c ∈ c!", )]}") : Closes (c :: r) := by
  intro d hd
  rw [List.head?_cons] at hd
  exact Option.some.inj hd ▸ h

theorem str_code (plain : Char → Bool) : Code (strDebug plain) := by
  intro a b r r' _ _ e
  have e : a.flatMap (escapeDebug plain '"') ++ '"' :: r = b.flatMap (escapeDebug plain '"') ++ '"' :: r' := by
    simpa [strDebug] using e
  obtain ⟨_, h1, h2⟩ := quoted_unique (by decide) (quoted_flatMap plain (.inl rfl) a) (quoted_flatMap plain (.inl rfl) b) e
  exact ⟨h1, h2⟩

theorem char_code (plain : Char → Bool) : Code (charDebug plain) := by
  intro a b r r' _ _ e
  have e : [a].flatMap (escapeDebug plain '\'') ++ '\'' :: r = [b].flatMap (escapeDebug plain '\'') ++ '\'' :: r' := by
    simpa [charDebug] using e
  obtain ⟨_, h1, h2⟩ := quoted_unique (by decide) (quoted_flatMap plain (.inr rfl) [a]) (quoted_flatMap plain (.inr rfl) [b]) e
  exact ⟨(List.cons.inj h1).1, h2⟩

/-- Values written with other characters than those that follow. -/
theorem atom_code {α : Type} {f : α → Str} (h : ∀ a, ∀ c ∈ f a, c ∉ c!", )]}") (hi : ∀ a b, f a = f b → a = b) : Code f := by
  have key : ∀ (t t' r r' : Str), (∀ c ∈ t, c ∉ c!", )]}") → (∀ c ∈ t', c ∉ c!", )]}") → Closes r → Closes r' → t ++ r = t' ++ r' → t = t' ∧ r = r' := by
    intro t
    induction t with
    | nil =>
      intro t' r r' _ h' hr hr' e
      cases t' with
      | nil => exact ⟨rfl, e⟩
      | cons c t' =>
        rw [List.nil_append] at e
        exact absurd (hr c (by rw [e]; rfl)) (h' c List.mem_cons_self)
    | cons c t ih =>
      intro t' r r' h h' hr hr' e
      cases t' with
      | nil =>
        rw [List.nil_append] at e
        exact absurd (hr' c (by rw [← e]; rfl)) (h c List.mem_cons_self)
      | cons c' t' =>
        obtain ⟨h1, h2⟩ := List.cons.inj e
        obtain ⟨h3, h4⟩ := ih t' r r' (fun x hx => h x (List.mem_cons_of_mem _ hx)) (fun x hx => h' x (List.mem_cons_of_mem _ hx)) hr hr' h2
        exact ⟨by rw [h1, h3], h4⟩
  intro a b r r' hr hr' e
  obtain ⟨h1, h2⟩ := key _ _ r r' (h a) (h b) hr hr' e
  exact ⟨hi _ _ h1, h2⟩

/-- A literal that can follow a value. -/
def Sep : Str → Prop
  | [] => False
  | c :: _ => c ∈ c!", )]}"

instance : (l : Str) → Decidable (Sep l)
  | [] => inferInstanceAs (Decidable False)
  | c :: _ => inferInstanceAs (Decidable (c ∈ c!", )]}"))

theorem Sep.stop {l : Str} (h : Sep l) (r : Str) : Closes (l ++ r) := by
  cases l with
  | nil => exact h.elim
  | cons c l => exact stop_cons h

theorem Code.field {α : Type} {f : α → Str} (h : Code f) {a b : α} (l : Str) {r r' : Str} (e : f a ++ (l ++ r) = f b ++ (l ++ r')) (hl : Sep l := by decide) :
    a = b ∧ r = r' := by
  obtain ⟨h1, h2⟩ := h a b _ _ (hl.stop r) (hl.stop r') e
  exact ⟨h1, List.append_cancel_left h2⟩

/-- Cancel the same literal. -/
theorem cancel (l : Str) {r r' : Str} (e : l ++ r = l ++ r') : r = r' := List.append_cancel_left e

/-! ### Numbers, names, options, lists -/

theorem dec_mem (n : Nat) : ∀ c ∈ dec n, c ∉ c!", )]}" := by
  intro c hc hm
  have := Nat.isDigit_of_mem_toDigits (by decide) (by decide) hc
  revert this
  simp only [List.mem_cons, List.not_mem_nil, or_false] at hm
  rcases hm with rfl | rfl | rfl | rfl | rfl <;> decide

theorem dec_injective {m n : Nat} (h : dec m = dec n) : m = n := by
  rw [← Nat.ofDigitChars_ten_toDigits (n := m), show Nat.toDigits 10 m = _ from h]
  exact Nat.ofDigitChars_ten_toDigits

theorem dec_code : Code dec := atom_code dec_mem fun _ _ => dec_injective

theorem int_code : Code intDebug := by
  refine atom_code (fun v c hc => ?_) (fun v w h => ?_)
  · unfold intDebug at hc
    split at hc
    · rcases List.mem_cons.mp hc with rfl | hc
      · decide
      · exact dec_mem _ c hc
    · exact dec_mem _ c hc
  · have hd : ∀ {m n : Nat}, '-' :: dec m = dec n → False := by
      intro m n e
      have : '-' ∈ dec n := by rw [← e]; exact List.mem_cons_self
      exact absurd (Nat.isDigit_of_mem_toDigits (by decide) (by decide) this) (by decide)
    unfold intDebug at h
    apply Int64.toInt_inj.mp
    split at h <;> split at h
    · have := dec_injective (List.cons.inj h).2; omega
    · exact (hd h).elim
    · exact (hd h.symm).elim
    · have := dec_injective h; omega

theorem bool_code : Code boolDebug :=
  atom_code (by decide) (by decide)

theorem unop_code : Code UnOp.debug := atom_code (by intro a; cases a <;> decide) (by intro a b h; cases a <;> cases b <;> first | rfl | exact absurd h (by decide))

theorem binop_code : Code BinOp.debug := atom_code (by intro a; cases a <;> decide) (by intro a b h; cases a <;> cases b <;> first | rfl | exact absurd h (by decide))

theorem origin_code : Code Origin.debug := atom_code (by intro a; cases a <;> decide) (by intro a b h; cases a <;> cases b <;> first | rfl | exact absurd h (by decide))

theorem state_code : Code State.debug := atom_code (by intro a; cases a <;> decide) (by intro a b h; cases a <;> cases b <;> first | rfl | exact absurd h (by decide))

theorem opt_code {α : Type} {f : α → Str} (h : Code f) : Code (optDebug f) := by
  intro a b r r' hr hr' e
  cases a with
  | none =>
    cases b with
    | none => exact ⟨rfl, cancel _ e⟩
    | some b => simp [optDebug] at e
  | some a =>
    cases b with
    | none => simp [optDebug] at e
    | some b =>
      simp only [optDebug, List.append_assoc] at e
      obtain ⟨h1, h2⟩ := h.field _ (cancel _ e)
      exact ⟨by rw [h1], h2⟩

/-- A text that does not begin like the end of a list. -/
theorem items_code {α : Type} {f : α → Str} (h : Code f) (z : Char) (hz : z ∈ c!"]}") (hf : ∀ a, ∃ c t, f a = c :: t ∧ c ∉ c!", )]}") {as bs : List α} {r r' : Str}
    (e : itemsDebug f as ++ z :: r = itemsDebug f bs ++ z :: r') : as = bs ∧ r = r' := by
  have hz' : z ∈ c!", )]}" := by
    simp only [List.mem_cons, List.not_mem_nil, or_false] at hz ⊢
    rcases hz with h | h <;> simp [h]
  have hc : z ≠ ',' := by
    rintro rfl; exact absurd hz (by decide)
  have key : ∀ (bs : List α), bs ≠ [] → ∃ c t, itemsDebug f bs ++ z :: r' = c :: t ∧ c ∉ c!", )]}" := by
    intro bs hb
    cases bs with
    | nil => exact absurd rfl hb
    | cons b bs =>
      obtain ⟨c, t, h1, h2⟩ := hf b
      cases bs with
      | nil => exact ⟨c, _, by rw [itemsDebug, h1]; rfl, h2⟩
      | cons b' bs => exact ⟨c, _, by rw [itemsDebug, h1]; rfl; simp, h2⟩
  have key' : ∀ (bs : List α), bs ≠ [] → ∃ c t, itemsDebug f bs ++ z :: r = c :: t ∧ c ∉ c!", )]}" := by
    intro bs hb
    cases bs with
    | nil => exact absurd rfl hb
    | cons b bs =>
      obtain ⟨c, t, h1, h2⟩ := hf b
      cases bs with
      | nil => exact ⟨c, _, by rw [itemsDebug, h1]; rfl, h2⟩
      | cons b' bs => exact ⟨c, _, by rw [itemsDebug, h1]; rfl; simp, h2⟩
  induction as generalizing bs with
  | nil =>
    cases bs with
    | nil => exact ⟨rfl, (List.cons.inj e).2⟩
    | cons b bs =>
      obtain ⟨c, t, h1, h2⟩ := key (b :: bs) (by simp)
      rw [h1] at e
      exact absurd ((List.cons.inj e).1 ▸ hz') h2
  | cons a as ih =>
    cases bs with
    | nil =>
      obtain ⟨c, t, h1, h2⟩ := key' (a :: as) (by simp)
      rw [h1] at e
      exact absurd ((List.cons.inj e).1 ▸ hz') h2
    | cons b bs =>
      cases as with
      | nil =>
        cases bs with
        | nil =>
          obtain ⟨h1, h2⟩ := h a b _ _ (stop_cons hz') (stop_cons hz') e
          exact ⟨by rw [h1], (List.cons.inj h2).2⟩
        | cons b' bs =>
          have e : f a ++ z :: r = f b ++ ',' :: (' ' :: (itemsDebug f (b' :: bs) ++ z :: r')) := by simpa [itemsDebug] using e
          obtain ⟨_, h2⟩ := h a b _ _ (stop_cons hz') (stop_cons (by decide)) e
          exact absurd (List.cons.inj h2).1 hc
      | cons a' as =>
        cases bs with
        | nil =>
          have e : f a ++ ',' :: (' ' :: (itemsDebug f (a' :: as) ++ z :: r)) = f b ++ z :: r' := by simpa [itemsDebug] using e
          obtain ⟨_, h2⟩ := h a b _ _ (stop_cons (by decide)) (stop_cons hz') e
          exact absurd (List.cons.inj h2).1.symm hc
        | cons b' bs =>
          have e : f a ++ (c!", " ++ (itemsDebug f (a' :: as) ++ z :: r)) = f b ++ (c!", " ++ (itemsDebug f (b' :: bs) ++ z :: r')) := by simpa [itemsDebug] using e
          obtain ⟨h1, h2⟩ := h.field _ e
          obtain ⟨h3, h4⟩ := ih h2
          exact ⟨by rw [h1, h3], h4⟩

theorem list_code {α : Type} {f : α → Str} (h : Code f) (hf : ∀ a, ∃ c t, f a = c :: t ∧ c ∉ c!", )]}") : Code (listDebug f) := by
  intro a b r r' _ _ e
  simp only [listDebug, List.append_assoc] at e
  exact items_code h ']' (by decide) hf (cancel _ e)

theorem set_code {α : Type} {f : α → Str} (h : Code f) (hf : ∀ a, ∃ c t, f a = c :: t ∧ c ∉ c!", )]}") : Code (setDebug f) := by
  intro a b r r' _ _ e
  simp only [setDebug, List.append_assoc] at e
  exact items_code h '}' (by decide) hf (cancel _ e)

theorem str_head (plain : Char → Bool) (s : Str) : ∃ c t, strDebug plain s = c :: t ∧ c ∉ c!", )]}" := ⟨'"', _, rfl, by decide⟩

/-! ### The data types -/

theorem node_code : Code Node.debug := by
  intro a
  induction a with
  | var =>
    intro b r r' _ _ e
    cases b <;> simp [Node.debug] at e
    exact ⟨rfl, e⟩
  | num v =>
    intro b r r' _ _ e
    cases b with
    | num w =>
      simp only [Node.debug, List.append_assoc] at e
      obtain ⟨h1, h2⟩ := int_code.field _ (cancel _ e)
      exact ⟨by rw [h1], h2⟩
    | _ => simp [Node.debug] at e
  | unop op x ih =>
    intro b r r' _ _ e
    cases b with
    | unop op' x' =>
      simp only [Node.debug, List.append_assoc] at e
      obtain ⟨h1, e⟩ := unop_code.field _ (cancel _ e)
      obtain ⟨h2, h3⟩ := ih x' _ _ (Sep.stop (by decide) _) (Sep.stop (by decide) _) e
      exact ⟨by rw [h1, h2], cancel _ h3⟩
    | _ => simp [Node.debug] at e
  | binop op x y ihx ihy =>
    intro b r r' _ _ e
    cases b with
    | binop op' x' y' =>
      simp only [Node.debug, List.append_assoc] at e
      obtain ⟨h1, e⟩ := binop_code.field _ (cancel _ e)
      obtain ⟨h2, e⟩ := ihx x' _ _ (Sep.stop (by decide) _) (Sep.stop (by decide) _) e
      obtain ⟨h3, e⟩ := ihy y' _ _ (Sep.stop (by decide) _) (Sep.stop (by decide) _) (cancel _ e)
      exact ⟨by rw [h1, h2, h3], cancel _ e⟩
    | _ => simp [Node.debug] at e
  | cond x y z ihx ihy ihz =>
    intro b r r' _ _ e
    cases b with
    | cond x' y' z' =>
      simp only [Node.debug, List.append_assoc] at e
      obtain ⟨h1, e⟩ := ihx x' _ _ (Sep.stop (by decide) _) (Sep.stop (by decide) _) (cancel _ e)
      obtain ⟨h2, e⟩ := ihy y' _ _ (Sep.stop (by decide) _) (Sep.stop (by decide) _) (cancel _ e)
      obtain ⟨h3, e⟩ := ihz z' _ _ (Sep.stop (by decide) _) (Sep.stop (by decide) _) (cancel _ e)
      exact ⟨by rw [h1, h2, h3], cancel _ e⟩
    | _ => simp [Node.debug] at e

theorem forms_code (plain : Char → Bool) : Code (PluralForms.debug plain) := by
  rintro ⟨a1, a2, a3, a4⟩ ⟨b1, b2, b3, b4⟩ r r' _ _ e
  simp only [PluralForms.debug, List.append_assoc] at e
  obtain ⟨h, e1⟩ := node_code.field _ (cancel _ e); subst h
  obtain ⟨h, e2⟩ := dec_code.field _ e1; subst h
  obtain ⟨h, e3⟩ := (str_code plain).field _ e2; subst h
  obtain ⟨h, e4⟩ := (str_code plain).field _ e3; subst h
  exact ⟨rfl, e4⟩

theorem plural_code (plain : Char → Bool) : Code (Plural.debug plain) := by
  rintro ⟨a1, a2, a3, a4⟩ ⟨b1, b2, b3, b4⟩ r r' _ _ e
  simp only [Plural.debug, List.append_assoc] at e
  obtain ⟨h, e1⟩ := (opt_code (forms_code plain)).field _ (cancel _ e); subst h
  obtain ⟨h, e2⟩ := (str_code plain).field _ e1; subst h
  obtain ⟨h, e3⟩ := (str_code plain).field _ e2; subst h
  obtain ⟨h, e4⟩ := (list_code (str_code plain) (str_head plain)).field _ e3; subst h
  exact ⟨rfl, e4⟩

theorem message_code (plain : Char → Bool) : Code (Message.debug plain) := by
  intro a b r r' _ _ e
  cases a with
  | simple i t =>
    cases b with
    | simple i' t' =>
      simp only [Message.debug, List.append_assoc] at e
      obtain ⟨h1, e⟩ := (str_code plain).field _ (cancel _ e)
      obtain ⟨h2, e⟩ := (opt_code (str_code plain)).field _ e
      exact ⟨by rw [h1, h2], e⟩
    | plural p => simp [Message.debug] at e
  | plural p =>
    cases b with
    | simple i t => simp [Message.debug] at e
    | plural p' =>
      simp only [Message.debug, List.append_assoc] at e
      obtain ⟨h1, e⟩ := (plural_code plain).field _ (cancel _ e)
      exact ⟨by rw [h1], e⟩

theorem note_code (plain : Char → Bool) : Code (Note.debug plain) := by
  rintro ⟨a1, a2⟩ ⟨b1, b2⟩ r r' _ _ e
  simp only [Note.debug, List.append_assoc] at e
  obtain ⟨h, e1⟩ := origin_code.field _ (cancel _ e); subst h
  obtain ⟨h, e2⟩ := (str_code plain).field _ e1; subst h
  exact ⟨rfl, e2⟩

theorem comment_code (plain : Char → Bool) : Code (Comment.debug plain) := by
  rintro ⟨a1, a2⟩ ⟨b1, b2⟩ r r' _ _ e
  simp only [Comment.debug, List.append_assoc] at e
  obtain ⟨h, e1⟩ := (char_code plain).field _ (cancel _ e); subst h
  obtain ⟨h, e2⟩ := (str_code plain).field _ e1; subst h
  exact ⟨rfl, e2⟩

theorem line_code (plain : Char → Bool) : Code (PoLine.debug plain) := by
  intro a b r r' _ _ e
  cases a with
  | blank => cases b <;> simp [PoLine.debug] at e; exact ⟨rfl, e⟩
  | comment n k s =>
    cases b with
    | comment n' k' s' =>
      simp only [PoLine.debug, List.append_assoc] at e
      obtain ⟨h, e1⟩ := dec_code.field _ (cancel _ e); subst h
      obtain ⟨h, e2⟩ := (char_code plain).field _ e1; subst h
      obtain ⟨h, e3⟩ := (str_code plain).field _ e2; subst h
      exact ⟨rfl, e3⟩
    | _ => simp [PoLine.debug] at e
  | message n f t s =>
    cases b with
    | message n' f' t' s' =>
      simp only [PoLine.debug, List.append_assoc] at e
      obtain ⟨h, e1⟩ := dec_code.field _ (cancel _ e); subst h
      obtain ⟨h, e2⟩ := (str_code plain).field _ e1; subst h
      obtain ⟨h, e3⟩ := (str_code plain).field _ e2; subst h
      obtain ⟨h, e4⟩ := (str_code plain).field _ e3; subst h
      exact ⟨rfl, e4⟩
    | _ => simp [PoLine.debug] at e
  | continuation n f s =>
    cases b with
    | continuation n' f' s' =>
      simp only [PoLine.debug, List.append_assoc] at e
      obtain ⟨h, e1⟩ := dec_code.field _ (cancel _ e); subst h
      obtain ⟨h, e2⟩ := (str_code plain).field _ e1; subst h
      obtain ⟨h, e3⟩ := (str_code plain).field _ e2; subst h
      exact ⟨rfl, e3⟩
    | _ => simp [PoLine.debug] at e

theorem note_head (plain : Char → Bool) (n : Note) : ∃ c t, n.debug plain = c :: t ∧ c ∉ c!", )]}" := ⟨'N', _, rfl, by decide⟩

theorem comment_head (plain : Char → Bool) (n : Comment) : ∃ c t, n.debug plain = c :: t ∧ c ∉ c!", )]}" := ⟨'C', _, rfl, by decide⟩

theorem unit_debug {plain : Char → Bool} {fs gs : List Str} {u v : PoUnit} (e : u.debug plain fs = v.debug plain gs) :
    fs = gs ∧ { u with flags := [] } = { v with flags := [] } := by
  obtain ⟨a1, a2, a3, a4, a5, a6, a7, a8, a9, a10⟩ := u
  obtain ⟨b1, b2, b3, b4, b5, b6, b7, b8, b9, b10⟩ := v
  have e := congrArg (· ++ []) e
  unfold PoUnit.debug at e
  repeat rw [List.append_assoc] at e
  obtain ⟨h, e1⟩ := (opt_code (str_code plain)).field _ (cancel _ e); subst h
  obtain ⟨h, e2⟩ := (message_code plain).field _ e1; subst h
  obtain ⟨h, e3⟩ := (opt_code (str_code plain)).field _ e2; subst h
  obtain ⟨h, e4⟩ := (message_code plain).field _ e3; subst h
  obtain ⟨h, e5⟩ := (set_code (str_code plain) (str_head plain)).field _ e4; subst h
  obtain ⟨h, e6⟩ := (list_code (note_code plain) (note_head plain)).field _ e5; subst h
  obtain ⟨h, e7⟩ := (list_code (str_code plain) (str_head plain)).field _ e6; subst h
  obtain ⟨h, e8⟩ := (list_code (comment_code plain) (comment_head plain)).field _ e7; subst h
  obtain ⟨h, e9⟩ := state_code.field _ e8; subst h
  obtain ⟨h, e10⟩ := bool_code.field _ e9; subst h
  exact ⟨rfl, rfl⟩

/-! ### The characters of the texts -/

section
variable {plain : Char → Bool}

theorem shows_append {s t : Str} (hs : Shows plain s) (ht : Shows plain t) : Shows plain (s ++ t) := by
  intro c hc
  rcases List.mem_append.mp hc with h | h
  · exact hs c h
  · exact ht c h

theorem shows_lit {s : Str} (h : s.all fun c => decide (32 ≤ c.toNat ∧ c.toNat < 127) := by decide) : Shows plain s := by
  intro c hc
  exact .inl (of_decide_eq_true (List.all_eq_true.mp h c hc))

theorem shows_flatMap {α : Type} {f : α → Str} (h : ∀ a, Shows plain (f a)) (as : List α) : Shows plain (as.flatMap f) := by
  intro c hc
  obtain ⟨a, _, hc⟩ := List.mem_flatMap.mp hc
  exact h a c hc

theorem shows_digits {b n : Nat} (h : ∀ d ∈ Nat.toDigits b n, d ∈ c!"0123456789abcdef") : Shows plain (Nat.toDigits b n) := by
  intro c hc
  have h1 : (c!"0123456789abcdef").all fun c => decide (32 ≤ c.toNat ∧ c.toNat < 127) := by decide
  exact .inl (of_decide_eq_true (List.all_eq_true.mp h1 c (h c hc)))

theorem shows_escape {q : Char} (hq : 32 ≤ q.toNat ∧ q.toNat < 127) (c : Char) : Shows plain (escapeDebug plain q c) := by
  unfold escapeDebug
  split
  · exact shows_lit
  split
  · exact shows_lit
  split
  · exact shows_lit
  split
  · exact shows_lit
  split
  · exact shows_lit
  split
  · intro d hd
    simp only [List.mem_cons, List.not_mem_nil, or_false] at hd
    rcases hd with rfl | rfl
    · exact .inl (by decide)
    · exact .inl hq
  split
  · intro d hd
    rw [List.mem_singleton] at hd
    subst hd
    refine .inr ⟨by assumption, ?_⟩
    simp only [List.mem_cons, List.not_mem_nil, or_false, not_or]
    exact ⟨by assumption, by assumption, by assumption, by assumption⟩
  · exact shows_append (shows_append shows_lit (shows_digits (hex_digits _).2)) shows_lit

theorem shows_str (s : Str) : Shows plain (strDebug plain s) :=
  shows_append (s := '"' :: _) (shows_append (s := ['"']) shows_lit (shows_flatMap (shows_escape (by decide)) s)) shows_lit

theorem shows_char (c : Char) : Shows plain (charDebug plain c) :=
  shows_append (s := '\'' :: _) (shows_append (s := ['\'']) shows_lit (shows_escape (by decide) c)) shows_lit

theorem shows_dec (n : Nat) : Shows plain (dec n) := by
  refine shows_digits fun d hd => ?_
  have := Nat.isDigit_of_mem_toDigits (by decide) (by decide) hd
  have h : ∀ d : Char, d.isDigit → d ∈ c!"0123456789" := by
    intro d hd
    simp only [Char.isDigit, Bool.and_eq_true, decide_eq_true_eq] at hd
    have h1 : 48 ≤ d.toNat := by have := UInt32.le_iff_toNat_le.mp hd.1; exact this
    have h2 : d.toNat ≤ 57 := by have := UInt32.le_iff_toNat_le.mp hd.2; exact this
    have e : d = Char.ofNat d.toNat := (Char.ofNat_toNat d).symm
    generalize d.toNat = n at *
    rw [e]
    have h' : ∀ n, 48 ≤ n → n ≤ 57 → Char.ofNat n ∈ c!"0123456789" := by
      intro n h1 h2
      have : n = 48 ∨ n = 49 ∨ n = 50 ∨ n = 51 ∨ n = 52 ∨ n = 53 ∨ n = 54 ∨ n = 55 ∨ n = 56 ∨ n = 57 := by omega
      rcases this with rfl | rfl | rfl | rfl | rfl | rfl | rfl | rfl | rfl | rfl <;> decide
    exact h' n h1 h2
  have := h d this
  simp only [List.mem_cons, List.not_mem_nil, or_false] at this ⊢
  rcases this with h | h | h | h | h | h | h | h | h | h <;> simp [h]

theorem shows_int (v : Int64) : Shows plain (intDebug v) := by
  unfold intDebug
  split
  · exact shows_append (s := ['-']) shows_lit (shows_dec _)
  · exact shows_dec _

theorem shows_opt {α : Type} {f : α → Str} (h : ∀ a, Shows plain (f a)) (a : Option α) : Shows plain (optDebug f a) := by
  cases a with
  | none => exact shows_lit (s := c!"None")
  | some a => exact shows_append (shows_append shows_lit (h a)) shows_lit

theorem shows_items {α : Type} {f : α → Str} (h : ∀ a, Shows plain (f a)) (as : List α) : Shows plain (itemsDebug f as) := by
  induction as with
  | nil => exact shows_lit (s := [])
  | cons a as ih =>
    cases as with
    | nil => exact h a
    | cons b as => exact shows_append (shows_append (h a) shows_lit) ih

theorem shows_list {α : Type} {f : α → Str} (h : ∀ a, Shows plain (f a)) (as : List α) : Shows plain (listDebug f as) :=
  shows_append (shows_append shows_lit (shows_items h as)) shows_lit

theorem shows_set {α : Type} {f : α → Str} (h : ∀ a, Shows plain (f a)) (as : List α) : Shows plain (setDebug f as) :=
  shows_append (shows_append shows_lit (shows_items h as)) shows_lit

theorem shows_unop (o : UnOp) : Shows plain o.debug := by cases o <;> exact shows_lit
theorem shows_binop (o : BinOp) : Shows plain o.debug := by cases o <;> exact shows_lit
theorem shows_origin (o : Origin) : Shows plain o.debug := by cases o <;> exact shows_lit
theorem shows_state (o : State) : Shows plain o.debug := by cases o <;> exact shows_lit
theorem shows_bool (o : Bool) : Shows plain (boolDebug o) := by cases o <;> exact shows_lit

theorem shows_node (n : Node) : Shows plain n.debug := by
  induction n with
  | var => exact shows_lit
  | num v => exact shows_append (shows_append shows_lit (shows_int v)) shows_lit
  | unop o r ih => exact shows_append (shows_append (shows_append (shows_append shows_lit (shows_unop o)) shows_lit) ih) shows_lit
  | binop o l r ihl ihr =>
    exact shows_append (shows_append (shows_append (shows_append (shows_append (shows_append shows_lit (shows_binop o)) shows_lit) ihl) shows_lit) ihr) shows_lit
  | cond t a b iht iha ihb => exact shows_append (shows_append (shows_append (shows_append (shows_append (shows_append shows_lit iht) shows_lit) iha) shows_lit) ihb) shows_lit

theorem shows_forms (f : PluralForms) : Shows plain (f.debug plain) := by
  unfold PluralForms.debug
  exact shows_append (shows_append (shows_append (shows_append (shows_append (shows_append (shows_append (shows_append shows_lit (shows_node _)) shows_lit) (shows_dec _)) shows_lit) (shows_str _)) shows_lit)
    (shows_str _)) shows_lit

theorem shows_plural (p : Plural) : Shows plain (p.debug plain) := by
  unfold Plural.debug
  exact shows_append (shows_append (shows_append (shows_append (shows_append (shows_append (shows_append (shows_append shows_lit (shows_opt shows_forms _)) shows_lit) (shows_str _)) shows_lit) (shows_str _))
    shows_lit) (shows_list shows_str _)) shows_lit

theorem shows_message (m : Message) : Shows plain (m.debug plain) := by
  cases m with
  | simple i t => exact shows_append (shows_append (shows_append (shows_append shows_lit (shows_str _)) shows_lit) (shows_opt shows_str _)) shows_lit
  | plural p => exact shows_append (shows_append shows_lit (shows_plural p)) shows_lit

theorem shows_note (n : Note) : Shows plain (n.debug plain) :=
  shows_append (shows_append (shows_append (shows_append shows_lit (shows_origin _)) shows_lit) (shows_str _)) shows_lit

theorem shows_comment (n : Comment) : Shows plain (n.debug plain) :=
  shows_append (shows_append (shows_append (shows_append shows_lit (shows_char _)) shows_lit) (shows_str _)) shows_lit

theorem shows_line (l : PoLine) : Shows plain (l.debug plain) := by
  cases l with
  | blank => exact shows_lit (s := c!"Blank")
  | comment n k s => exact shows_append (shows_append (shows_append (shows_append (shows_append (shows_append shows_lit (shows_dec _)) shows_lit) (shows_char _)) shows_lit) (shows_str _)) shows_lit
  | message n f t s =>
    exact shows_append (shows_append (shows_append (shows_append (shows_append (shows_append (shows_append (shows_append shows_lit (shows_dec _)) shows_lit) (shows_str _)) shows_lit) (shows_str _)) shows_lit)
      (shows_str _)) shows_lit
  | continuation n f s => exact shows_append (shows_append (shows_append (shows_append (shows_append (shows_append shows_lit (shows_dec _)) shows_lit) (shows_str _)) shows_lit) (shows_str _)) shows_lit

theorem shows_unit (fs : List Str) (u : PoUnit) : Shows plain (u.debug plain fs) := by
  have h1 := shows_opt (shows_str (plain := plain)) u.context
  have h2 := shows_message (plain := plain) u.message
  have h3 := shows_opt (shows_str (plain := plain)) u.prevContext
  have h4 := shows_message (plain := plain) u.prevMessage
  have h5 := shows_set (shows_str (plain := plain)) fs
  have h6 := shows_list (shows_note (plain := plain)) u.notes
  have h7 := shows_list (shows_str (plain := plain)) u.locations
  have h8 := shows_list (shows_comment (plain := plain)) u.comments
  have h9 := shows_state (plain := plain) u.state
  have h10 := shows_bool (plain := plain) u.obsolete
  unfold PoUnit.debug
  exact shows_append (shows_append (shows_append (shows_append (shows_append (shows_append (shows_append (shows_append (shows_append (shows_append
    (shows_append (shows_append (shows_append (shows_append (shows_append (shows_append (shows_append (shows_append (shows_append (shows_append
    shows_lit h1) shows_lit) h2) shows_lit) h3) shows_lit) h4) shows_lit) h5) shows_lit) h6) shows_lit) h7) shows_lit) h8) shows_lit) h9) shows_lit) h10) shows_lit
end

end Verif
