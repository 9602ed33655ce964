import Verif.Model.Width
import Verif.Props.Choice

/-! C68: platforms on which `usize` has less than 64 bits. -/

namespace Verif
open Spec

theorem auxW_64 (s : Str) : ∀ v, parseUsizeAuxW 64 v s = parseUsizeAux v s := by
  induction s with
  | nil => intro v; rfl
  | cons c s ih =>
    intro v
    rw [parseUsizeAuxW, parseUsizeAux]
    simp only [ih]

theorem usizeW_cases (x : Str) : (∃ msg, parseUsize x = .error msg ∧ ∀ w, parseUsizeW w x = .error msg) ∨
    ∃ ds, parseUsize x = parseUsizeAux 0 ds ∧ ∀ w, parseUsizeW w x = parseUsizeAuxW w 0 ds := by
  by_cases hx : x = []
  · subst hx; exact .inl ⟨_, rfl, fun _ => rfl⟩
  by_cases h1 : x = c!"+"
  · subst h1; exact .inl ⟨_, rfl, fun _ => rfl⟩
  by_cases h2 : x = c!"-"
  · subst h2; exact .inl ⟨_, rfl, fun _ => rfl⟩
  obtain ⟨ds, hu⟩ := unsigned_exists x
  refine .inr ⟨ds, parseUsize_unsigned hu hx h1 h2, fun w => ?_⟩
  rcases hu with rfl | ⟨rfl, h⟩
  · unfold parseUsizeW
    split
    · contradiction
    · contradiction
    · contradiction
    · rename_i he; cases he; rfl
    · rename_i hh; exact (hh _ rfl).elim
  · unfold parseUsizeW
    split
    · contradiction
    · contradiction
    · contradiction
    · exact (h rfl).elim
    · rfl

theorem parseUsizeW_64 (s : Str) : parseUsizeW 64 s = parseUsize s := by
  rcases usizeW_cases s with ⟨msg, h1, h2⟩ | ⟨ds, h1, h2⟩
  · rw [h1, h2]
  · rw [h1, h2, auxW_64]

/-- **C68** With 64 bits this is the model that is used everywhere else. -/
theorem C68_model (env : Env) : (∀ s, PluralForms.parseW 64 env s = PluralForms.parse env s) ∧
    (∀ f dbg (count : UInt64), PluralForms.getValueW 64 dbg f count.toNat = f.getValue dbg count) ∧
    ∀ m dbg (count : UInt64), Message.getPluralTextW 64 dbg m count.toNat = m.getPluralText dbg count := by
  have h2 : ∀ f dbg (count : UInt64), PluralForms.getValueW 64 dbg f count.toNat = f.getValue dbg count := by
    intro f dbg count
    unfold PluralForms.getValueW PluralForms.getValue formulaExecuteW formulaExecute
    rw [UInt64.ofNat_toNat]
    congr 2
    funext res
    congr 2
    exact congrArg some (Nat.mod_eq_of_lt res.toUInt64.toNat_lt)
  refine ⟨fun s => ?_, h2, fun m dbg count => ?_⟩
  · unfold PluralForms.parseW PluralForms.parse
    cases parseMap s with
    | error => rfl
    | ok values =>
      simp only
      cases formulaParse ((values.lookup (c!"plural")).getD []) with
      | none => rfl
      | some t =>
        simp only
        cases values.lookup (c!"nplurals") with
        | none => rfl
        | some x =>
          simp only [parseUsizeW_64]
          cases parseUsize x <;> rfl
  · cases m with
    | simple => rfl
    | plural p =>
      simp only [Message.getPluralTextW, Message.getPluralText, Plural.getW, Plural.get, h2]
      cases p.forms <;> rfl

/-- **C68** `get_value` with less than 64 bits, in all cases.  The count stands for itself, and the index is the value of the formula, if it is not negative,
modulo 2^w. -/
theorem C68_value {w : Nat} (hw : w < 64) (dbg : Bool) (f : PluralForms) {count : Nat} (hc : count < 2 ^ w) :
    (dbg = true ∧ NegatesMin count f.formula ∧ f.getValueW w dbg count = .panic) ∨
    (¬ (dbg = true ∧ NegatesMin count f.formula) ∧
      f.getValueW w dbg count = .ok (if 0 ≤ meaning count f.formula ∧ meaning count f.formula % 2 ^ w < f.getCount
        then some (meaning count f.formula % 2 ^ w).toNat else none)) := by
  have hlt : count < 2 ^ 63 := Nat.lt_of_lt_of_le hc (Nat.pow_le_pow_right (by decide) (by omega))
  have hcount : (UInt64.ofNat count).toNat = count := by
    rw [UInt64.toNat_ofNat']; exact Nat.mod_eq_of_lt (by omega)
  have hsig : signed (UInt64.ofNat count) = count := by
    unfold signed
    rw [hcount, if_pos hlt]
  have hex := formulaExecute_eq dbg f.formula (UInt64.ofNat count)
  rw [hsig] at hex
  have hmod : formulaExecuteW w dbg f.formula count = (formulaExecute dbg f.formula (UInt64.ofNat count)).bind fun v => .ok (v.map (· % 2 ^ w)) := by
    unfold formulaExecuteW formulaExecute
    cases Node.execute dbg (UInt64.ofNat count).toInt64 f.formula with
    | ok v =>
      simp only [Out.bind]
      split <;> rfl
    | err => rfl
    | panic => rfl
  rcases hex with ⟨h1, h2, h3⟩ | ⟨h1, h2⟩
  · exact .inl ⟨h1, h2, by rw [PluralForms.getValueW, hmod, h3]; rfl⟩
  · refine .inr ⟨h1, ?_⟩
    rw [PluralForms.getValueW, hmod, h2]
    have hg : f.getCount = f.count := rfl
    simp only [Out.bind, Out.ok.injEq]
    generalize meaning count f.formula = v
    by_cases hv : v < 0
    · rw [if_pos hv, if_neg (by omega)]; rfl
    · rw [if_neg hv]
      obtain ⟨k, rfl⟩ : ∃ k : Nat, v = k := ⟨v.toNat, by omega⟩
      have hk : (k : Int) % 2 ^ w = ((k % 2 ^ w : Nat) : Int) := by simp
      rw [hk, Int.toNat_natCast, Int.toNat_natCast, Option.map_some]
      by_cases hcc : k % 2 ^ w < f.count
      · rw [if_pos ⟨by omega, by rw [hg]; omega⟩, Option.filter_some, if_pos (by simpa using hcc)]
      · rw [if_neg (by rw [hg]; omega), Option.filter_some, if_neg (by simpa using hcc)]

/-- **C68** If the value of the formula is negative or below 2^w, the width does not matter. -/
theorem C68_same {w : Nat} (hw : w < 64) (dbg : Bool) (f : PluralForms) {count : Nat} (hc : count < 2 ^ w) (hm : meaning count f.formula < 2 ^ w) :
    f.getValueW w dbg count = f.getValueW 64 dbg count := by
  have hlt : count < 2 ^ 63 := Nat.lt_of_lt_of_le hc (Nat.pow_le_pow_right (by decide) (by omega))
  have hcount : (UInt64.ofNat count).toNat = count := by
    rw [UInt64.toNat_ofNat']; exact Nat.mod_eq_of_lt (by omega)
  have hsig : signed (UInt64.ofNat count) = count := by
    unfold signed
    rw [hcount, if_pos hlt]
  have h64 := (C68_model ⟨Unit, fun _ => none, fun _ => none, (), fun _ => []⟩).2.1 f dbg (UInt64.ofNat count)
  rw [hcount] at h64
  rw [h64]
  have hv := C32_value dbg f (UInt64.ofNat count)
  rw [hsig] at hv
  rcases C68_value hw dbg f hc with ⟨h1, h2, h3⟩ | ⟨h1, h2⟩
  · rcases hv with ⟨_, _, h⟩ | ⟨h, _⟩
    · rw [h3, h]
    · exact absurd ⟨h1, h2⟩ h
  · rcases hv with ⟨h, h', _⟩ | ⟨_, h⟩
    · exact absurd ⟨h, h'⟩ h1
    · rw [h2, h]
      congr 1
      generalize meaning count f.formula = v at *
      by_cases hv : 0 ≤ v
      · rw [Int.emod_eq_of_lt hv hm]
      · rw [if_neg (by omega), if_neg (by omega)]

theorem auxW_ok {w : Nat} (hw : w ≤ 64) {s : Str} : ∀ {v n : Nat}, v < 2 ^ w → (parseUsizeAuxW w v s = .ok n ↔ parseUsizeAux v s = .ok n ∧ n < 2 ^ w) := by
  have hp : 2 ^ w ≤ 2 ^ 64 := Nat.pow_le_pow_right (by decide) hw
  have mono : ∀ {s : Str} {v n : Nat}, parseUsizeAux v s = .ok n → v ≤ n := by
    intro s
    induction s with
    | nil => intro v n h; cases h; exact Nat.le_refl _
    | cons c s ih =>
      intro v n h
      rw [parseUsizeAux] at h
      split at h
      · cases h
      · simp only at h
        split at h
        · have := ih h; omega
        · cases h
  induction s with
  | nil =>
    intro v n hv
    simp only [parseUsizeAuxW, parseUsizeAux, Except.ok.injEq]
    constructor
    · rintro rfl; exact ⟨rfl, hv⟩
    · exact fun h => h.1
  | cons c s ih =>
    intro v n hv
    rw [parseUsizeAuxW, parseUsizeAux]
    split
    · simp
    · simp only
      by_cases h1 : 10 * v + (c.toNat - '0'.toNat) < 2 ^ w
      · rw [if_pos h1, if_pos (by omega)]
        exact ih h1
      · rw [if_neg h1]
        constructor
        · intro h; cases h
        · rintro ⟨h, hn⟩
          split at h
          · have := mono h; omega
          · cases h

theorem parseUsizeW_ok {w : Nat} (hw : w ≤ 64) (s : Str) (n : Nat) : parseUsizeW w s = .ok n ↔ Numeral s n ∧ n < 2 ^ w := by
  rw [← parseUsize_iff]
  have h0 : 0 < 2 ^ w := Nat.pow_pos (by decide)
  rcases usizeW_cases s with ⟨msg, h1, h2⟩ | ⟨ds, h1, h2⟩
  · rw [h1, h2]; simp
  · rw [h1, h2]; exact auxW_ok hw h0

/-- **C68** Which `Plural-Forms` properties are accepted with `w` bits: those that are accepted with 64 bits with a number of forms below 2^w. -/
theorem C68_parse {w : Nat} (h2 : 2 ≤ w) (hw : w ≤ 64) (env : Env) (s : Str) (f : PluralForms) :
    PluralForms.parseW w env s = .ok f ↔ FormsOf s f ∧ f.getCount < 2 ^ w := by
  rw [← formsParse_iff (env := env)]
  have h0 : 2 < 2 ^ w := by
    have : 2 ^ 2 ≤ 2 ^ w := Nat.pow_le_pow_right (by decide) h2
    omega
  unfold PluralForms.parseW PluralForms.parse
  cases parseMap s with
  | error => simp
  | ok values =>
    simp only
    cases formulaParse ((values.lookup (c!"plural")).getD []) with
    | none => simp
    | some t =>
      simp only
      cases values.lookup (c!"nplurals") with
      | none =>
        simp only [Except.ok.injEq]
        constructor
        · rintro rfl; exact ⟨rfl, h0⟩
        · exact fun h => h.1
      | some x =>
        simp only
        have key := parseUsizeW_ok hw x
        simp only [← parseUsize_iff] at key
        cases hx : parseUsizeW w x with
        | ok n =>
          obtain ⟨k1, k2⟩ := (key n).mp hx
          rw [k1]
          simp only [Except.ok.injEq]
          constructor
          · rintro rfl; exact ⟨rfl, k2⟩
          · exact fun h => h.1
        | error msg =>
          simp only
          constructor
          · intro h; cases h
          · rintro ⟨h, hc⟩
            cases hy : parseUsize x with
            | error msg' => rw [hy] at h; cases h
            | ok n =>
              rw [hy] at h
              cases h
              rw [(key n).mpr ⟨hy, hc⟩] at hx
              cases hx

theorem auxW_large {w : Nat} {s : Str} : ∀ {v n : Nat}, v < 2 ^ w → parseUsizeAux v s = .ok n → 2 ^ w ≤ n →
    parseUsizeAuxW w v s = .error (c!"number too large to fit in target type") := by
  induction s with
  | nil =>
    intro v n hv h hn
    cases h
    omega
  | cons c s ih =>
    intro v n hv h hn
    rw [parseUsizeAux] at h
    rw [parseUsizeAuxW]
    split at h
    · cases h
    · rename_i hd
      rw [if_neg hd]
      simp only at h ⊢
      split at h
      · by_cases h1 : 10 * v + (c.toNat - '0'.toNat) < 2 ^ w
        · rw [if_pos h1]; exact ih h1 h hn
        · rw [if_neg h1]
      · cases h

/-- **C68** The properties that are accepted with 64 bits only are rejected with this error. -/
theorem C68_large {w : Nat} (h2 : 2 ≤ w) (env : Env) {s : Str} {f : PluralForms} (h : FormsOf s f) (hf : 2 ^ w ≤ f.getCount) :
    PluralForms.parseW w env s = .error (.pluralForms (c!"number too large to fit in target type")) := by
  rw [← formsParse_iff (env := env)] at h
  have h0 : 2 < 2 ^ w := by
    have : 2 ^ 2 ≤ 2 ^ w := Nat.pow_le_pow_right (by decide) h2
    omega
  unfold PluralForms.parse at h
  unfold PluralForms.parseW
  cases hp : parseMap s with
  | error e => rw [hp] at h; cases h
  | ok values =>
    rw [hp] at h
    simp only at h ⊢
    cases ht : formulaParse ((values.lookup (c!"plural")).getD []) with
    | none => rw [ht] at h; cases h
    | some t =>
      rw [ht] at h
      simp only at h ⊢
      cases hx : values.lookup (c!"nplurals") with
      | none => 
        rw [hx] at h
        cases h
        exact absurd h0 (Nat.not_lt.mpr hf)
      | some x =>
        rw [hx] at h
        simp only at h ⊢
        cases hn : parseUsize x with
        | error => rw [hn] at h; cases h
        | ok n =>
          rw [hn] at h
          cases h
          rcases usizeW_cases x with ⟨msg, k1, k2⟩ | ⟨ds, k1, k2⟩
          · rw [k1] at hn; cases hn
          · rw [k2, auxW_large (by omega) (k1.symm.trans hn) hf]

/-- **C68** The text for a count with less than 64 bits, in a build that does not check overflows. -/
theorem C68_text {w : Nat} (hw : w < 64) {p : Plural} {f : PluralForms} (hp : p.forms = some f) {count : Nat} (hc : count < 2 ^ w) :
    Message.getPluralTextW w false (.plural p) count = .ok (if 0 ≤ meaning count f.formula ∧ meaning count f.formula % 2 ^ w < f.getCount
      then p.values[(meaning count f.formula % 2 ^ w).toNat]? else none) := by
  rcases C68_value hw false f hc with ⟨h, _⟩ | ⟨_, h⟩
  · cases h
  · simp only [Message.getPluralTextW, Plural.getW, hp, h, Out.bind, Out.ok.injEq]
    split <;> rfl

/-- **C68** The formulas that always choose a form (C60) choose the same one with any width that the number of forms fits in. -/
theorem C68_choice {w : Nat} (hw : w < 64) {f : PluralForms} (h : Chooses f.getCount f.formula) (hf : f.getCount ≤ 2 ^ w) (dbg : Bool) {count : Nat} (hc : count < 2 ^ w) :
    f.getValueW w dbg count = f.getValueW 64 dbg count := by
  have := (chooses_meaning h count).2
  refine C68_same hw dbg f hc ?_
  have h2 : (f.getCount : Int) ≤ ((2 ^ w : Nat) : Int) := by omega
  rw [Int.natCast_pow] at h2
  exact Int.lt_of_lt_of_le this h2

/-- **C68, witness**: with 32 bits a value that is too large becomes an index.  `nplurals=2; plural=n*4294967296;` selects text 0 for every count with 32 bits,
and none with 64 bits, except for the count 0. -/
theorem C68_wrap (env : Env) : ∃ f, PluralForms.parseW 32 env (c!"nplurals=2; plural=n*4294967296;") = .ok f ∧
    PluralForms.parse env (c!"nplurals=2; plural=n*4294967296;") = .ok f ∧
    ∀ dbg count, 0 < count → count < 2 ^ 31 → f.getValueW 32 dbg count = .ok (some 0) ∧ f.getValueW 64 dbg count = .ok none := by
  refine ⟨⟨.binop .mul .var (.num 4294967296), 2, _, c!"n*4294967296"⟩, by rfl, by rfl, ?_⟩
  intro dbg count h1 h2
  have hneg : ¬ NegatesMin count (.binop .mul .var (.num 4294967296)) := by simp [NegatesMin]
  have hm : meaning count (.binop .mul .var (.num 4294967296)) = count * 4294967296 := by
    show wrap ((count : Int) * 4294967296) = _
    exact wrap_self ⟨by omega, by omega⟩
  constructor
  · rcases C68_value (w := 32) (by decide) dbg ⟨.binop .mul .var (.num 4294967296), 2, c!"nplurals=2; plural=n*4294967296;", c!"n*4294967296"⟩ (count := count) (by omega)
      with ⟨_, h, _⟩ | ⟨_, h⟩
    · exact absurd h hneg
    · rw [h]
      simp only
      rw [hm]
      have : (count : Int) * 4294967296 % 2 ^ 32 = 0 := by omega
      rw [this]
      rw [if_pos ⟨by omega, by decide⟩]
      rfl
  · have h64 := (C68_model env).2.1 ⟨.binop .mul .var (.num 4294967296), 2, c!"nplurals=2; plural=n*4294967296;", c!"n*4294967296"⟩ dbg (UInt64.ofNat count)
    have hcount : (UInt64.ofNat count).toNat = count := by
      rw [UInt64.toNat_ofNat']; exact Nat.mod_eq_of_lt (by omega)
    have hsig : signed (UInt64.ofNat count) = count := by
      unfold signed
      rw [hcount, if_pos (by omega)]
    rw [hcount] at h64
    rw [h64]
    have := C32_value dbg ⟨.binop .mul .var (.num 4294967296), 2, c!"nplurals=2; plural=n*4294967296;", c!"n*4294967296"⟩ (UInt64.ofNat count)
    rw [hsig] at this
    rcases this with ⟨_, h, _⟩ | ⟨_, h⟩
    · exact absurd h hneg
    · rw [h]
      simp only
      rw [hm, if_neg]
      intro h
      have h' := h.2
      have : (PluralForms.getCount ⟨.binop .mul .var (.num 4294967296), 2, c!"nplurals=2; plural=n*4294967296;", c!"n*4294967296"⟩ : Int) = 2 := rfl
      omega

-- a count of 2^31, which is negative as a 32-bit number, stands for itself
example : PluralForms.getValueW 32 true ⟨.binop .gt .var (.num 1), 2, [], []⟩ 2147483648 = .ok (some 1) := by decide
-- a number of forms that does not fit in 32 bits
example : PluralForms.parseW 32 demoEnv (c!"nplurals=4294967296;") = .error (.pluralForms (c!"number too large to fit in target type")) ∧
    ∃ f, PluralForms.parse demoEnv (c!"nplurals=4294967296;") = .ok f := ⟨by rfl, _, by rfl⟩
example : PluralForms.parseW 32 demoEnv (c!"nplurals=2; plural=(n > 1);") = .ok richForms := by rfl

end Verif
