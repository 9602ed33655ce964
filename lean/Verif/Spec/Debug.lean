import Verif.Model.Error

/-! String and character literals of Rust. -/

namespace Verif.Spec

/-- The value of a lower-case hexadecimal number. -/
def hexValue (ds : Str) : Nat := ds.foldl (fun n d => 16 * n + (c!"0123456789abcdef").idxOf d) 0

/-- The inside of a literal in quotation marks `q`, and the text it stands for. -/
inductive LitBody (q : Char) : Str → Str → Prop
  | nil : LitBody q [] []
  | plain {c t s} : c ≠ q → c ≠ '\\' → LitBody q t s → LitBody q (c :: t) (c :: s)
  | escape {e c t s} : (e, c) ∈ [('0', '\x00'), ('t', '\t'), ('n', '\n'), ('r', '\r'), ('\\', '\\'), ('"', '"'), ('\'', '\'')] → LitBody q t s →
      LitBody q ('\\' :: e :: t) (c :: s)
  | unicode {ds : Str} {c : Char} {t s : Str} : ds ≠ [] → (∀ d ∈ ds, d ∈ c!"0123456789abcdef") → c.toNat = hexValue ds → LitBody q t s →
      LitBody q (c!"\\u{" ++ ds ++ c!"}" ++ t) (c :: s)

/-- `t` is a string literal for `s`. -/
def StringLiteral (t s : Str) : Prop := ∃ t', LitBody '"' t' s ∧ t = '"' :: t' ++ ['"']

/-- `t` is a character literal for `c`. -/
def CharLiteral (t : Str) (c : Char) : Prop := ∃ t', LitBody '\'' t' [c] ∧ t = '\'' :: t' ++ ['\'']

/-- The characters of a text are printable ASCII characters or shown by themselves according to the table, and none of them is a line break, a tabulator or zero. -/
def Shows (plain : Char → Bool) (t : Str) : Prop := ∀ c ∈ t, (32 ≤ c.toNat ∧ c.toNat < 127) ∨ (plain c = true ∧ c ∉ ['\n', '\r', '\t', '\x00'])

end Verif.Spec
