import Verif.Spec.Input

/-! UTF-8 on bytes: the table of well-formed byte sequences of the Unicode standard (Table 3-7), apart from the encoder and decoder of the model. -/

namespace Verif.Spec

/-- The byte is between the bounds. -/
def Byte (lo hi : Nat) (b : UInt8) : Prop := lo ≤ b.toNat ∧ b.toNat ≤ hi

/-- The rows of the table, with the code point that the bytes stand for. -/
inductive Sequence : List UInt8 → Nat → Prop
  | row1 {a} : Byte 0x00 0x7F a → Sequence [a] a.toNat
  | row2 {a b} : Byte 0xC2 0xDF a → Byte 0x80 0xBF b → Sequence [a, b] ((a.toNat - 0xC0) * 64 + (b.toNat - 0x80))
  | row3 {a b c} : Byte 0xE0 0xE0 a → Byte 0xA0 0xBF b → Byte 0x80 0xBF c →
      Sequence [a, b, c] ((a.toNat - 0xE0) * 4096 + (b.toNat - 0x80) * 64 + (c.toNat - 0x80))
  | row4 {a b c} : Byte 0xE1 0xEC a → Byte 0x80 0xBF b → Byte 0x80 0xBF c →
      Sequence [a, b, c] ((a.toNat - 0xE0) * 4096 + (b.toNat - 0x80) * 64 + (c.toNat - 0x80))
  | row5 {a b c} : Byte 0xED 0xED a → Byte 0x80 0x9F b → Byte 0x80 0xBF c →
      Sequence [a, b, c] ((a.toNat - 0xE0) * 4096 + (b.toNat - 0x80) * 64 + (c.toNat - 0x80))
  | row6 {a b c} : Byte 0xEE 0xEF a → Byte 0x80 0xBF b → Byte 0x80 0xBF c →
      Sequence [a, b, c] ((a.toNat - 0xE0) * 4096 + (b.toNat - 0x80) * 64 + (c.toNat - 0x80))
  | row7 {a b c d} : Byte 0xF0 0xF0 a → Byte 0x90 0xBF b → Byte 0x80 0xBF c → Byte 0x80 0xBF d →
      Sequence [a, b, c, d] ((a.toNat - 0xF0) * 262144 + (b.toNat - 0x80) * 4096 + (c.toNat - 0x80) * 64 + (d.toNat - 0x80))
  | row8 {a b c d} : Byte 0xF1 0xF3 a → Byte 0x80 0xBF b → Byte 0x80 0xBF c → Byte 0x80 0xBF d →
      Sequence [a, b, c, d] ((a.toNat - 0xF0) * 262144 + (b.toNat - 0x80) * 4096 + (c.toNat - 0x80) * 64 + (d.toNat - 0x80))
  | row9 {a b c d} : Byte 0xF4 0xF4 a → Byte 0x80 0x8F b → Byte 0x80 0xBF c → Byte 0x80 0xBF d →
      Sequence [a, b, c, d] ((a.toNat - 0xF0) * 262144 + (b.toNat - 0x80) * 4096 + (c.toNat - 0x80) * 64 + (d.toNat - 0x80))

/-- The bytes are well-formed UTF-8 for the text. -/
inductive WellFormed : List UInt8 → Str → Prop
  | nil : WellFormed [] []
  | cons {x bs c s} : Sequence x (Char.toNat c) → WellFormed bs s → WellFormed (x ++ bs) (c :: s)

end Verif.Spec
