import Verif.Py.Bytes
/-!
# UTF-8 (RFC 3629), independently of encoder and decoder
-/

namespace Verif.Spec

/-- A continuation byte carrying the six bits `v`. -/
def Cont (b : UInt8) (v : Nat) : Prop := v < 64 ∧ b.toNat = 128 + v

/-- The bytes of a code point: the table of RFC 3629, with the shortest form only. -/
inductive Utf8Char : Nat → Bytes → Prop where
  | one {c b} : c < 0x80 → b.toNat = c → Utf8Char c [b]
  | two {c b b1 h v1} : 0x80 ≤ c → h < 32 → b.toNat = 192 + h → Cont b1 v1 → c = h * 64 + v1 →
      Utf8Char c [b, b1]
  | three {c b b1 b2 h v1 v2} : 0x800 ≤ c → h < 16 → b.toNat = 224 + h → Cont b1 v1 → Cont b2 v2 →
      c = (h * 64 + v1) * 64 + v2 → Utf8Char c [b, b1, b2]
  | four {c b b1 b2 b3 h v1 v2 v3} : 0x10000 ≤ c → c < 0x110000 → h < 8 → b.toNat = 240 + h → Cont b1 v1 →
      Cont b2 v2 → Cont b3 v3 → c = ((h * 64 + v1) * 64 + v2) * 64 + v3 → Utf8Char c [b, b1, b2, b3]

/-- The bytes of a text. -/
inductive Utf8 : UStr → Bytes → Prop where
  | nil : Utf8 [] []
  | cons {c u b t} : Utf8Char c b → Utf8 u t → Utf8 (c :: u) (b ++ t)

/-- A Unicode scalar value: a code point that is no surrogate. -/
def Scalar (c : Nat) : Prop := c < 0x110000 ∧ ¬ (0xD800 ≤ c ∧ c ≤ 0xDFFF)

end Verif.Spec
