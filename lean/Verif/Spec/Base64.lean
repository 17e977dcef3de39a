import Verif.Spec.Form
/-!
# Base64 as RFC 4648 defines it, for C83
-/

namespace Verif.Spec

/-- The character for a value below 64: `A`–`Z`, `a`–`z`, `0`–`9`, `+`, `/`. -/
def b64digit (v : Nat) : UInt8 :=
  if v < 26 then UInt8.ofNat (65 + v)
  else if v < 52 then UInt8.ofNat (97 + (v - 26))
  else if v < 62 then UInt8.ofNat (48 + (v - 52))
  else if v = 62 then 43 else 47

/-- The text is the base64 encoding of the data: three bytes make four characters; one or two
bytes at the end make two or three characters and padding. -/
inductive Base64 : Bytes → Bytes → Prop where
  | nil : Base64 [] []
  | three (a b c : UInt8) {t d} : Base64 t d → Base64
      (b64digit (a.toNat / 4) :: b64digit (a.toNat % 4 * 16 + b.toNat / 16) ::
        b64digit (b.toNat % 16 * 4 + c.toNat / 64) :: b64digit (c.toNat % 64) :: t) (a :: b :: c :: d)
  | two (a b : UInt8) : Base64
      [b64digit (a.toNat / 4), b64digit (a.toNat % 4 * 16 + b.toNat / 16),
        b64digit (b.toNat % 16 * 4), 61] [a, b]
  | one (a : UInt8) : Base64 [b64digit (a.toNat / 4), b64digit (a.toNat % 4 * 16), 61, 61] [a]

/-- The header of a part with a base64-encoded file. -/
def FormItem.head64 (it : FormItem) : Bytes :=
  it.head ++ (b!"\r\n" ++ b!"Content-Transfer-Encoding: base64")

/-- `text` is what a client writes for a form item: as it is, or, for a file, possibly in base64 with
white space anywhere in the encoded text. -/
inductive FormItem.Sent (boundary : Bytes) (it : FormItem) : Bytes → Prop where
  | plain : it.Ok boundary → Sent boundary it it.text
  | base64 {n fn ct c t} : it = .file n fn ct c → Base64 (Py.removeSpaces t) c →
      ¬ (b!"--" ++ boundary) <:+: it.head64 ++ b!"\r\n\r\n" ++ t → it.head64.length + 4 ≤ 1024 →
      Py.strip n = n → 13 ∉ n → n ≠ [] → Separable [(b!"name", n), (b!"filename", fn)] → c ≠ [] →
      fn ≠ [] → Py.strip fn = fn → fn.length ≤ 255 → (∀ x ∈ fn, x ≠ 13 ∧ x ≠ 38 ∧ x ≠ 47 ∧ x ≠ 92) →
      (∀ x ∈ ct, x < 128 ∧ x ≠ 13 ∧ x ≠ 34 ∧ x ≠ 59) →
      Sent boundary it (it.head64 ++ b!"\r\n\r\n" ++ t)

end Verif.Spec
