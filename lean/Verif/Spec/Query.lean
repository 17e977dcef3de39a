import Verif.Model.Header
/-!
# Percent-encoded text and query strings, independently of the functions that read and write them
-/

namespace Verif.Spec

/-- The value of a hexadecimal digit: its place in one of the two rows of digits. -/
def hexValue (c : UInt8) : Option UInt8 :=
  ((b!"0123456789abcdef").findIdx? (· == c) <|> (b!"0123456789ABCDEF").findIdx? (· == c)).map UInt8.ofNat

/-- `text` percent-encodes `bytes`: every byte is written as itself (any but `%`) or as `%` and two
hexadecimal digits. -/
inductive Pct : Bytes → Bytes → Prop where
  | nil : Pct [] []
  | lit (c) {t b} : c ≠ 37 → Pct t b → Pct (c :: t) (c :: b)
  | esc (x y a c) {t b} : hexValue x = some a → hexValue y = some c → Pct t b →
      Pct (37 :: x :: y :: t) ((a * 16 + c) :: b)

/-- `text` is `bytes` as written in a form or query string: a space may be `+`; the characters
`% + & ; =` and everything outside ASCII is escaped. -/
inductive FormEnc : Bytes → Bytes → Prop where
  | nil : FormEnc [] []
  | lit (c) {t b} : c ∉ b!"%+&;=" → c < 128 → FormEnc t b → FormEnc (c :: t) (c :: b)
  | plus {t b} : FormEnc t b → FormEnc (43 :: t) (32 :: b)
  | esc (x y a c) {t b} : hexValue x = some a → hexValue y = some c → FormEnc t b →
      FormEnc (37 :: x :: y :: t) ((a * 16 + c) :: b)

/-- The pieces of a query string for the given pairs (`k=v` each); empty pieces in between do not
matter.  `dec` says what bytes are read as. -/
inductive Pieces (dec : Bytes → UStr → Prop) : List (UStr × UStr) → List Bytes → Prop where
  | nil : Pieces dec [] []
  | skip {ps ts} : Pieces dec ps ts → Pieces dec ps ([] :: ts)
  | cons {k v kt vt kb vb ps ts} : FormEnc kt kb → FormEnc vt vb → dec kb k → dec vb v →
      Pieces dec ps ts → Pieces dec ((k, v) :: ps) ((kt ++ 61 :: vt) :: ts)

/-- The pieces joined by `&` or `;`. -/
inductive Joined : List Bytes → Bytes → Prop where
  | nil : Joined [] []
  | one (t) : Joined [t] t
  | cons (t sep) {ts s} : sep = 38 ∨ sep = 59 → ts ≠ [] → Joined ts s → Joined (t :: ts) (t ++ sep :: s)

/-- The characters a URI may contain (RFC 3986: unreserved, reserved and `%`). -/
def uriChar (c : UInt8) : Bool :=
  decide ((97 ≤ c ∧ c ≤ 122) ∨ (65 ≤ c ∧ c ≤ 90) ∨ (48 ≤ c ∧ c ≤ 57) ∨
    c ∈ b!"-._~:/?#[]@!$&'()*+,;=%")

/-- The number of `&`/`;`-separated pieces. -/
def numPieces (qs : UStr) : Nat := qs.countP (fun c => c == 38 || c == 59) + 1

end Verif.Spec
