import Verif.Model.Exc
import Verif.Py.Base64
/-!
# Small encoders of `utils/http.py`: base 36, URL-safe base64, entity tags
-/

namespace Verif

/-- `char_set` (`utils/http.py:200`). -/
def charSet36 : Bytes := b!"0123456789abcdefghijklmnopqrstuvwxyz"

/-- The loop of `int_to_base36` (`utils/http.py:206-209`).  `i` never exceeds the fuel, which is
`i` at the start. -/
def b36Loop : (fuel i : Nat) → Bytes → Bytes
  | 0, _, acc => acc
  | fuel + 1, i, acc =>
    if i = 0 then acc else b36Loop fuel (i / 36) ((charSet36[i % 36]?).getD 0 :: acc)

/-- `int_to_base36` (`utils/http.py:198-209`). -/
def intToBase36 (i : Int) : Except Exc Bytes :=
  if i < 0 then .error .valueError
  else if i < 36 then .ok [(charSet36[i.toNat]?).getD 0]
  else .ok (b36Loop i.toNat i.toNat [])

/-- The value of a base 36 digit of either case. -/
def digit36 (c : UInt8) : Option Nat :=
  if 48 ≤ c ∧ c ≤ 57 then some (c.toNat - 48)
  else if 97 ≤ c ∧ c ≤ 122 then some (c.toNat - 87)
  else if 65 ≤ c ∧ c ≤ 90 then some (c.toNat - 55)
  else none

/-- The number written by some digits. -/
def digits36 : Bytes → (acc : Nat) → Option Nat
  | [], acc => some acc
  | c :: t, acc =>
    match digit36 c with
    | none => none
    | some v => digits36 t (acc * 36 + v)

/-- The sign of the text given to `int` (library; white space may follow the sign): negative? and the
rest. -/
def sign36 : Bytes → Bool × Bytes
  | 45 :: d => (true, d.dropWhile Py.isSpace)
  | 43 :: d => (false, d.dropWhile Py.isSpace)
  | t => (false, t)

/-- `int(s, 36)` of Python 2: white space around the number and after the sign, at least one digit;
`none` is `ValueError`. -/
def int36 (s : Bytes) : Option Int :=
  let p := sign36 (Py.strip s)
  if p.2 = [] then none
  else (digits36 p.2 0).map (fun (n : Nat) => if p.1 then -(n : Int) else n)

/-- `base36_to_int` (`utils/http.py:185-196`). -/
def base36ToInt (s : Bytes) : Except Exc Int :=
  if 13 < s.length then .error .valueError
  else
    match int36 s with
    | none => .error .valueError
    | some i => .ok i

/-- The base64 alphabet with `-` and `_` (`base64.urlsafe_b64encode`: `b64encode(s, '-_')`, which
encodes with `+` and `/` and translates). -/
def b64char (v : Nat) : UInt8 :=
  if v < 26 then UInt8.ofNat (v + 65)
  else if v < 52 then UInt8.ofNat (v + 71)
  else if v < 62 then UInt8.ofNat (v - 4)
  else if v = 62 then 45 else 95

/-- `base64.urlsafe_b64encode` of Python 2 (library; `binascii.b2a_base64` without the line feed,
then translated). -/
def urlsafeB64encode : Bytes → Bytes
  | [] => []
  | [a] => [b64char (a.toNat / 4), b64char (a.toNat % 4 * 16), 61, 61]
  | [a, b] => [b64char (a.toNat / 4), b64char (a.toNat % 4 * 16 + b.toNat / 16),
      b64char (b.toNat % 16 * 4), 61]
  | a :: b :: c :: t =>
    b64char (a.toNat / 4) :: b64char (a.toNat % 4 * 16 + b.toNat / 16) ::
      b64char (b.toNat % 16 * 4 + c.toNat / 64) :: b64char (c.toNat % 64) :: urlsafeB64encode t

/-- `s.rstrip(chars)`. -/
def rstripBy (p : UInt8 → Bool) (s : Bytes) : Bytes := (s.reverse.dropWhile p).reverse

/-- `urlsafe_base64_encode` (`utils/http.py:212-217`); the `unicode` result is kept as its ASCII
bytes. -/
def urlsafeBase64Encode (s : Bytes) : Bytes :=
  rstripBy (fun c => c = 10 || c = 61) (urlsafeB64encode s)

/-- The translation of `base64.urlsafe_b64decode`: `-` to `+`, `_` to `/`. -/
def fromUrlsafe (c : UInt8) : UInt8 := if c = 45 then 43 else if c = 95 then 47 else c

/-- `urlsafe_base64_decode` (`utils/http.py:220-229`).  `s.encode()` on a `str` or `unicode` outside
ASCII raises.  Python 2's `base64.b64decode` turns `binascii.Error` into `TypeError`, which the
`except` clause does not name. -/
def urlsafeBase64Decode (s : Bytes) : Except Exc Bytes :=
  if Py.isAscii s = false then .error .unicodeDecodeError
  else
    match Py.b64decode ((s ++ List.replicate (s.length % 4) 61).map fromUrlsafe) with
    | none => .error .typeError
    | some b => .ok b

/-- `ETAG_MATCH.match(s)` (`utils/http.py:22-29`): an optional `W/`, then a quoted string without
inner quotes, and nothing else. -/
def etagMatch (s : Bytes) : Bool :=
  let t := if Py.startsWith b!"W/" s then s.drop 2 else s
  match t with
  | 34 :: r => decide (r.getLast? = some 34) && r.dropLast.all (· ≠ 34)
  | _ => false

/-- `parse_etags` (`utils/http.py:232-243`). -/
def parseEtags (s : Bytes) : List Bytes :=
  if Py.strip s = b!"*" then [b!"*"]
  else ((Py.splitChar 44 s).map Py.strip).filter etagMatch

/-- `quote_etag` (`utils/http.py:246-254`). -/
def quoteEtag (s : Bytes) : Bytes := if etagMatch s then s else [34] ++ s ++ [34]

end Verif
