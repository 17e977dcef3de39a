import Verif.Model.Exc
import Verif.Py.Dict
/-!
# Header parameters (`http/multipartparser.py:566-629`) and `force_text`

Text that the code decodes as ASCII (`.decode('ascii')`) is kept as its ASCII bytes:
Python 2 compares and hashes ASCII `str` and `unicode` values alike.
-/

namespace Verif

/-- The codec tables of the Python installation.  Nothing is assumed about them; each
function may raise (`LookupError` for an unknown encoding, `UnicodeDecodeError`, ...).
* `decodeReplace enc b` is `b.decode(enc, 'replace')`,
* `decode enc b` is `b.decode(enc)`,
* `strEncode enc b` is `b.encode(enc, 'replace')` on a Python 2 `str`, which decodes as ASCII
  first,
* `encode enc u` is `u.encode(enc)` on a `unicode`. -/
structure Codecs where
  decodeReplace : (enc : Bytes) → Bytes → Except Exc UStr
  decode : (enc : Bytes) → Bytes → Except Exc UStr
  strEncode : (enc : Bytes) → Bytes → Except Exc Bytes
  encode : (enc : Bytes) → UStr → Except Exc Bytes

/-- Value of a hexadecimal digit. -/
def hexVal (c : UInt8) : Option UInt8 :=
  if 48 ≤ c ∧ c ≤ 57 then some (c - 48)
  else if 97 ≤ c ∧ c ≤ 102 then some (c - 87)
  else if 65 ≤ c ∧ c ≤ 70 then some (c - 55)
  else none

/-- `unquote_to_bytes` of `future.backports.urllib.parse`: `%XX` becomes the byte, anything
else stays. -/
def unquoteToBytes : Bytes → Bytes
  | 37 :: a :: b :: t =>
    match hexVal a, hexVal b with
    | some x, some y => (x * 16 + y) :: unquoteToBytes t
    | _, _ => 37 :: unquoteToBytes (a :: b :: t)
  | c :: t => c :: unquoteToBytes t
  | [] => []

/-- `unquote(s, encoding=enc)` of `future.backports.urllib.parse` on an ASCII string
(`errors='replace'` is its default): strings without `%` are returned unchanged. -/
def unquoteAscii (C : Codecs) (s enc : Bytes) : Except Exc UStr :=
  if 37 ∈ s then C.decodeReplace enc (unquoteToBytes s) else .ok (Py.toU s)

/-- The inner loop of `_parse_header_params` (`http/multipartparser.py:611-623`).
`none` is `-1`. -/
def paramEndLoop (s : Bytes) : (fuel : Nat) → Option Nat → Option Nat
  | 0, e => e
  | fuel + 1, e =>
    match e with
    | none => none
    | some i =>
      if i > 0 ∧ Py.countChar 34 (s.take i) % 2 ≠ 0 then
        paramEndLoop s fuel (Py.findFrom b!";" s (i + 1))
      else some i

/-- `end` on line 625 (`http/multipartparser.py:611-625`). -/
def paramEnd (s : Bytes) : Nat :=
  (paramEndLoop s (s.length + 1) (Py.find b!";" s)).getD s.length

/-- `_parse_header_params` (`http/multipartparser.py:602-629`). -/
def parseHeaderParams : (fuel : Nat) → Bytes → List Bytes
  | 0, _ => []
  | fuel + 1, s =>
    match s with
    | 59 :: s =>
      let e := paramEnd s
      Py.strip (s.take e) :: parseHeaderParams fuel (s.drop e)
    | _ => []

/-- Drop surrounding double quotes and undo backslash escapes
(`http/multipartparser.py:596-598`), for `str` and `unicode` alike: `q` is the quote, `bs`
the backslash. -/
def unquoteValue {α : Type} [DecidableEq α] (q bs : α) (v : List α) : List α :=
  if v.length ≥ 2 ∧ v.head? = some q ∧ v.getLast? = some q then
    let v := (v.drop 1).dropLast
    Py.replacePair bs q q (Py.replacePair bs bs bs v)
  else v

/-- One parameter (`http/multipartparser.py:581-599`): `none` when there is no `=`. -/
def parseParam (C : Codecs) (p : Bytes) : Except Exc (Option (Bytes × PyStr)) :=
  match Py.splitFirst 61 p with
  | none => .ok none
  | some (l, r) =>
    let name := Py.lower (Py.strip l)
    if Py.isAscii name = false then .error .unicodeDecodeError
    else
      let star := Py.endsWith b!"*" name
      let name' := if star then name.dropLast else name
      let hasEncoding := star && decide (Py.countChar 39 p = 2)
      let value := Py.strip r
      if hasEncoding then
        match Py.splitChar 39 value with
        | [enc, _, v] =>
          if Py.isAscii v = false then .error .unicodeDecodeError
          else if Py.isAscii enc = false then .error .unicodeDecodeError
          else
            match unquoteAscii C v enc with
            | .error e => .error e
            | .ok u => .ok (some (name', .u (unquoteValue 34 92 u)))
        | _ => .error .valueError
      else .ok (some (name', .b (unquoteValue 34 92 value)))

/-- The loop over `plist` (`http/multipartparser.py:580-599`). -/
def parseParams (C : Codecs) : List Bytes → Dict Bytes PyStr → Except Exc (Dict Bytes PyStr)
  | [], d => .ok d
  | p :: ps, d =>
    match parseParam C p with
    | .error e => .error e
    | .ok none => parseParams C ps d
    | .ok (some (n, v)) => parseParams C ps (d.set n v)

/-- `parse_header` (`http/multipartparser.py:566-600`) on a byte string.  (`plist` is never
empty because the argument of `_parse_header_params` starts with `;`.) -/
def parseHeader (C : Codecs) (line : Bytes) : Except Exc (Bytes × Dict Bytes PyStr) :=
  match parseHeaderParams (line.length + 2) (59 :: line) with
  | [] => .error .indexError
  | k :: plist =>
    let key := Py.lower k
    if Py.isAscii key = false then .error .unicodeDecodeError
    else
      match parseParams C plist [] with
      | .error e => .error e
      | .ok d => .ok (key, d)

/-- `force_text(s, encoding, errors='replace')` (`utils/encoding.py:19-56`) in Python 2: a
`str` is returned unchanged (line 45), a `unicode` goes through `str(s)` (line 53), which
encodes as ASCII.  The encoding is never used. -/
def forceText : PyStr → Except Exc Bytes
  | .b s => .ok s
  | .u s => if s.all (· < 128) then .ok (s.map UInt8.ofNat) else .error .unicodeEncodeError

end Verif
