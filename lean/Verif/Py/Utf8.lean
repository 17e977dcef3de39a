import Verif.Model.Header
/-!
# Codecs of Python 2.7: UTF-8, ASCII, Latin-1 (library)

`unicode` objects are lists of code points (a wide build).  Python 2.7 reads and writes surrogates in
UTF-8 like other code points; a pair of surrogates is written as the one character it stands for.
-/

namespace Verif

/-- The UTF-8 form of a code point (`PyUnicode_EncodeUTF8`). -/
def utf8Char (c : Nat) : Bytes :=
  if c < 0x80 then [UInt8.ofNat c]
  else if c < 0x800 then [UInt8.ofNat (0xC0 + c / 64), UInt8.ofNat (0x80 + c % 64)]
  else if c < 0x10000 then
    [UInt8.ofNat (0xE0 + c / 4096), UInt8.ofNat (0x80 + c / 64 % 64), UInt8.ofNat (0x80 + c % 64)]
  else
    [UInt8.ofNat (0xF0 + c / 262144), UInt8.ofNat (0x80 + c / 4096 % 64),
     UInt8.ofNat (0x80 + c / 64 % 64), UInt8.ofNat (0x80 + c % 64)]

/-- `u.encode('utf-8')` (`PyUnicode_EncodeUTF8`); it never fails. -/
def utf8Encode : UStr → Bytes
  | [] => []
  | [c] => utf8Char c
  | c :: d :: t =>
    if (0xD800 ≤ c ∧ c ≤ 0xDBFF) ∧ 0xDC00 ≤ d ∧ d ≤ 0xDFFF then
      utf8Char (0x10000 + (c - 0xD800) * 1024 + (d - 0xDC00)) ++ utf8Encode t
    else utf8Char c ++ utf8Encode (d :: t)

/-- `utf8_code_length`. -/
def utf8Len (b : Nat) : Nat :=
  if b < 0x80 then 1 else if b < 0xC2 then 0 else if b < 0xE0 then 2 else if b < 0xF0 then 3
  else if b < 0xF5 then 4 else 0

/-- `(b & 0xC0) == 0x80`. -/
def isCont (b : UInt8) : Bool := decide (0x80 ≤ b ∧ b < 0xC0)

/-- One round of the decoder (`PyUnicode_DecodeUTF8Stateful`) on a text starting with `b`: the code
point, if the bytes are valid, and the number of bytes taken besides `b`. -/
def utf8Step (b : UInt8) (t : Bytes) : Option Nat × Nat :=
  let n := utf8Len b.toNat
  if n = 1 then (some b.toNat, 0)
  else if t.length + 1 < n then (none, (t.takeWhile isCont).length)
  else if n = 2 then
    match t with
    | b1 :: _ => if isCont b1 then (some ((b.toNat - 0xC0) * 64 + (b1.toNat - 0x80)), 1) else (none, 0)
    | _ => (none, 0)
  else if n = 3 then
    match t with
    | b1 :: b2 :: _ =>
      if isCont b1 && !decide (b = 0xE0 ∧ b1 < 0xA0) then
        if isCont b2 then
          (some ((b.toNat - 0xE0) * 4096 + (b1.toNat - 0x80) * 64 + (b2.toNat - 0x80)), 2)
        else (none, 1)
      else (none, 0)
    | _ => (none, 0)
  else if n = 4 then
    match t with
    | b1 :: b2 :: b3 :: _ =>
      if isCont b1 && !decide ((b = 0xF0 ∧ b1 < 0x90) ∨ (b = 0xF4 ∧ 0x8F < b1)) then
        if isCont b2 then
          if isCont b3 then
            (some ((b.toNat - 0xF0) * 262144 + (b1.toNat - 0x80) * 4096 + (b2.toNat - 0x80) * 64 +
              (b3.toNat - 0x80)), 3)
          else (none, 2)
        else (none, 1)
      else (none, 0)
    | _ => (none, 0)
  else (none, 0)

/-- `s.decode('utf-8', 'replace')`.  The fuel is the length. -/
def utf8DecodeReplaceLoop : (fuel : Nat) → Bytes → UStr
  | 0, _ => []
  | _ + 1, [] => []
  | fuel + 1, b :: t =>
    (utf8Step b t).1.getD 0xFFFD :: utf8DecodeReplaceLoop fuel (t.drop (utf8Step b t).2)

/-- `s.decode('utf-8', 'replace')`. -/
def utf8DecodeReplace (s : Bytes) : UStr := utf8DecodeReplaceLoop s.length s

/-- `s.decode('utf-8')`; `none` is `UnicodeDecodeError`.  The fuel is the length. -/
def utf8DecodeLoop : (fuel : Nat) → Bytes → Option UStr
  | 0, _ => some []
  | _ + 1, [] => some []
  | fuel + 1, b :: t =>
    match (utf8Step b t).1 with
    | none => none
    | some c => (utf8DecodeLoop fuel (t.drop (utf8Step b t).2)).map (c :: ·)

/-- `s.decode('utf-8')`. -/
def utf8Decode (s : Bytes) : Option UStr := utf8DecodeLoop s.length s

/-- The encodings modelled. -/
inductive Enc where
  | utf8 | ascii | latin1
  deriving DecidableEq, Repr

/-- `codecs.lookup(name)`, for the usual names of the three encodings (case does not matter, `_` is
like `-`); any other name is a `LookupError` in this model. -/
def lookupEnc (name : Bytes) : Option Enc :=
  let n := (Py.lower name).map (fun c => if c = 95 then 45 else c)
  if n ∈ [b!"utf-8", b!"utf8"] then some .utf8
  else if n ∈ [b!"ascii", b!"us-ascii"] then some .ascii
  else if n ∈ [b!"iso-8859-1", b!"iso8859-1", b!"latin-1", b!"latin1"] then some .latin1
  else none

/-- `b.decode(enc, 'replace')`. -/
def Enc.decodeReplace : Enc → Bytes → UStr
  | .utf8, b => utf8DecodeReplace b
  | .ascii, b => b.map (fun c => if c < 128 then c.toNat else 0xFFFD)
  | .latin1, b => Py.toU b

/-- `b.decode(enc)`. -/
def Enc.decode : Enc → Bytes → Except Exc UStr
  | .utf8, b => match utf8Decode b with
    | none => .error .unicodeDecodeError
    | some u => .ok u
  | .ascii, b => if Py.isAscii b then .ok (Py.toU b) else .error .unicodeDecodeError
  | .latin1, b => .ok (Py.toU b)

/-- `u.encode(enc)`. -/
def Enc.encode : Enc → UStr → Except Exc Bytes
  | .utf8, u => .ok (utf8Encode u)
  | .ascii, u => if u.all (· < 128) then .ok (u.map UInt8.ofNat) else .error .unicodeEncodeError
  | .latin1, u => if u.all (· < 256) then .ok (u.map UInt8.ofNat) else .error .unicodeEncodeError

/-- The codecs of a Python 2.7 installation with these three encodings.  `b.encode(enc)` looks the
encoding up and decodes `b` as ASCII; all three write ASCII text as it is. -/
def pyCodecs : Codecs where
  decodeReplace enc b := match lookupEnc enc with
    | none => .error .lookupError
    | some e => .ok (e.decodeReplace b)
  decode enc b := match lookupEnc enc with
    | none => .error .lookupError
    | some e => e.decode b
  strEncode enc b := match lookupEnc enc with
    | none => .error .lookupError
    | some _ => if Py.isAscii b then .ok b else .error .unicodeDecodeError
  encode enc u := match lookupEnc enc with
    | none => .error .lookupError
    | some e => e.encode u

end Verif
