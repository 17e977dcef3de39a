/-!
# Python 2.7 byte strings

`str` of Python 2 is a sequence of bytes; the model uses `List UInt8`.  The
functions here are the string methods the repository calls.  They are part of
the trusted base (Python library semantics); every definition names the method
it stands for.  Functions that also serve `unicode` values are polymorphic.
-/

namespace Verif

/-- Python 2 `str`/`bytes`. -/
abbrev Bytes := List UInt8

/-- Python 2 `unicode`: a list of code points. -/
abbrev UStr := List Nat

/-- Byte-string literal `b!"..."` (expanded to an explicit list of bytes). -/
macro:max "b!" s:str : term => do
  let bytes := s.getString.toUTF8.toList
  let elems := bytes.map (fun b => Lean.Syntax.mkNumLit (toString b))
  `(([$(elems.toArray),*] : Bytes))

namespace Py

variable {α : Type} [DecidableEq α]

/-- `s.startswith(p)`. -/
def startsWith (p s : List α) : Bool := p.isPrefixOf s

/-- `s.endswith(p)`. -/
def endsWith (p s : List α) : Bool := p.isSuffixOf s

/-- `s.find(p)`; `none` stands for `-1`. -/
def find (p : List α) : List α → Option Nat
  | [] => if p = [] then some 0 else none
  | x :: t => if p.isPrefixOf (x :: t) then some 0 else (find p t).map (· + 1)

/-- `s.find(p, start)`; `none` stands for `-1`.  (Python returns `-1` when
`start > len(s)`, also for an empty `p`.) -/
def findFrom (p s : List α) (start : Nat) : Option Nat :=
  if start ≤ s.length then (find p (s.drop start)).map (· + start) else none

/-- `s.rfind(c)` for a one-character pattern; `none` stands for `-1`. -/
def rfindChar (c : α) (s : List α) : Option Nat :=
  match s with
  | [] => none
  | x :: t =>
    match rfindChar c t with
    | some i => some (i + 1)
    | none => if x = c then some 0 else none

/-- `s.count(c)` for a one-character pattern. -/
def countChar (c : α) (s : List α) : Nat := (s.filter (· = c)).length

/-- `s.split(c)` for a one-character separator. -/
def splitChar (c : α) : List α → List (List α)
  | [] => [[]]
  | x :: t =>
    if x = c then [] :: splitChar c t
    else match splitChar c t with
      | [] => [[x]]
      | p :: ps => (x :: p) :: ps

/-- `s.split(ab)` for a separator of two characters. -/
def splitPair (a b : α) : List α → List (List α)
  | [] => [[]]
  | [x] => [[x]]
  | x :: y :: t =>
    if x = a ∧ y = b then [] :: splitPair a b t
    else match splitPair a b (y :: t) with
      | [] => [[x]]
      | p :: ps => (x :: p) :: ps

/-- `s.split(c, 1)` for a one-character separator: `none` when `c` does not
occur (Python then returns the one-element list `[s]`). -/
def splitFirst (c : α) : List α → Option (List α × List α)
  | [] => none
  | x :: t =>
    if x = c then some ([], t)
    else (splitFirst c t).map (fun (l, r) => (x :: l, r))

/-- `s.rsplit(c, 1)` for a one-character separator. -/
def rsplitLast (c : α) (s : List α) : Option (List α × List α) :=
  (rfindChar c s).map (fun i => (s.take i, s.drop (i + 1)))

/-- `s.replace(ab, r)` for a pattern of two characters and a one-character
replacement (left to right, non-overlapping). -/
def replacePair (a b r : α) : List α → List α
  | [] => []
  | [x] => [x]
  | x :: y :: t =>
    if x = a ∧ y = b then r :: replacePair a b r t
    else x :: replacePair a b r (y :: t)

/-- `s.replace(c, r)` for one-character strings. -/
def replaceChar (c r : α) (s : List α) : List α := s.map (fun x => if x = c then r else x)

/-- `c.isspace()` for a byte: the characters `str.strip()` removes
(`\t \n \v \f \r` and space, C locale). -/
def isSpace (c : UInt8) : Bool := (9 ≤ c && c ≤ 13) || c = 32

/-- whitespace of `unicode.strip()` among ASCII characters: additionally the
separators 0x1c..0x1f. -/
def isUSpace (c : UInt8) : Bool := (9 ≤ c && c ≤ 13) || (28 ≤ c && c ≤ 32)

/-- generic `strip` for a whitespace predicate. -/
def stripBy (p : α → Bool) (s : List α) : List α :=
  ((s.dropWhile p).reverse.dropWhile p).reverse

/-- `s.strip()` on bytes. -/
def strip (s : Bytes) : Bytes := stripBy isSpace s

/-- `s.strip()` on an ASCII-only `unicode` (kept as its ASCII bytes). -/
def ustrip (s : Bytes) : Bytes := stripBy isUSpace s

/-- ASCII lower-casing of one byte. -/
def lowerByte (c : UInt8) : UInt8 := if 65 ≤ c ∧ c ≤ 90 then c + 32 else c

/-- `s.lower()` on bytes (C locale). -/
def lower (s : Bytes) : Bytes := s.map lowerByte

/-- `s.decode('ascii')` succeeds exactly on bytes below 128.  ASCII `unicode`
values are kept as the byte list they came from (Python 2 compares and hashes
ASCII `str` and `unicode` alike). -/
def isAscii (s : Bytes) : Bool := s.all (· < 128)

/-- `c.isdigit()` for a byte / regex `\d` without the UNICODE flag. -/
def isDigit (c : UInt8) : Bool := 48 ≤ c && c ≤ 57

/-- `b"".join(s.split())`: drop all whitespace. -/
def removeSpaces (s : Bytes) : Bytes := s.filter (fun c => !isSpace c)

/-- Value of a list of ASCII digits in base ten. -/
def digitsVal (s : Bytes) : Nat := s.foldl (fun a c => a * 10 + (c.toNat - 48)) 0

/-- `int(s)` on a byte string, base ten: optional surrounding whitespace, an
optional sign (Python 2 skips white space after it too) and at least one digit; `none` is `ValueError`. -/
def parseInt (s : Bytes) : Option Int :=
  let t := strip s
  let (neg, d) := match t with
    | 45 :: r => (true, r.dropWhile isSpace)
    | 43 :: r => (false, r.dropWhile isSpace)
    | r => (false, r)
  if d ≠ [] ∧ d.all isDigit then
    some (if neg then - (digitsVal d : Int) else digitsVal d)
  else none

end Py
end Verif
