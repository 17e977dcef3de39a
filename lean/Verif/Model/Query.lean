import Verif.Model.Quote
import Verif.Model.MVDict
import Verif.Model.Settings
/-!
# Query strings (`utils/http.py:377-430`) and `QueryDict` (`http/request.py:599-776`)
-/

namespace Verif

/-- The separators `[&;]` (`utils/http.py:45`). -/
def isFieldSep (c : Nat) : Bool := decide (c = 38 ∨ c = 59)

/-- Put a character in front of the first piece. -/
def consFirst (c : Nat) : List UStr → List UStr
  | [] => [[c]]
  | p :: ps => (c :: p) :: ps

/-- `FIELDS_MATCH.split(qs)`. -/
def splitFields : UStr → List UStr
  | [] => [[]]
  | c :: t => if isFieldSep c then [] :: splitFields t else consFirst c (splitFields t)

/-- `FIELDS_MATCH.split(qs, n)` for `n` splits at most (here zero means none at all). -/
def splitFieldsN : UStr → Nat → List UStr
  | s, 0 => [s]
  | [], _ + 1 => [[]]
  | c :: t, n + 1 =>
    if isFieldSep c then [] :: splitFieldsN t n else consFirst c (splitFieldsN t (n + 1))

/-- One pair (`utils/http.py:411-429`): `none` when it is skipped. -/
def parseField (C : Codecs) (enc : Bytes) (keepBlank : Bool) (nv : UStr) :
    Except Exc (Option (UStr × UStr)) :=
  if nv = [] then .ok none
  else
    match (match Py.splitFirst 61 nv with
      | some p => some p
      | none => if keepBlank then some (nv, []) else none) with
    | none => .ok none
    | some (n, v) =>
      if v ≠ [] ∨ keepBlank = true then
        match unquoteU C enc (Py.replaceChar 43 32 n) with
        | .error e => .error e
        | .ok n =>
          match unquoteU C enc (Py.replaceChar 43 32 v) with
          | .error e => .error e
          | .ok v => .ok (some (n, v))
      else .ok none

/-- The loop over the pairs (`utils/http.py:410-430`). -/
def parseFields (C : Codecs) (enc : Bytes) (keepBlank : Bool) :
    List UStr → Except Exc (List (UStr × UStr))
  | [] => .ok []
  | p :: ps =>
    match parseField C enc keepBlank p with
    | .error e => .error e
    | .ok r =>
      match parseFields C enc keepBlank ps with
      | .error e => .error e
      | .ok rs => .ok (r.toList ++ rs)

/-- `limited_parse_qsl` (`utils/http.py:377-430`) with `errors='replace'`.  A negative limit is
passed to `re.split`, which then splits nothing. -/
def limitedParseQsl (C : Codecs) (qs : UStr) (keepBlank : Bool) (enc : Bytes)
    (limit : Option Int) : Except Exc (List (UStr × UStr)) :=
  match limit with
  | none => parseFields C enc keepBlank (splitFields qs)
  | some l =>
    if l = 0 then parseFields C enc keepBlank (splitFields qs)
    else
      let pairs := splitFieldsN qs l.toNat
      if (pairs.length : Int) > l then .error .tooManyFieldsSent
      else parseFields C enc keepBlank pairs

/-- `bytes_to_text` (`http/request.py:764-776`); anything but a native `str` stays as it is. -/
def bytesToTextV (C : Codecs) (enc : Bytes) : PyStr → Except Exc PyStr
  | .u s => .ok (.u s)
  | .b s =>
    match C.strEncode enc s with
    | .error e => .error e
    | .ok s => .ok (.b s)

/-- The conversions of a `QueryDict` with the given encoding.  (A native `str` and a `unicode` with
the same ASCII text are equal keys in Python 2; here they are different, so statements are about
keys of one type.) -/
def queryConv (C : Codecs) (enc : Bytes) : Conv PyStr PyStr where
  key := bytesToTextV C enc
  val := fun v =>
    match v with
    | .none => .ok .none
    | .list r => .ok (.list r)
    | .atom a =>
      match bytesToTextV C enc a with
      | .error e => .error e
      | .ok a => .ok (.atom a)
  iter := fun a =>
    match a with
    | .u s => .ok (s.map (fun c => .atom (.u [c])))
    | .b s => .ok (s.map (fun c => .atom (.b [c])))

/-- The query string as `unicode` (`http/request.py:623`, `633-639`).  `none` is `None`. -/
def queryText (C : Codecs) (S : Settings) (qs : Option PyStr) : Except Exc UStr :=
  let qs := match qs with
    | none => PyStr.b []
    | some (.u []) => PyStr.b []
    | some q => q
  match qs with
  | .u s => .ok s
  | .b s =>
    match C.decode S.defaultCharset s with
    | .error .unicodeDecodeError => C.decode b!"iso-8859-1" s
    | r => r

/-- `for key, value in ...: self.appendlist(key, value)` (`http/request.py:640-641`). -/
def appendLists (C : Conv PyStr PyStr) (i : Nat) :
    List (UStr × UStr) → Mem PyStr PyStr → Res (Mem PyStr PyStr) Unit
  | [], m => (.ok (), m)
  | (k, v) :: t, m =>
    match Mem.appendList C i (.u k) (.atom (.u v)) m with
    | (.error e, m) => (.error e, m)
    | (.ok (), m) => appendLists C i t m

/-- Set `_mutable` of the dictionary `i`. -/
def Mem.setMutable {κ α : Type} (m : Mem κ α) (i : Nat) (b : Bool) : Mem κ α :=
  { m with dicts := m.dicts.set i { m.obj i with mutable := b } }

/-- `QueryDict(settings, query_string, mutable)` (`http/request.py:619-642`): the address of the
new dictionary.  (The argument `encoding` is ignored by the code.) -/
def newQueryDict (C : Codecs) (S : Settings) (qs : Option PyStr) (mutable : Bool)
    (m : Mem PyStr PyStr) : Res (Mem PyStr PyStr) Nat :=
  let i := m.dicts.length
  let m := m.newDict .query true
  match queryText C S qs with
  | .error e => (.error e, m)
  | .ok q =>
    match limitedParseQsl C q true S.defaultCharset S.maxFields with
    | .error e => (.error e, m)
    | .ok pairs =>
      match appendLists (queryConv C S.defaultCharset) i pairs m with
      | (.error e, m) => (.error e, m)
      | (.ok (), m) => (.ok i, m.setMutable i mutable)

/-- `str(v).encode(self.encoding)` for a `unicode` value (`http/request.py:756`): `str` encodes as
ASCII and `encode` decodes as ASCII again. -/
def encodeValue (C : Codecs) (enc : Bytes) (v : UStr) : Except Exc Bytes :=
  if v.all (· < 128) then C.encode enc v else .error .unicodeEncodeError

/-- One pair of `QueryDict.urlencode` (`http/request.py:746-757`); `safe = none` is the default. -/
def encodePair (C : Codecs) (enc : Bytes) (safe : Option Bytes) (k v : UStr) :
    Except Exc Bytes :=
  match C.encode enc k with
  | .error e => .error e
  | .ok kb =>
    match encodeValue C enc v with
    | .error e => .error e
    | .ok vb =>
      match safe with
      | none => .ok (quotePlus kb ++ 61 :: quotePlus vb)
      | some s => .ok (quoteBytes s kb ++ 61 :: quoteBytes s vb)

/-- The pairs of a dictionary in the order of `lists()`. -/
def flatPairs (d : List (UStr × List UStr)) : List (UStr × UStr) :=
  d.flatMap (fun p => p.2.map (fun v => (p.1, v)))

/-- All pairs, or the first exception. -/
def encodePairs (C : Codecs) (enc : Bytes) (safe : Option Bytes) :
    List (UStr × UStr) → Except Exc (List Bytes)
  | [] => .ok []
  | (k, v) :: t =>
    match encodePair C enc safe k v with
    | .error e => .error e
    | .ok b =>
      match encodePairs C enc safe t with
      | .error e => .error e
      | .ok bs => .ok (b :: bs)

/-- `'&'.join(...)`. -/
def joinAmp : List Bytes → Bytes
  | [] => []
  | [b] => b
  | b :: bs => b ++ 38 :: joinAmp bs

/-- `QueryDict.urlencode` (`http/request.py:732-759`) for `unicode` keys and values; `lists` is what
`lists()` returns. -/
def urlencodeLists (C : Codecs) (enc : Bytes) (safe : Option Bytes)
    (lists : List (UStr × List UStr)) : Except Exc Bytes :=
  match encodePairs C enc safe (flatPairs lists) with
  | .error e => .error e
  | .ok bs => .ok (joinAmp bs)

end Verif
