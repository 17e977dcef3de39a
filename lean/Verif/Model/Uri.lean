import Verif.Model.Query
import Verif.Model.Request
/-!
# URIs of a request (`http/request.py:110-169`) and quoting (`utils/http.py:49-121`)
-/

namespace Verif

section
variable {ρ σ F : Type}

/-- `get_path` (`http/request.py:112-116`). -/
def Req.getPath (r : Req ρ σ F) : Bytes := r.path.getD []

/-- `get_full_path` (`http/request.py:134-153`) of a request; `META` may be missing. -/
def Req.getFullPath (C : Codecs) (r : Req ρ σ F) (forceSlash raw : Bool) : Except Exc Bytes :=
  match r.info with
  | none => .error .attributeError
  | some m =>
    let q := PyStr.b (m.query.getD [])
    if raw then getFullPathRaw C (.b r.getPath) q forceSlash
    else Verif.getFullPath C (.b r.getPath) q forceSlash

/-- What `format` writes for an attribute that may be `None`. -/
def showAttr (a : Option Bytes) : Bytes := a.getD b!"None"

/-- `get_uri` (`http/request.py:155-163`). -/
def Req.getUri (C : Codecs) (r : Req ρ σ F) (raw : Bool) : Except Exc Bytes :=
  match r.getFullPath C false raw with
  | .error e => .error e
  | .ok p => .ok (showAttr r.scheme ++ b!"://" ++ showAttr r.host ++ p)

/-- `_current_scheme_host` (`http/request.py:168-169`). -/
def Req.schemeHost (r : Req ρ σ F) : Bytes := showAttr r.scheme ++ b!"://" ++ showAttr r.host

end

/-- `quote(s, safe)` of `future.backports.urllib.parse`, called by `urlquote` (`utils/http.py:49-54`): a
`unicode` is encoded as UTF-8.  The result is ASCII text. -/
def urlquote (C : Codecs) (safe : Bytes) : PyStr → Except Exc Bytes
  | .b s => .ok (quoteBytes safe s)
  | .u s =>
    if s = [] then .ok []
    else
      match C.encode b!"utf-8" s with
      | .error e => .error e
      | .ok s => .ok (quoteBytes safe s)

/-- `' ' in s`. -/
def PyStr.hasSpace : PyStr → Bool
  | .b s => decide (32 ∈ s)
  | .u s => decide (32 ∈ s)

/-- `quote_plus(s, safe)` of `future.backports.urllib.parse`, called by `urlquote_plus`
(`utils/http.py:58-63`). -/
def urlquotePlus (C : Codecs) (safe : Bytes) (s : PyStr) : Except Exc Bytes :=
  if s.hasSpace then
    match urlquote C (safe ++ b!" ") s with
    | .error e => .error e
    | .ok t => .ok (Py.replaceChar 32 43 t)
  else urlquote C safe s

/-- `unquote(s)` of `future.backports.urllib.parse`, called by `urlunquote` (`utils/http.py:67-72`).
`'%' in s` decodes a byte string as ASCII; a byte string without `%` is returned as it is. -/
def urlunquote (C : Codecs) : PyStr → Except Exc PyStr
  | .b s =>
    if Py.isAscii s = false then .error .unicodeDecodeError
    else if 37 ∈ s then
      match C.decodeReplace b!"utf-8" (unquoteToBytes s) with
      | .error e => .error e
      | .ok u => .ok (.u u)
    else .ok (.b s)
  | .u s =>
    match unquoteU C b!"utf-8" s with
    | .error e => .error e
    | .ok u => .ok (.u u)

/-- `unquote_plus(s)` of `future.backports.urllib.parse`, called by `urlunquote_plus`
(`utils/http.py:76-81`): `s.replace('+', ' ')` is `unicode`. -/
def urlunquotePlus (C : Codecs) : PyStr → Except Exc PyStr
  | .b s =>
    if Py.isAscii s = false then .error .unicodeDecodeError
    else urlunquote C (.u (Py.replaceChar 43 32 (Py.toU s)))
  | .u s => urlunquote C (.u (Py.replaceChar 43 32 s))

/-! ### `urlencode` -/

/-- A value of the query passed to `urlencode`.  Not modelled: values that are neither strings nor
iterable, and items that are no strings. -/
inductive QVal where
  | none
  | str (s : PyStr)
  | list (items : List (Option PyStr))
deriving DecidableEq

/-- `str(item)` of a string: a `unicode` is encoded as ASCII. -/
def nativeStr : PyStr → Except Exc Bytes
  | .b s => .ok s
  | .u s => if s.all (· < 128) then .ok (s.map UInt8.ofNat) else .error .unicodeEncodeError

/-- The loop over an iterable value (`utils/http.py:111-119`). -/
def nativeItems : List (Option PyStr) → Except Exc (List Bytes)
  | [] => .ok []
  | none :: _ => .error .typeError
  | some s :: rest =>
    match nativeStr s with
    | .error e => .error e
    | .ok b =>
      match nativeItems rest with
      | .error e => .error e
      | .ok bs => .ok (b :: bs)

/-- A parameter after `urlencode` has prepared it (`utils/http.py:94-120`). -/
inductive Prepared where
  | one (s : Bytes)
  | many (ss : List Bytes)

/-- One round of the loop (`utils/http.py:95-120`).  In Python 2 a `unicode` is neither `str` nor
`bytes`, and it can be iterated: its items are its characters. -/
def prepareValue : QVal → Except Exc Prepared
  | .none => .error .typeError
  | .str (.b s) => .ok (.one s)
  | .str (.u s) =>
    match nativeItems (s.map fun c => some (.u [c])) with
    | .error e => .error e
    | .ok bs => .ok (.many bs)
  | .list items =>
    match nativeItems items with
    | .error e => .error e
    | .ok bs => .ok (.many bs)

/-- The loop (`utils/http.py:94-120`). -/
def prepareAll : List (PyStr × QVal) → Except Exc (List (PyStr × Prepared))
  | [] => .ok []
  | (k, v) :: rest =>
    match prepareValue v with
    | .error e => .error e
    | .ok p =>
      match prepareAll rest with
      | .error e => .error e
      | .ok ps => .ok ((k, p) :: ps)

/-- One character of `repr` of a byte string in quotes `q`. -/
def reprByte (q c : UInt8) : Bytes :=
  if c = q ∨ c = 92 then [92, c]
  else if c = 9 then b!"\\t"
  else if c = 10 then b!"\\n"
  else if c = 13 then b!"\\r"
  else if c < 32 ∨ 127 ≤ c then
    b!"\\x" ++ [c / 16, c % 16].map (fun n => if n < 10 then 48 + n else 87 + n)
  else [c]

/-- `repr` of a byte string in Python 2. -/
def reprBytes (s : Bytes) : Bytes :=
  let q : UInt8 := if 39 ∈ s ∧ 34 ∉ s then 34 else 39
  [q] ++ s.flatMap (reprByte q) ++ [q]

/-- `repr(request)` (`http/request.py:107-110`); the class is `HttpRequest`, the method a byte string. -/
def Req.repr {ρ σ F : Type} (C : Codecs) (r : Req ρ σ F) : Except Exc Bytes :=
  match r.method with
  | none => .ok b!"<HttpRequest>"
  | some m =>
    match r.getFullPath C false false with
    | .error e => .error e
    | .ok p =>
      if p = [] then .ok b!"<HttpRequest>"
      else .ok (b!"<HttpRequest: " ++ m ++ b!" " ++ reprBytes p ++ b!">")

/-- `str` of a list of byte strings. -/
def reprList (ss : List Bytes) : Bytes :=
  b!"[" ++ List.intercalate b!", " (ss.map reprBytes) ++ b!"]"

/-- The texts `k=v` for one parameter (`urlencode` of `future.backports.urllib.parse`; its
`quote_plus` agrees with that of Python 2 on byte strings). -/
def encodeParam (C : Codecs) (doseq : Bool) (k : PyStr) (p : Prepared) : Except Exc (List Bytes) :=
  match urlquotePlus C [] k with
  | .error e => .error e
  | .ok k =>
    let put (v : Bytes) : Bytes := k ++ 61 :: quotePlus v
    match p with
    | .one s => .ok [put s]
    | .many ss => if doseq then .ok (ss.map put) else .ok [put (reprList ss)]

/-- All texts, in order. -/
def encodeParams (C : Codecs) (doseq : Bool) : List (PyStr × Prepared) → Except Exc (List Bytes)
  | [] => .ok []
  | (k, p) :: rest =>
    match encodeParam C doseq k p with
    | .error e => .error e
    | .ok ts =>
      match encodeParams C doseq rest with
      | .error e => .error e
      | .ok us => .ok (ts ++ us)

/-- `urlencode(query, doseq)` (`utils/http.py:84-121`); `query` is the list of items (for a
`MultiValueDict`: of `lists()`). -/
def urlencode (C : Codecs) (query : List (PyStr × QVal)) (doseq : Bool) : Except Exc Bytes :=
  match prepareAll query with
  | .error e => .error e
  | .ok ps =>
    match encodeParams C doseq ps with
    | .error e => .error e
    | .ok ts => .ok (joinAmp ts)

end Verif
