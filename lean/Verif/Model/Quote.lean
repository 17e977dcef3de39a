import Verif.Model.Header
/-!
# Percent-encoding (`utils/encoding.py:59-123`) and the library functions it uses
-/

namespace Verif

/-- An upper-case hexadecimal digit. -/
def hexDigit (n : UInt8) : UInt8 := if n < 10 then 48 + n else 55 + n

/-- `_ALWAYS_SAFE` of `urllib.parse` (`always_safe` of Python 2's `urllib`): letters, digits and
`_.-`. -/
def alwaysSafe (c : UInt8) : Bool :=
  decide ((97 ≤ c ∧ c ≤ 122) ∨ (65 ≤ c ∧ c ≤ 90) ∨ (48 ≤ c ∧ c ≤ 57) ∨ c = 95 ∨ c = 46 ∨ c = 45)

/-- One character of `quote`. -/
def quoteByte (safe : Bytes) (c : UInt8) : Bytes :=
  if alwaysSafe c = true ∨ (c ∈ safe ∧ c < 128) then [c]
  else [37, hexDigit (c / 16), hexDigit (c % 16)]

/-- `quote(s, safe)` on a byte string (`quote_from_bytes` of `future.backports.urllib.parse`;
`quote` of Python 2's `urllib` agrees). -/
def quoteBytes (safe s : Bytes) : Bytes := s.flatMap (quoteByte safe)

/-- `quote_plus(s)` of Python 2's `urllib`. -/
def quotePlus (s : Bytes) : Bytes :=
  if 32 ∈ s then Py.replaceChar 32 43 (quoteBytes b!" " s) else quoteBytes [] s

/-- `unquote(s, encoding, errors='replace')` on the part of a `unicode` that contains `%`: maximal
ASCII runs are percent-decoded and then decoded with the codec, the rest stays.  The fuel is the
length of the text. -/
def unquoteRuns (C : Codecs) (enc : Bytes) : (fuel : Nat) → UStr → Except Exc UStr
  | 0, _ => .ok []
  | _ + 1, [] => .ok []
  | fuel + 1, c :: t =>
    if c < 128 then
      match C.decodeReplace enc
          (unquoteToBytes (((c :: t).takeWhile (· < 128)).map UInt8.ofNat)) with
      | .error e => .error e
      | .ok u =>
        match unquoteRuns C enc fuel ((c :: t).dropWhile (· < 128)) with
        | .error e => .error e
        | .ok r => .ok (u ++ r)
    else
      match unquoteRuns C enc fuel t with
      | .error e => .error e
      | .ok r => .ok (c :: r)

/-- `unquote(s, encoding, errors='replace')` of `future.backports.urllib.parse` on `unicode`. -/
def unquoteU (C : Codecs) (enc : Bytes) (s : UStr) : Except Exc UStr :=
  if 37 ∈ s then unquoteRuns C enc s.length s else .ok s

/-- The `safe` argument at `utils/encoding.py:90`. -/
def iriSafe : Bytes := b!"/#%[]=:;$&()+,!?*@'~"

/-- The `safe` argument at `utils/encoding.py:121`. -/
def pathSafe : Bytes := b!"/:@&+$,-_.!~*'()"

/-- The `safe` argument at `utils/encoding.py:123`. -/
def pathSafePct : Bytes := b!"/:@&+$,-_.!~*'()%"

/-- `iri_to_uri` (`utils/encoding.py:59-90`) on a string: `str(iri)` of a `unicode` encodes as
ASCII.  (`None` is returned as it is.) -/
def iriToUri (iri : PyStr) : Except Exc Bytes :=
  match iri with
  | .b s => .ok (quoteBytes iriSafe s)
  | .u s =>
    if s.all (· < 128) then .ok (quoteBytes iriSafe (s.map UInt8.ofNat))
    else .error .unicodeEncodeError

/-- `uri_to_iri` (`utils/encoding.py:92-104`) on a `unicode` (what `iri_to_uri` returns).  An empty
argument is returned as it is. -/
def uriToIri (C : Codecs) (uri : UStr) : Except Exc Bytes :=
  if uri = [] then .ok []
  else
    match unquoteU C b!"utf-8" uri with
    | .error e => .error e
    | .ok u => C.encode b!"utf-8" u

/-- `escape_uri_path` (`utils/encoding.py:106-123`); `quote` encodes a `unicode` as UTF-8. -/
def escapeUriPath (C : Codecs) (path : PyStr) (encodePercent : Bool) : Except Exc Bytes :=
  let safe := if encodePercent then pathSafe else pathSafePct
  match path with
  | .b s => .ok (quoteBytes safe s)
  | .u s =>
    match C.encode b!"utf-8" s with
    | .error e => .error e
    | .ok s => .ok (quoteBytes safe s)

/-- `HttpRequest.set_path` (`http/request.py:310-320`): the new `path`.  `iri_to_uri` returns a
`unicode`, so `escape_uri_path` encodes it as UTF-8. -/
def setPath (C : Codecs) (path : PyStr) (encodeSafely : Bool) : Except Exc PyStr :=
  if encodeSafely then
    match iriToUri path with
    | .error e => .error e
    | .ok s =>
      match escapeUriPath C (.u (Py.toU s)) false with
      | .error e => .error e
      | .ok s => .ok (.u (Py.toU s))
  else .ok path

/-- `path.endswith('/')`. -/
def PyStr.endsSlash : PyStr → Bool
  | .b s => Py.endsWith [47] s
  | .u s => Py.endsWith [47] s

/-- `HttpRequest._get_full_path` (`http/request.py:141-153`): `path` is `get_path()`, `query` is
`META.get(QUERY_STRING, '')`.  The result is ASCII text. -/
def fullPath (C : Codecs) (path query : PyStr) (forceSlash : Bool) : Except Exc Bytes :=
  match escapeUriPath C path false with
  | .error e => .error e
  | .ok p =>
    let slash : Bytes := if forceSlash && !path.endsSlash then b!"/" else []
    if query.len = 0 then .ok (p ++ slash)
    else
      match iriToUri query with
      | .error e => .error e
      | .ok q => .ok (p ++ slash ++ (63 :: q))

/-- `HttpRequest.get_full_path` with `raw=False` (`http/request.py:134-139`): encoding as ASCII with
`errors='replace'` leaves ASCII text as it is. -/
def getFullPath (C : Codecs) (path query : PyStr) (forceSlash : Bool) : Except Exc Bytes :=
  match fullPath C path query forceSlash with
  | .error e => .error e
  | .ok s => .ok (s.map (fun c => if c < 128 then c else 63))

/-- `HttpRequest.get_full_path` with `raw=True` (`http/request.py:135-137`). -/
def getFullPathRaw (C : Codecs) (path query : PyStr) (forceSlash : Bool) : Except Exc Bytes :=
  match fullPath C path query forceSlash with
  | .error e => .error e
  | .ok s => uriToIri C (Py.toU s)

end Verif
