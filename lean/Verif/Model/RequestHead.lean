import Verif.Model.Url
import Verif.Model.Multipart
/-!
# The header block of a request (`http/request.py:22-23`, `778-878`)
-/

namespace Verif

/-- `[a-z0-9.-]` of `host_validation_re` (`http/request.py:23`). -/
def hostChar (c : UInt8) : Bool :=
  decide ((97 ≤ c ∧ c ≤ 122) ∨ (48 ≤ c ∧ c ≤ 57) ∨ c = 46 ∨ c = 45)

/-- `[a-f0-9]` of `host_validation_re`. -/
def hexLower (c : UInt8) : Bool := decide ((97 ≤ c ∧ c ≤ 102) ∨ (48 ≤ c ∧ c ≤ 57))

/-- `[a-f0-9\.:]` of `host_validation_re`. -/
def ip6Char (c : UInt8) : Bool := hexLower c || decide (c = 46 ∨ c = 58)

/-- `(:\d+)?` up to the end. -/
def portTail : Bytes → Bool
  | [] => true
  | 58 :: d => decide (d ≠ []) && d.all Py.isDigit
  | _ => false

/-- `host_validation_re` (`http/request.py:23`) up to the end of the text: both alternatives are
deterministic, so no backtracking is needed. -/
def hostMatch (s : Bytes) : Bool :=
  match s with
  | 91 :: t =>
    match t.dropWhile hexLower with
    | 58 :: u =>
      decide (u.takeWhile ip6Char ≠ []) &&
        (match u.dropWhile ip6Char with
          | 93 :: r => portTail r
          | _ => false)
    | _ => false
  | _ => decide (s.takeWhile hostChar ≠ []) && portTail (s.dropWhile hostChar)

/-- `host_validation_re.match(host)`: the `$` also matches before a line feed at the end. -/
def hostValid (s : Bytes) : Bool :=
  hostMatch s || (decide (s.getLast? = some 10) && hostMatch s.dropLast)

/-- `split_domain_port` (`http/request.py:778-797`). -/
def splitDomainPort (host : Bytes) : Bytes × Bytes :=
  let host := Py.lower host
  if hostValid host = false then ([], [])
  else if host.getLast? = some 93 then (host, [])
  else
    let bits := (Py.rsplitLast 58 host).getD (host, [])
    (if Py.endsWith b!"." bits.1 then bits.1.dropLast else bits.1, bits.2)

/-- One header line (`http/request.py:827-843`).  `header.encode('ascii', '')` on a `str` decodes it
as ASCII first; the value is only looked at after the name. -/
def parseHeaderLine (line : Bytes) : Except Exc (Bytes × Bytes) :=
  match Py.splitFirst 58 line with
  | none => .error .invalidHttpRequest
  | some (name, value) =>
    if Py.isAscii name = false then .error .unicodeDecodeError
    else if Py.isAscii (Py.strip value) = false then .error .unicodeDecodeError
    else .ok (name, Py.strip value)

/-- The loop over the header lines (`http/request.py:819-844`). -/
def headerLines : (fuel : Nat) → Bytes → MVD Bytes → Except Exc (MVD Bytes)
  | 0, _, _ => .error .diverge
  | fuel + 1, s, d =>
    match Py.findFrom b!"\r\n" s 1 with
    | none => .ok d
    | some e =>
      match parseHeaderLine (s.take e) with
      | .error x => .error x
      | .ok (name, value) => headerLines fuel (s.drop (e + 2)) (d.append name value)

/-- `parse_request_headers` (`http/request.py:799-851`): the request line and the headers (a
`MultiValueDict` of lists). -/
def parseRequestHeaders (s : Bytes) : Except Exc (Bytes × MVD Bytes) :=
  match Py.findFrom b!"\r\n" s 1 with
  | none => .error .invalidHttpRequest
  | some e =>
    match headerLines (s.length + 1) (s.drop (e + 2)) [] with
    | .error x => .error x
    | .ok d => if d = [] then .error .invalidHttpRequest else .ok (s.take e, d)

/-- The dictionary of `parse_request_line`. -/
structure ReqLine where
  method : Bytes
  scheme : Bytes
  domain : Bytes
  path : Bytes
  params : Bytes
  query : Bytes
  fragment : Bytes
  proto : Bytes
  deriving DecidableEq

/-- Encode ASCII text (`_coerce_result`). -/
def ofU (s : UStr) : Bytes := s.map UInt8.ofNat

/-- `parse_request_line` (`http/request.py:853-878`); `up` is the library's `uses_params`. -/
def parseRequestLine (up : List UStr) (line : Bytes) : Except Exc ReqLine :=
  match Py.splitChar 32 line with
  | [method, uri, proto] =>
    match urlParseStr up uri with
    | .error e => .error e
    | .ok u =>
      .ok { method, scheme := ofU u.scheme, domain := ofU u.netloc, path := ofU u.path,
            params := ofU u.params, query := ofU u.query, fragment := ofU u.fragment, proto }
  | _ => .error .invalidHttpRequest

end Verif
