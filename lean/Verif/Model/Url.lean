import Verif.Model.Header
/-!
# URL splitting and redirect checks (`utils/http.py`)

Strings are `unicode` (`UStr`, lists of code points) unless noted.  A native `str` argument is
decoded as ASCII by `_coerce_args` of `future.backports.urllib.parse` and the results are
encoded back.
-/

namespace Verif

/-- ASCII lower-casing of a code point (only used on ASCII text: URL schemes). -/
def lowerCp (c : Nat) : Nat := if 65 ≤ c ∧ c ≤ 90 then c + 32 else c

/-- `scheme_chars` of `urllib.parse`: ASCII letters, digits and `+-.`. -/
def schemeChar (c : Nat) : Bool :=
  decide ((97 ≤ c ∧ c ≤ 122) ∨ (65 ≤ c ∧ c ≤ 90) ∨ (48 ≤ c ∧ c ≤ 57) ∨ c = 43 ∨ c = 45 ∨ c = 46)

/-- `SplitResult` / the five components. -/
structure UrlSplit where
  scheme : UStr
  netloc : UStr
  path : UStr
  query : UStr
  fragment : UStr
  deriving DecidableEq

/-- `ParseResult` / the six components. -/
structure UrlParse where
  scheme : UStr
  netloc : UStr
  path : UStr
  params : UStr
  query : UStr
  fragment : UStr
  deriving DecidableEq

/-- The scheme part of `_urlsplit` (`utils/http.py:327-333`, with `scheme=''`). -/
def splitScheme (url : UStr) : UStr × UStr :=
  match Py.find [58] url with
  | none => ([], url)
  | some i =>
    if 0 < i ∧ (url.take i).all schemeChar = true then
      ((url.take i).map lowerCp, url.drop (i + 1))
    else ([], url)

/-- `min(delim, url.find(c, start))` when found: one iteration of the loop in `_splitnetloc`
of `urllib.parse`. -/
def netlocDelim (url : UStr) (delim c : Nat) : Nat :=
  match Py.findFrom [c] url 2 with
  | none => delim
  | some w => min delim w

/-- `_splitnetloc(url, 2)` of `urllib.parse` (used at `utils/http.py:336`). -/
def splitNetloc (url : UStr) : UStr × UStr :=
  let delim := netlocDelim url (netlocDelim url (netlocDelim url url.length 47) 63) 35
  ((url.take delim).drop 2, url.drop delim)

/-- `url.split(c, 1)` when `c in url`, else the string and the empty string
(`utils/http.py:340-343`). -/
def cutAt (c : Nat) (url : UStr) : UStr × UStr :=
  match Py.splitFirst c url with
  | some (l, r) => (l, r)
  | none => (url, [])

/-- The brackets test of `_urlsplit` (`utils/http.py:337-338`). -/
def badBrackets (netloc : UStr) : Bool :=
  (decide (91 ∈ netloc) && !decide (93 ∈ netloc)) ||
  (decide (93 ∈ netloc) && !decide (91 ∈ netloc))

/-- `_urlsplit` (`utils/http.py:319-345`) with the default arguments; the only exception is
the `ValueError` for unbalanced brackets. -/
def urlSplit (url : UStr) : Except Exc UrlSplit :=
  let (scheme, url) := splitScheme url
  let nl : UStr × UStr := if url.take 2 = [47, 47] then splitNetloc url else ([], url)
  if url.take 2 = [47, 47] ∧ badBrackets nl.1 = true then .error .valueError
  else
    let (url, fragment) := cutAt 35 nl.2
    let (url, query) := cutAt 63 url
    .ok { scheme, netloc := nl.1, path := url, query, fragment }

/-- `_splitparams` of `urllib.parse` (called when `;` occurs). -/
def splitParams (url : UStr) : UStr × UStr :=
  match (match Py.rfindChar 47 url with
      | some j => Py.findFrom [59] url j
      | none => Py.find [59] url) with
  | none => (url, [])
  | some i => (url.take i, url.drop (i + 1))

/-- `_urlparse` (`utils/http.py:301-315`) with the default arguments, on `unicode`.  `up` is
the library's list `uses_params`. -/
def urlParse (up : List UStr) (url : UStr) : Except Exc UrlParse :=
  match urlSplit url with
  | .error e => .error e
  | .ok s =>
    let (path, params) :=
      if s.scheme ∈ up ∧ 59 ∈ s.path then splitParams s.path else (s.path, [])
    .ok { scheme := s.scheme, netloc := s.netloc, path, params, query := s.query,
          fragment := s.fragment }

/-- `_urlparse` on a native `str`: `_coerce_args` decodes ASCII (strictly). -/
def urlParseStr (up : List UStr) (url : Bytes) : Except Exc UrlParse :=
  if Py.isAscii url then urlParse up (Py.toU url) else .error .unicodeDecodeError

/-- What the code uses of the Unicode data base: `unicode.strip()` whitespace and
`unicodedata.category(c)[0] == 'C'`. -/
structure UData where
  isSpace : Nat → Bool
  isControl : Nat → Bool

/-- The `allowed_hosts` argument of `is_safe_url`: `None`, a native `str`, a `unicode` (which
is not an instance of `str`, so that `in` tests for a substring), or a collection. -/
inductive Hosts where
  | none
  | str (s : UStr)
  | uni (s : UStr)
  | coll (hs : List UStr)

/-- `netloc in allowed_hosts` after `utils/http.py:290-293`. -/
def Hosts.has (h : Hosts) (netloc : UStr) : Bool :=
  match h with
  | .none => false
  | .str s => decide (netloc = s)
  | .uni s => (Py.find netloc s).isSome
  | .coll hs => decide (netloc ∈ hs)

/-- `_is_safe_url` (`utils/http.py:348-374`).  `kind = true` for `unicode`; for a native `str`
`unicodedata.category(url[0])` raises `TypeError`.  (`url` is not empty here.) -/
def isSafeUrl1 (D : UData) (up : List UStr) (url : PyStr) (h : Hosts) (https : Bool) :
    Except Exc Bool :=
  let txt := match url with | .u s => s | .b s => Py.toU s
  if Py.startsWith [47, 47, 47] txt then .ok false
  else
    match (match url with | .u s => urlParse up s | .b s => urlParseStr up s) with
    | .error .valueError => .ok false
    | .error .unicodeDecodeError => .ok false
    | .error e => .error e
    | .ok i =>
      if i.netloc = [] ∧ i.scheme ≠ [] then .ok false
      else
        match url with
        | .b _ => .error .typeError
        | .u s =>
          match s with
          | [] => .error .indexError
          | c :: _ =>
            if D.isControl c then .ok false
            else
              let scheme := if i.scheme = [] ∧ i.netloc ≠ [] then Py.toU b!"http" else i.scheme
              let valid := if https then [Py.toU b!"https"] else [Py.toU b!"http", Py.toU b!"https"]
              .ok ((decide (i.netloc = []) || h.has i.netloc) &&
                   (decide (scheme = []) || decide (scheme ∈ valid)))

/-- `url.replace('\\', '/')`. -/
def unbackslash : PyStr → PyStr
  | .u s => .u (Py.replaceChar 92 47 s)
  | .b s => .b (Py.replaceChar 92 47 s)

/-- `url.strip()`. -/
def UData.strip (D : UData) : PyStr → PyStr
  | .u s => .u (Py.stripBy D.isSpace s)
  | .b s => .b (Py.strip s)

/-- `not url`. -/
def PyStr.isEmpty : PyStr → Bool
  | .u s => s.isEmpty
  | .b s => s.isEmpty

/-- `is_safe_url` after stripping (`utils/http.py:288-297`). -/
def isSafeUrlStripped (D : UData) (up : List UStr) (url : PyStr) (h : Hosts) (https : Bool) :
    Except Exc Bool :=
  if url.isEmpty then .ok false
  else
    match isSafeUrl1 D up url h https with
    | .ok true => isSafeUrl1 D up (unbackslash url) h https
    | r => r

/-- `is_safe_url` (`utils/http.py:276-297`); `none` is `None`. -/
def isSafeUrl (D : UData) (up : List UStr) (url : Option PyStr) (h : Hosts) (https : Bool) :
    Except Exc Bool :=
  match url with
  | none => .ok false
  | some url => isSafeUrlStripped D up (D.strip url) h https

/-- `is_same_domain` (`utils/http.py:257-273`) on native strings. -/
def isSameDomain (host pattern : Bytes) : Bool :=
  match Py.lower pattern with
  | [] => false
  | c :: t =>
    (decide (c = 46) && (Py.endsWith (c :: t) host || decide (host = t))) ||
    decide ((c :: t) = host)

/-- `escape_leading_slashes` (`utils/http.py:433-441`); works alike for `str` (`'{}'.format` on a
native `str`). -/
def escapeLeadingSlashes (url : Bytes) : Bytes :=
  if Py.startsWith b!"//" url then b!"/%2F" ++ url.drop 2 else url

end Verif
