import Verif.Spec.Form
import Verif.Spec.Query
import Verif.Spec.RequestHead
import Verif.Spec.Request
/-!
# Whole HTTP requests, as a client writes them (RFC 7230)
-/

namespace Verif.Spec

/-- A request: request line, header fields in order, body. -/
structure Message where
  method : Bytes
  /-- scheme and host of a target in absolute form, empty for a target that begins with the path -/
  scheme : Bytes := []
  authority : Bytes := []
  path : Bytes
  query : Bytes := []
  proto : Bytes
  headers : List (Bytes × Bytes)
  body : Bytes := []

namespace Message

/-- The request target. -/
def target (m : Message) : Bytes :=
  (if m.scheme = [] then [] else m.scheme ++ b!"://" ++ m.authority) ++ m.path ++
    (if m.query = [] then [] else b!"?" ++ m.query)

/-- The request line. -/
def line (m : Message) : Bytes := m.method ++ b!" " ++ m.target ++ b!" " ++ m.proto

/-- The header lines. -/
def lines (m : Message) : List Bytes := m.headers.map (fun p => p.1 ++ b!": " ++ p.2)

/-- The bytes on the wire. -/
def text (m : Message) : Bytes :=
  (m.line :: m.lines).flatMap (· ++ b!"\r\n") ++ b!"\r\n" ++ m.body

/-- The value of the last header field with this name. -/
def header (m : Message) (n : Bytes) : Option Bytes := lastValue m.headers n

/-- The text that names the host: the authority of the target, else the header. -/
def HostText (m : Message) (h : Bytes) : Prop :=
  (m.scheme ≠ [] ∧ h = m.authority) ∨ (m.scheme = [] ∧ m.header b!"Host" = some h)

end Message

/-- Printable ASCII. -/
def Visible (c : UInt8) : Prop := 33 ≤ c ∧ c ≤ 126

/-- The conditions on the request line and the header fields. -/
structure Message.Ok (m : Message) : Prop where
  /-- any bytes, the parts of the request line are between spaces and it ends with CRLF -/
  method : ∀ c ∈ m.method, c ≠ 32 ∧ c ≠ 13
  proto : ∀ c ∈ m.proto, c ≠ 32 ∧ c ≠ 13
  /-- the scheme of an absolute target: letters, digits, `+-.` -/
  scheme : ∀ c ∈ m.scheme, c ∈ b!"abcdefghijklmnopqrstuvwxyzABCDEFGHIJKLMNOPQRSTUVWXYZ0123456789+-."
  path : ∀ c ∈ m.path, Visible c ∧ c ∉ b!"?#;"
  /-- the path begins with a single slash -/
  slash : ∃ p, m.path = 47 :: p ∧ p.head? ≠ some 47
  query : ∀ c ∈ m.query, Visible c ∧ c ≠ 35
  names : ∀ p ∈ m.headers, ∀ c ∈ p.1, Visible c ∧ c ≠ 58
  values : ∀ p ∈ m.headers, (∀ c ∈ p.2, Visible c ∨ c = 32 ∨ c = 9) ∧
    ∀ c, p.2.head? = some c ∨ p.2.getLast? = some c → Visible c
  some : m.headers ≠ []

/-- A parameter of a header value, as a token or in quotes. -/
def ParamText (n v t : Bytes) : Prop :=
  ((∀ c ∈ v, Visible c) ∧ t = n ++ b!"=" ++ v) ∨ t = n ++ b!"=\"" ++ v ++ b!"\""

/-- `text` is a media type with parameters, e.g. `multipart/form-data; boundary=xyz`. -/
inductive MediaText (type : Bytes) : List (Bytes × Bytes) → Bytes → Prop where
  | nil : MediaText type [] type
  | snoc {ps s n v t} : MediaText type ps s → (n ≠ [] ∧ ∀ c ∈ n, Visible c ∧ c ∉ b!"=;\"*'") →
      (∀ c ∈ v, c ∉ b!";\"\\") → ParamText n v t → MediaText type (ps ++ [(n, v)]) (s ++ b!"; " ++ t)

/-- The value of a parameter; names are compared without case. -/
def param (ps : List (Bytes × Bytes)) (n : Bytes) : Option Bytes :=
  lastValue (ps.map (fun p => (Py.lower p.1, p.2))) n

end Verif.Spec

namespace Verif.Spec

/-- `s` is a query string (or an urlencoded form) for the given pairs. -/
def Written (C : Codecs) (enc : Bytes) (qs : List (UStr × UStr)) (s : Bytes) : Prop :=
  ∃ ts, Pieces (fun b u => C.decodeReplace enc b = .ok u) qs ts ∧ Joined ts s

/-- The last `Content-Type` header is a media type with these parameters, or there is none. -/
def Message.Content (m : Message) : Option Bytes → List (Bytes × Bytes) → Prop
  | none, ps => m.header b!"Content-Type" = none ∧ ps = []
  | some t, ps => (∀ c ∈ t, Visible c ∧ c ∉ b!";\"") ∧
      ∃ s, m.header b!"Content-Type" = some s ∧ MediaText t ps s

/-- The settings after a `charset` parameter has been seen. -/
def charsetAfter (S : Settings) (ps : List (Bytes × Bytes)) : Settings :=
  match param ps b!"charset" with
  | none => S
  | some cs => { S with defaultCharset := cs }

/-- The attributes of a request object after the header of `m` has been read.  `host` and `port` are
the parts of the host text, `qs` the pairs of the query string. -/
structure HeadRead {ρ σ F : Type} (m : Message) (host port : Bytes) (type : Option Bytes)
    (qs : List (UStr × UStr)) (r : Req ρ σ F) : Prop where
  method : r.method = some m.method
  scheme : r.scheme = some (if m.scheme = [] then b!"UNKNOWN" else Py.lower m.scheme)
  host : r.host = some host
  port : ∃ p, r.port = some p ∧ PortIs m.scheme port p
  path : r.path = some m.path
  proto : r.proto = some m.proto
  get : r.get = some ⟨qs, decide (m.query = [])⟩
  contentType : r.contentType = some (type.map Py.lower)
  /-- `META`: the query string and the headers; the `Host` header is taken out if it was used -/
  info : ∃ h, r.info = some ⟨some m.query, some h⟩ ∧
    ∀ k, h.get? k = if (k = b!"Host" ∧ m.scheme = []) ∨ k ∉ m.headers.map Prod.fst then none
      else some ((m.headers.filter (fun p => p.1 = k)).map Prod.snd)

end Verif.Spec
