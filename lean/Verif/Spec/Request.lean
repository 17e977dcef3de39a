import Verif.Model.Request
/-! What the methods of the request object should do, said without their helpers. -/

namespace Verif.Spec

/-- `head` is what precedes the first empty line of `input`, `body` what follows it. -/
def FirstEnd (input head body : Bytes) : Prop :=
  input = head ++ b!"\r\n\r\n" ++ body ∧
    ∀ a b, input = a ++ b!"\r\n\r\n" ++ b → head.length ≤ a.length

/-- There is no empty line. -/
def NoEnd (input : Bytes) : Prop := ∀ a b, input ≠ a ++ b!"\r\n\r\n" ++ b

/-- The port of a request with URI scheme `scheme` and a host with port `port`. -/
def PortIs (scheme port : Bytes) (p : Port) : Prop :=
  (port ≠ [] → p = .text port) ∧
  (port = [] → Py.lower scheme = b!"https" → p = .num 443) ∧
  (port = [] → Py.lower scheme = b!"http" → p = .num 80) ∧
  (port = [] → Py.lower scheme ≠ b!"https" → Py.lower scheme ≠ b!"http" → p = .num 65536)

/-- `n` bytes are allowed. -/
def Allowed (limit : Option Int) (n : Nat) : Prop := ∃ l, limit = some l ∧ (n : Int) ≤ l

/-- The attributes that come from the header. -/
structure SameHeader {ρ σ F : Type} (a b : Req ρ σ F) : Prop where
  headerParsed : a.headerParsed = b.headerParsed
  get : a.get = b.get
  info : a.info = b.info
  method : a.method = b.method
  scheme : a.scheme = b.scheme
  host : a.host = b.host
  port : a.port = b.port
  path : a.path = b.path
  proto : a.proto = b.proto
  contentType : a.contentType = b.contentType

/-- The method calls of a caller who only reads. -/
inductive ReqOp where
  | body
  | parseHeader
  | parseBody
  | read (n : Nat)

/-- A history of calls; what the calls return or raise is dropped. -/
def run {ρ σ F : Type} [Producer ρ] (E : Env ρ σ F) :
    List ReqOp → Settings × Req ρ σ F × σ → Settings × Req ρ σ F × σ
  | [], st => st
  | .body :: ops, (S, r, w) => run E ops ((body E S r).2.1, (body E S r).2.2, w)
  | .parseHeader :: ops, (S, r, w) =>
    run E ops ((parseRequestHeader E S r).2.1, (parseRequestHeader E S r).2.2, w)
  | .parseBody :: ops, (S, r, w) =>
    run E ops (S, (parseRequestBody E S r w).2.1, (parseRequestBody E S r w).2.2)
  | .read n :: ops, (S, r, w) =>
    run E ops (S, { r with stream := (r.stream.read (some n)).2 }, w)

end Verif.Spec
