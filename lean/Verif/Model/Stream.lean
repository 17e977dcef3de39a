import Verif.Model.Exc
/-!
# LazyStream and ChunkIter (`utils/datastructures.py:344-481`)

A stream wraps a *producer*: any object with a `next()` method.  Producers that
occur in the repository: the file object given to `HttpRequest` (iterated line by
line), `ChunkIter`, `BoundaryIter`.  They are states of some type `σ` with a
`Producer` instance.
-/

namespace Verif

/-- A producer object.
* `next p` models `next(p)`: `ok (some c)` yields the chunk `c`, `ok none` is
  `StopIteration`, `error e` any other exception; the second component is the
  producer afterwards.
* `size p` is not part of the code: it bounds the number of chunks (and bytes)
  still to come and serves as loop fuel (`LawfulProducer` proves it sufficient). -/
class Producer (σ : Type) where
  next : σ → Res σ (Option Bytes)
  size : σ → Nat

/-- The file-like object handed to `HttpRequest(request_stream)`
(`http/request.py:59-64`): iterating it yields the remaining chunks (for a file:
lines) one by one.  Reading it raises no exception; the streams that do are in `Props/Failing.lean`. -/
structure Source where
  chunks : List Bytes
  deriving Repr, DecidableEq

instance : Producer Source where
  next s := match s.chunks with
    | [] => (.ok none, s)
    | c :: cs => (.ok (some c), ⟨cs⟩)
  size s := (s.chunks.map (fun c => c.length + 1)).sum

/-- `class LazyStream` (`utils/datastructures.py:344-365`).  The field `_empty` is
never read by the code and left out; `_remaining` equals `length` for ever. -/
structure LazyStream (σ : Type) where
  producer : σ
  leftover : Bytes := []
  length : Option Int := none
  position : Int := 0
  history : List Nat := []
  deriving Repr

namespace LazyStream
variable {σ : Type} [Producer σ]

/-- `LazyStream(producer)` (`utils/datastructures.py:352-365`). -/
def mk' (p : σ) : LazyStream σ := { producer := p }

/-- Fuel measure of a stream (not code). -/
def size (s : LazyStream σ) : Nat := s.leftover.length + Producer.size s.producer

/-- `tell` (`utils/datastructures.py:367-368`). -/
def tell (s : LazyStream σ) : Int := s.position

/-- `next` (`utils/datastructures.py:398-412`). -/
def next (s : LazyStream σ) : Res (LazyStream σ) (Option Bytes) :=
  if s.leftover ≠ [] then
    (.ok (some s.leftover),
      { s with leftover := [], position := s.position + s.leftover.length })
  else
    match Producer.next s.producer with
    | (.error e, p) => (.error e, { s with producer := p })
    | (.ok none, p) => (.ok none, { s with producer := p })
    | (.ok (some out), p) =>
      (.ok (some out),
        { s with producer := p, history := [], position := s.position + out.length })

/-- `_update_unget_history` and `unget` (`utils/datastructures.py:426-458`):
newest entry first, at most 50 entries, more than 40 equal to the current one
raises.  The history is updated before the check raises. -/
def unget (s : LazyStream σ) (bytes : Bytes) : Res (LazyStream σ) Unit :=
  if bytes = [] then (.ok (), s)
  else
    let n := bytes.length
    let h := n :: s.history.take 49
    if (h.filter (· = n)).length > 40 then
      (.error .suspiciousMultipartForm, { s with history := h })
    else
      (.ok (),
        { s with history := h, position := s.position - n, leftover := bytes ++ s.leftover })

/-- The loop of `read` (`utils/datastructures.py:381-392`); `acc` collects the
yielded pieces for `b''.join(parts())` (line 394).  `remaining` is non-negative
here, see `read`. -/
def readLoop : (fuel : Nat) → (remaining : Nat) → (acc : Bytes) → LazyStream σ →
    Res (LazyStream σ) Bytes
  | 0, remaining, acc, s => if remaining = 0 then (.ok acc, s) else (.error .diverge, s)
  | fuel + 1, remaining, acc, s =>
    if remaining = 0 then (.ok acc, s)
    else
      match s.next with
      | (.error e, s) => (.error e, s)
      | (.ok none, s) => (.ok acc, s)
      | (.ok (some chunk), s) =>
        let emitting := chunk.take remaining
        match s.unget (chunk.drop remaining) with
        | (.error e, s) => (.error e, s)
        | (.ok (), s) => readLoop fuel (remaining - emitting.length) (acc ++ emitting) s

/-- `b''.join(self)` (`utils/datastructures.py:375`): iterate to the end. -/
def joinAll : (fuel : Nat) → (acc : Bytes) → LazyStream σ → Res (LazyStream σ) Bytes
  | 0, _, s => (.error .diverge, s)
  | fuel + 1, acc, s =>
    match s.next with
    | (.error e, s) => (.error e, s)
    | (.ok none, s) => (.ok acc, s)
    | (.ok (some chunk), s) => joinAll fuel (acc ++ chunk) s

/-- `read(size)` (`utils/datastructures.py:370-395`).  A negative size fails the
assertion on line 382 (nothing has been read yet). -/
def read (s : LazyStream σ) (sz : Option Int) : Res (LazyStream σ) Bytes :=
  let remaining := match sz with
    | none => s.length
    | some n => some n
  match remaining with
  | none => joinAll (s.size + 1) [] s
  | some n =>
    if n < 0 then (.error .assertionError, s)
    else readLoop (s.size + 1) n.toNat [] s

end LazyStream

/-- The producer left behind by `LazyStream.close` (`utils/datastructures.py:414-421`):
`self._producer = []`, and `next([])` raises `TypeError` because a list is not an
iterator. -/
structure Closed where
  deriving Repr, DecidableEq

instance : Producer Closed where
  next s := (.error .typeError, s)
  size _ := 0

/-- `LazyStream.close` (`utils/datastructures.py:414-421`). -/
def LazyStream.close {σ : Type} (s : LazyStream σ) : LazyStream Closed :=
  { producer := ⟨⟩, leftover := s.leftover, length := s.length,
    position := s.position, history := s.history }

/-- `class ChunkIter` (`utils/datastructures.py:460-481`) over a file-like object that
is itself a `LazyStream` (`http/multipartparser.py:136`; `exhaust`,
`http/multipartparser.py:480`, uses one only for non-iterable objects, which do not
occur). -/
structure ChunkIter (σ : Type) where
  flo : LazyStream σ
  chunkSize : Nat
  deriving Repr

/-- `ChunkIter.next` (`utils/datastructures.py:470-478`).  The `InputStreamExhausted`
caught there is never raised by `LazyStream.read`. -/
def ChunkIter.next {σ : Type} [Producer σ] (c : ChunkIter σ) : Res (ChunkIter σ) (Option Bytes) :=
  match c.flo.read (some c.chunkSize) with
  | (.error .inputStreamExhausted, f) => (.ok none, { c with flo := f })
  | (.error e, f) => (.error e, { c with flo := f })
  | (.ok data, f) => (.ok (if data ≠ [] then some data else none), { c with flo := f })

instance {σ : Type} [Producer σ] : Producer (ChunkIter σ) where
  next := ChunkIter.next
  size c := c.flo.size

/-- `exhaust(stream_or_iterable)` (`http/multipartparser.py:475-483`) on a stream: iterate
it to the end, dropping the chunks. -/
def exhaustLoop {σ : Type} [Producer σ] : Nat → LazyStream σ → Res (LazyStream σ) Unit
  | 0, s => (.error .diverge, s)
  | fuel + 1, s =>
    match s.next with
    | (.error e, s) => (.error e, s)
    | (.ok none, s) => (.ok (), s)
    | (.ok (some _), s) => exhaustLoop fuel s

/-- `exhaust` (`http/multipartparser.py:475-483`). -/
def exhaust {σ : Type} [Producer σ] (s : LazyStream σ) : Res (LazyStream σ) Unit :=
  exhaustLoop (s.size + 1) s

end Verif
