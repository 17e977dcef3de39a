import Verif.Model.Stream
/-!
# InterBoundaryIter and BoundaryIter (`http/multipartparser.py:342-473`)

In the code a `BoundaryIter` holds a *reference* to the body stream.  In the model it
owns the stream while the part is being read; the body stream is taken back out of the
part (`sub.producer.stream`) when the next part is requested.  Nothing else touches the
body stream in between (`http/multipartparser.py:150-295`; the call `exhaust(stream)` on
line 295 is unreachable, see `Model.Multipart`).
-/

namespace Verif

/-- `class BoundaryIter` (`http/multipartparser.py:366-393`).  `boundary` is the separator
`--boundary` (line 554). -/
structure BoundaryIter (σ : Type) where
  stream : LazyStream σ
  boundary : Bytes
  rollback : Nat
  done : Bool := false
  deriving Repr

namespace BoundaryIter
variable {σ : Type} [Producer σ]

/-- `BoundaryIter.__init__` (`http/multipartparser.py:378-393`): reads one byte to see
whether the stream is empty and pushes it back. -/
def create (stream : LazyStream σ) (boundary : Bytes) :
    Res (LazyStream σ) (BoundaryIter σ) :=
  match stream.read (some 1) with
  | (.error e, s) => (.error e, s)
  | (.ok unused, s) =>
    if unused = [] then (.error .inputStreamExhausted, s)
    else
      match s.unget unused with
      | (.error e, s) => (.error e, s)
      | (.ok (), s) =>
        (.ok { stream := s, boundary := boundary, rollback := boundary.length + 6 }, s)

/-- The loop of `next` (`http/multipartparser.py:406-417`), with `b''.join` of line 423
folded in.  Returns the joined bytes, whether `chunks` is non-empty, and whether the loop
ended by `StopIteration` (the `else` clause). -/
def gather (rollback : Nat) : (fuel : Nat) → (acc : Bytes) → (any : Bool) → LazyStream σ →
    Res (LazyStream σ) (Bytes × Bool × Bool)
  | 0, _, _, s => (.error .diverge, s)
  | fuel + 1, acc, any, s =>
    match s.next with
    | (.error e, s) => (.error e, s)
    | (.ok none, s) => (.ok (acc, any, true), s)
    | (.ok (some bytes), s) =>
      let acc := acc ++ bytes
      if acc.length > rollback then (.ok (acc, true, false), s)
      else if bytes = [] then (.ok (acc, true, false), s)
      else gather rollback fuel acc true s

/-- `_find_boundary` (`http/multipartparser.py:451-473`).  Simplification: `end` is a
natural number; it cannot become negative because the separator starts with `-`, which is
neither `\n` nor `\r` (`http/multipartparser.py:554`). -/
def findBoundary (sep data : Bytes) : Option (Nat × Nat) :=
  match Py.find sep data with
  | none => none
  | some index =>
    let next := index + sep.length
    let last := index - 1
    let end1 := if (data.drop last).take 1 = b!"\n" then index - 1 else index
    let last := end1 - 1
    let end2 := if (data.drop last).take 1 = b!"\r" then end1 - 1 else end1
    some (end2, next)

/-- `BoundaryIter.next` (`http/multipartparser.py:399-449`). -/
def next (b : BoundaryIter σ) : Res (BoundaryIter σ) (Option Bytes) :=
  if b.done then (.ok none, b)
  else
    match gather b.rollback (b.stream.size + 1) [] false b.stream with
    | (.error e, s) => (.error e, { b with stream := s })
    | (.ok (chunk, any, stopped), s) =>
      let b := { b with stream := s, done := stopped }
      if any = false then (.ok none, b)
      else
        match findBoundary b.boundary chunk with
        | some (end_, next) =>
          match s.unget (chunk.drop next) with
          | (.error e, s) => (.error e, { b with stream := s })
          | (.ok (), s) => (.ok (some (chunk.take end_)), { b with stream := s, done := true })
        | none =>
          if chunk.length ≤ b.rollback then (.ok (some chunk), { b with done := true })
          else
            match s.unget (chunk.drop (chunk.length - b.rollback)) with
            | (.error e, s) => (.error e, { b with stream := s })
            | (.ok (), s) =>
              (.ok (some (chunk.take (chunk.length - b.rollback))), { b with stream := s })

instance : Producer (BoundaryIter σ) where
  next := next
  size b := if b.done then 0 else 1 + b.stream.size

end BoundaryIter

/-- `InterBoundaryIter.next` (`http/multipartparser.py:356-364`): the stream of the next
part, or `none` (`StopIteration`) when the body is exhausted.  The second component is the
body stream (also inside the part). -/
def nextPart {σ : Type} [Producer σ] (stream : LazyStream σ) (sep : Bytes) :
    Res (LazyStream σ) (Option (LazyStream (BoundaryIter σ))) :=
  match BoundaryIter.create stream sep with
  | (.error .inputStreamExhausted, s) => (.ok none, s)
  | (.error e, s) => (.error e, s)
  | (.ok b, s) => (.ok (some (LazyStream.mk' b)), s)

/-! ## Separators that are `unicode` objects

A boundary in the notation `boundary*=charset'lang'value` is a `unicode` object, and so is the separator
`b'--' + boundary` (`http/multipartparser.py:554`).  `data.find(separator)` then decodes `data` as ASCII first, which
raises `UnicodeDecodeError` if there is another byte in it; everything else works as with bytes. -/

/-- A `BoundaryIter` whose separator is a `unicode` object. -/
structure TextBoundaryIter (σ : Type) where
  iter : BoundaryIter σ
  deriving Repr

namespace TextBoundaryIter
variable {σ : Type} [Producer σ]

/-- `BoundaryIter.next` (`http/multipartparser.py:399-449`) with a `unicode` separator: the data gathered is searched
(line 424) if there is any, which fails if it is not ASCII. -/
def next (t : TextBoundaryIter σ) : Res (TextBoundaryIter σ) (Option Bytes) :=
  if t.iter.done then (.ok none, t)
  else
    match BoundaryIter.gather t.iter.rollback (t.iter.stream.size + 1) [] false t.iter.stream with
    | (.ok (chunk, true, stopped), s) =>
      if Py.isAscii chunk then (t.iter.next.1, ⟨t.iter.next.2⟩)
      else (.error .unicodeDecodeError, ⟨{ t.iter with stream := s, done := stopped }⟩)
    | _ => (t.iter.next.1, ⟨t.iter.next.2⟩)

instance : Producer (TextBoundaryIter σ) where
  next := next
  size t := Producer.size t.iter

end TextBoundaryIter

/-- `InterBoundaryIter.next` (`http/multipartparser.py:356-364`) with a `unicode` separator. -/
def nextTextPart {σ : Type} [Producer σ] (stream : LazyStream σ) (sep : Bytes) :
    Res (LazyStream σ) (Option (LazyStream (TextBoundaryIter σ))) :=
  match BoundaryIter.create stream sep with
  | (.error .inputStreamExhausted, s) => (.ok none, s)
  | (.error e, s) => (.error e, s)
  | (.ok b, s) => (.ok (some (LazyStream.mk' ⟨b⟩)), s)

end Verif
