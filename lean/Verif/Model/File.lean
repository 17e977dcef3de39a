import Verif.Model.Exc
/-!
# Reading uploaded files (`files/base.py`, `files/uploadedfile.py`)

The object behind a `File` is a byte string and a position.  The generators are modelled as run to the
end without anything else touching the file in between.
-/

namespace Verif

/-- What `seek` of the underlying object does. -/
inductive Seek where
  /-- moves the position -/
  | works
  /-- missing: the object has no attribute `seek` -/
  | missing
  /-- raises `io.UnsupportedOperation` -/
  | unsupported
  /-- raises `IOError` (a pipe behind a Python 2 `file`) -/
  | fails
deriving DecidableEq, Repr

/-- The underlying file object. -/
structure PyFile where
  content : Bytes
  pos : Nat := 0
  seek : Seek := .works
deriving DecidableEq, Repr

/-- `read(n)` of the underlying object: everything left for a negative `n`. -/
def PyFile.read (f : PyFile) (n : Int) : Bytes × PyFile :=
  let rest := f.content.drop f.pos
  let d := if n < 0 then rest else rest.take n.toNat
  (d, { f with pos := f.pos + d.length })

/-- The loop of `File.chunks` (`files/base.py:58-62`).  The fuel is one more than what is left of the
content, which is enough unless the chunk size is zero. -/
def chunksLoop : (fuel : Nat) → (size : Int) → PyFile → List Bytes × PyFile
  | 0, _, f => ([], f)
  | fuel + 1, size, f =>
    let p := f.read size
    if p.1 = [] then ([], p.2)
    else
      let q := chunksLoop fuel size p.2
      (p.1 :: q.1, q.2)

/-- `File.DEFAULT_CHUNK_SIZE` (`files/base.py:8`). -/
def defaultChunkSize : Int := 64 * 2 ^ 10

/-- `chunk_size or self.DEFAULT_CHUNK_SIZE` (`files/base.py:52`). -/
def chunkSizeOr (n : Option Int) : Int :=
  match n with
  | none => defaultChunkSize
  | some n => if n = 0 then defaultChunkSize else n

/-- `File.chunks` (`files/base.py:47-62`). -/
def fileChunks (f : PyFile) (n : Option Int) : Except Exc (List Bytes × PyFile) :=
  let run (f : PyFile) := chunksLoop (f.content.length + 1) (chunkSizeOr n) f
  match f.seek with
  | .works => .ok (run { f with pos := 0 })
  | .missing => .ok (run f)
  | .unsupported => .ok (run f)
  | .fails => .error .ioError

/-- `InMemoryUploadedFile.chunks` (`files/uploadedfile.py:90-92`): one piece with everything, even if it
is empty. -/
def memoryChunks (f : PyFile) : List Bytes × PyFile :=
  let p := PyFile.read { f with pos := 0 } (-1)
  ([p.1], p.2)

/-- One line of `str.splitlines(True)` (library) and what follows it; line ends are LF, CR and CR LF. -/
def takeLine : Bytes → Bytes × Bytes
  | [] => ([], [])
  | 10 :: t => ([10], t)
  | 13 :: 10 :: t => ([13, 10], t)
  | 13 :: t => ([13], t)
  | c :: t => (c :: (takeLine t).1, (takeLine t).2)

/-- `str.splitlines(True)` (library). -/
def splitLinesLoop : (fuel : Nat) → Bytes → List Bytes
  | 0, _ => []
  | _ + 1, [] => []
  | fuel + 1, s => (takeLine s).1 :: splitLinesLoop fuel (takeLine s).2

/-- `str.splitlines(True)` (library). -/
def splitLines (s : Bytes) : List Bytes := splitLinesLoop s.length s

/-- `endswith_cr` (`files/base.py:147-149`). -/
def endsCr (l : Bytes) : Bool := l.getLast? = some 13

/-- `endswith_lf` (`files/base.py:152-154`); `equals_lf` (`157-159`) is written out where it is used. -/
def endsLf (l : Bytes) : Bool := l.getLast? = some 10

/-- The body of the inner loop of `File.__iter__` (`files/base.py:79-96`): the lines yielded and the
buffer. -/
def iterStep (buf : Option Bytes) (line : Bytes) : List Bytes × Option Bytes :=
  let p : List Bytes × Bytes × Option Bytes :=
    match buf with
    | none => ([], line, none)
    | some b =>
      if b = [] then ([], line, some b)
      else if endsCr b && !(line = [10]) then ([b], line, none)
      else ([], b ++ line, none)
  if endsLf p.2.1 then (p.1 ++ [p.2.1], p.2.2) else (p.1, some p.2.1)

/-- The loops of `File.__iter__` over all lines of all chunks (`files/base.py:77-96`). -/
def iterLoop : Option Bytes → List Bytes → List Bytes × Option Bytes
  | buf, [] => ([], buf)
  | buf, l :: ls =>
    let p := iterStep buf l
    let q := iterLoop p.2 ls
    (p.1 ++ q.1, q.2)

/-- `File.__iter__` (`files/base.py:74-99`) over the given chunks. -/
def iterLines (chunks : List Bytes) : List Bytes :=
  let p := iterLoop none (chunks.flatMap splitLines)
  p.1 ++ p.2.toList

/-- `list(file)` for a `File` (`files/base.py:74-99`). -/
def fileIter (f : PyFile) : Except Exc (List Bytes × PyFile) :=
  match fileChunks f none with
  | .error e => .error e
  | .ok p => .ok (iterLines p.1, p.2)

/-- `list(file)` for an `InMemoryUploadedFile` (`files/uploadedfile.py:90-92`, `files/base.py:74-99`). -/
def memoryIter (f : PyFile) : List Bytes × PyFile :=
  let p := memoryChunks f
  (iterLines p.1, p.2)

end Verif
