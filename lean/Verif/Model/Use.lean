import Verif.Model.FileObj
import Verif.Model.Handlers
/-!
# What an application does with the files of a request

`Model/Handlers.lean` has the uploaded files as the handlers make them, with the contents in a heap;
`Model/FileObj.lean` has their methods.  Here the methods are applied to the files of the heap.
-/

namespace Verif

/-- The uploaded file `f` as an object (`files/uploadedfile.py:14-96`), `o` being the file behind it.  A
`NamedTemporaryFile` has the mode `w+b`, a `BytesIO` none. -/
def Uploaded.obj (f : Uploaded) (o : FileObj) : FileO :=
  { cls := if f.inMemory then .memory else .temp, name := some f.name, size := .int f.size,
    mode := if f.inMemory then none else some b!"w+b", file := { content := o.data, pos := o.pos },
    closed := o.closed }

/-- Ways to get at the content of a file. -/
inductive Use where
  /-- `list(f.chunks(n))` -/
  | chunks (n : Option Int)
  /-- `list(f)`, the lines -/
  | lines
  /-- `f.open(); f.read()` -/
  | whole
  /-- `f.read(n)` -/
  | read (n : Int)
deriving DecidableEq, Repr

/-- What is read (`files/base.py:47-62, 74-99, 107-114`, `files/uploadedfile.py:86-96`; `read` is that of
the underlying object, `files/utils.py:1-22`, a `ValueError` on a closed one). -/
def FileO.use (f : FileO) (cwd : Cwd) : Use → Except Exc (List Bytes × FileO)
  | .chunks n => f.chunks n
  | .lines =>
    match f.chunks none with
    | .error e => .error e
    | .ok (cs, g) => .ok (iterLines cs, g)
  | .whole =>
    match f.reopen none cwd with
    | (.error e, _) => .error e
    | (.ok g, _) => .ok ([(g.file.read (-1)).1], { g with file := (g.file.read (-1)).2 })
  | .read n =>
    if f.closed then .error .valueError
    else .ok ([(f.file.read n).1], { f with file := (f.file.read n).2 })

/-- The same for a file of the heap.  Only its position changes. -/
def Uploaded.use (f : Uploaded) (cwd : Cwd) (u : Use) (heap : Heap) : Res Heap (List Bytes) :=
  match heap[f.ref]? with
  | none => (.error .attributeError, heap)
  | some o =>
    match (f.obj o).use cwd u with
    | .error e => (.error e, heap)
    | .ok (l, g) => (.ok l, heap.set f.ref { o with pos := g.file.pos })

/-- Files used one after the other, in any order, any number of times. -/
def useAll (cwd : Cwd) : List (Uploaded × Use) → Heap → List (Except Exc (List Bytes)) × Heap
  | [], heap => ([], heap)
  | (f, u) :: us, heap =>
    let p := f.use cwd u heap
    let q := useAll cwd us p.2
    (p.1 :: q.1, q.2)

end Verif
