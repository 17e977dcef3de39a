import Verif.Model.Multipart
/-!
# The built-in upload handlers (`files/uploadhandler.py`) and uploaded files
(`files/uploadedfile.py`)
-/

namespace Verif

/-- `os.path.basename(p)` (POSIX). -/
def Py.basename (p : Bytes) : Bytes :=
  match Py.rfindChar 47 p with
  | none => p
  | some i => p.drop (i + 1)

/-- `os.path.splitext(p)` (POSIX): split at the last dot of the last component unless only dots
precede it. -/
def Py.splitext (p : Bytes) : Bytes × Bytes :=
  match Py.rfindChar 46 p with
  | none => (p, [])
  | some dot =>
    let start := match Py.rfindChar 47 p with
      | none => 0
      | some i => i + 1
    if start ≤ dot ∧ ((p.take dot).drop start).any (· ≠ 46) then (p.take dot, p.drop dot)
    else (p, [])

/-- `UploadedFile._set_name` (`files/uploadedfile.py:37-49`). -/
def setName (name : Bytes) : Bytes :=
  let name := Py.basename name
  if name.length > 255 then
    let (n, ext) := Py.splitext name
    let ext := ext.take 255
    n.take (255 - ext.length) ++ ext
  else name

/-- A `BytesIO` or a temporary file. -/
structure FileObj where
  data : Bytes := []
  pos : Nat := 0
  closed : Bool := false
  deriving DecidableEq, Repr

/-- `f.write(b)`: `ValueError` on a closed file. -/
def FileObj.write (f : FileObj) (b : Bytes) : Except Exc FileObj :=
  if f.closed then .error .valueError
  else .ok { f with data := f.data.take f.pos ++ b ++ f.data.drop (f.pos + b.length),
                    pos := f.pos + b.length }

/-- `f.seek(0)`. -/
def FileObj.rewind (f : FileObj) : Except Exc FileObj :=
  if f.closed then .error .valueError else .ok { f with pos := 0 }

/-- `f.read()`. -/
def FileObj.readAll (f : FileObj) : Except Exc (Bytes × FileObj) :=
  if f.closed then .error .valueError else .ok (f.data.drop f.pos, { f with pos := f.data.length })

/-- All files that exist; an address is an index. -/
abbrev Heap := List FileObj

/-- Apply an operation to the file at an address. -/
def Heap.modify (h : Heap) (r : Nat) (f : FileObj → Except Exc FileObj) : Res Heap Unit :=
  match h[r]? with
  | none => (.error .attributeError, h)
  | some o =>
    match f o with
    | .error e => (.error e, h)
    | .ok o => (.ok (), h.set r o)

/-- `InMemoryUploadedFile` / `TemporaryUploadedFile` (`files/uploadedfile.py:14-90`): `ref` is the
address of the underlying file. -/
structure Uploaded where
  ref : Nat
  inMemory : Bool
  name : Bytes
  size : Nat
  args : NewFileArgs
  deriving DecidableEq, Repr

/-- The operating system: can a temporary file with this suffix be created?
Simplification: writing to an open file never fails. -/
structure Os where
  tempFile : (ext : Bytes) → Except Exc Unit

/-- `MemoryFileUploadHandler` (`files/uploadhandler.py:153-195`).  `none` in a field means the
attribute does not exist yet. -/
structure MemoryH where
  args : Option NewFileArgs := none
  activated : Option Bool := none
  file : Option Nat := none
  deriving DecidableEq, Repr

/-- `TemporaryFileUploadHandler` (`files/uploadhandler.py:125-151`). -/
structure TempH where
  args : Option NewFileArgs := none
  hasSettings : Bool := false
  file : Option Uploaded := none
  deriving DecidableEq, Repr

/-- `ConvenientFileUploadHandler` (`files/uploadhandler.py:197-263`).  `switched` is
`_switched_to_temp_file`; of the settings that are kept only `FILE_UPLOAD_MAX_MEMORY_SIZE` is read
(by the handler itself), and only it is modelled. -/
structure ConvH where
  received : Nat := 0
  fileMax : Option Int := none
  switched : Bool := false
  memory : MemoryH := {}
  temp : TempH := {}
  deriving DecidableEq, Repr

namespace MemoryH

/-- `handle_raw_input` (`files/uploadhandler.py:158-165`). -/
def rawInput (h : MemoryH) (contentLength : Nat) (S : Settings) : MemoryH :=
  { h with activated := some (decide ((contentLength : Int) ≤ S.fileMaxMemory)) }

/-- `new_file` (`files/uploadhandler.py:167-171`). -/
def newFile (h : MemoryH) (args : NewFileArgs) (heap : Heap) : Res (MemoryH × Heap) Unit :=
  let h := { h with args := some args }
  match h.activated with
  | none => (.error .attributeError, h, heap)
  | some false => (.ok (), h, heap)
  | some true =>
    (.error .stopFutureHandlers, { h with file := some heap.length }, heap ++ [({} : FileObj)])

/-- `receive_data_chunk` (`files/uploadhandler.py:173-178`). -/
def receive (h : MemoryH) (raw : Bytes) (heap : Heap) : Res Heap (Option Bytes) :=
  match h.activated with
  | none => (.error .attributeError, heap)
  | some false => (.ok (some raw), heap)
  | some true =>
    match h.file with
    | none => (.error .attributeError, heap)
    | some r =>
      match heap.modify r (·.write raw) with
      | (.error e, heap) => (.error e, heap)
      | (.ok (), heap) => (.ok none, heap)

/-- `file_complete` (`files/uploadhandler.py:180-195`). -/
def fileComplete (h : MemoryH) (size : Nat) (heap : Heap) : Res Heap (Option Uploaded) :=
  match h.activated with
  | none => (.error .attributeError, heap)
  | some false => (.ok none, heap)
  | some true =>
    match h.file, h.args with
    | some r, some args =>
      match heap.modify r (·.rewind) with
      | (.error e, heap) => (.error e, heap)
      | (.ok (), heap) =>
        (.ok (some { ref := r, inMemory := true, name := setName args.fileName, size := size,
                     args := args }), heap)
    | _, _ => (.error .attributeError, heap)

end MemoryH

namespace TempH

/-- `new_file` (`files/uploadhandler.py:138-143`, `files/uploadedfile.py:57-63`). -/
def newFile (os : Os) (h : TempH) (args : NewFileArgs) (heap : Heap) : Res (TempH × Heap) Unit :=
  let h := { h with args := some args }
  if h.hasSettings = false then (.error .attributeError, h, heap)
  else
    match os.tempFile (Py.splitext args.fileName).2 with
    | .error e => (.error e, h, heap)
    | .ok () =>
      (.ok (), { h with file := some { ref := heap.length, inMemory := false,
                                       name := setName args.fileName, size := 0, args := args } },
        heap ++ [({} : FileObj)])

/-- `receive_data_chunk` (`files/uploadhandler.py:145-146`). -/
def receive (h : TempH) (raw : Bytes) (heap : Heap) : Res Heap (Option Bytes) :=
  match h.file with
  | none => (.error .attributeError, heap)
  | some f =>
    match heap.modify f.ref (·.write raw) with
    | (.error e, heap) => (.error e, heap)
    | (.ok (), heap) => (.ok none, heap)

/-- `file_complete` (`files/uploadhandler.py:148-151`). -/
def fileComplete (h : TempH) (size : Nat) (heap : Heap) : Res (TempH × Heap) (Option Uploaded) :=
  match h.file with
  | none => (.error .attributeError, h, heap)
  | some f =>
    match heap.modify f.ref (·.rewind) with
    | (.error e, heap) => (.error e, h, heap)
    | (.ok (), heap) =>
      let f := { f with size := size }
      (.ok (some f), { h with file := some f }, heap)

end TempH

namespace ConvH

/-- `handle_raw_input` (`files/uploadhandler.py:214-219`).  After the switch the inner handler is a
`TemporaryFileUploadHandler`. -/
def rawInput (h : ConvH) (S : Settings) : ConvH :=
  if h.switched then { h with fileMax := some S.fileMaxMemory, temp := { h.temp with hasSettings := true } }
  else { h with fileMax := some S.fileMaxMemory, memory := h.memory.rawInput 0 S }

/-- `new_file` (`files/uploadhandler.py:221-222`). -/
def newFile (os : Os) (h : ConvH) (args : NewFileArgs) (heap : Heap) : Res (ConvH × Heap) Unit :=
  if h.switched then
    match h.temp.newFile os args heap with
    | (r, t, heap) => (r, { h with temp := t }, heap)
  else
    match h.memory.newFile args heap with
    | (r, m, heap) => (r, { h with memory := m }, heap)

/-- The switch to a temporary file (`files/uploadhandler.py:230-252`). -/
def switch (os : Os) (h : ConvH) (heap : Heap) : Res (ConvH × Heap) Unit :=
  match h.memory.fileComplete h.received heap with
  | (.error e, heap) => (.error e, h, heap)
  | (.ok none, heap) => (.error .attributeError, h, heap)
  | (.ok (some f), heap) =>
    match heap[f.ref]? with
    | none => (.error .attributeError, h, heap)
    | some o =>
      match o.readAll with
      | .error e => (.error e, h, heap)
      | .ok (content, o) =>
        let heap := heap.set f.ref o
        let t : TempH := { hasSettings := true }
        match t.newFile os { f.args with contentLength := some 0 } heap with
        | (.error e, _, heap) => (.error e, h, heap)
        | (.ok (), t, heap) =>
          match t.receive content heap with
          | (.error e, heap) => (.error e, h, heap)
          | (.ok _, heap) => (.ok (), { h with temp := t, switched := true }, heap)

/-- `receive_data_chunk` (`files/uploadhandler.py:224-257`). -/
def receive (os : Os) (h : ConvH) (raw : Bytes) (heap : Heap) : Res (ConvH × Heap) (Option Bytes) :=
  match h.fileMax with
  | none => (.error .attributeError, h, heap)
  | some limit =>
    match (if h.switched = false ∧ (h.received : Int) + raw.length > limit
        then h.switch os heap else (.ok (), h, heap) : Res (ConvH × Heap) Unit) with
    | (.error e, h, heap) => (.error e, h, heap)
    | (.ok (), h, heap) =>
      match (if h.switched then h.temp.receive raw heap else h.memory.receive raw heap) with
      | (.error e, heap) => (.error e, h, heap)
      | (.ok _, heap) => (.ok none, { h with received := h.received + raw.length }, heap)

/-- `file_complete` (`files/uploadhandler.py:259-260`). -/
def fileComplete (h : ConvH) (size : Nat) (heap : Heap) : Res (ConvH × Heap) (Option Uploaded) :=
  if h.switched then
    match h.temp.fileComplete size heap with
    | (r, t, heap) => (r, { h with temp := t }, heap)
  else
    match h.memory.fileComplete size heap with
    | (r, heap) => (r, h, heap)

end ConvH

/-- One of the three built-in handlers. -/
inductive Builtin where
  | memory (h : MemoryH)
  | temp (h : TempH)
  | conv (h : ConvH)
  deriving DecidableEq, Repr

/-- The world of the built-in handlers. -/
structure BWorld where
  hs : List Builtin
  heap : Heap := []
  deriving DecidableEq, Repr

namespace Builtin

/-- `handle_raw_input` of a built-in handler: returns `None` and does not read the stream. -/
def rawInput (a : RawArgs) : Builtin → Builtin
  | .memory h => .memory (h.rawInput a.contentLength a.settings)
  | .temp h => .temp { h with hasSettings := true }
  | .conv h => .conv (h.rawInput a.settings)

def newFile (os : Os) (a : NewFileArgs) (b : Builtin) (heap : Heap) : Res (Builtin × Heap) Unit :=
  match b with
  | .memory h => match h.newFile a heap with | (r, h, heap) => (r, .memory h, heap)
  | .temp h => match h.newFile os a heap with | (r, h, heap) => (r, .temp h, heap)
  | .conv h => match h.newFile os a heap with | (r, h, heap) => (r, .conv h, heap)

def receive (os : Os) (raw : Bytes) (b : Builtin) (heap : Heap) : Res (Builtin × Heap) (Option Bytes) :=
  match b with
  | .memory h => match h.receive raw heap with | (r, heap) => (r, .memory h, heap)
  | .temp h => match h.receive raw heap with | (r, heap) => (r, .temp h, heap)
  | .conv h => match h.receive os raw heap with | (r, h, heap) => (r, .conv h, heap)

def fileComplete (size : Nat) (b : Builtin) (heap : Heap) : Res (Builtin × Heap) (Option Uploaded) :=
  match b with
  | .memory h => match h.fileComplete size heap with | (r, heap) => (r, .memory h, heap)
  | .temp h => match h.fileComplete size heap with | (r, h, heap) => (r, .temp h, heap)
  | .conv h => match h.fileComplete size heap with | (r, h, heap) => (r, .conv h, heap)

/-- `handler.file.close()` when there is a `file` (`http/multipartparser.py:338-340`); a
`ConvenientFileUploadHandler` has none. -/
def close (b : Builtin) (heap : Heap) : Heap :=
  let closeAt (r : Nat) : Heap := match heap[r]? with
    | none => heap
    | some o => heap.set r { o with closed := true }
  match b with
  | .memory h => match h.file with | some r => closeAt r | none => heap
  | .temp h => match h.file with | some f => closeAt f.ref | none => heap
  | .conv _ => heap

end Builtin

/-- Lift an operation of one handler to the world. -/
def BWorld.on {α : Type} (w : BWorld) (i : Nat) (f : Builtin → Heap → Res (Builtin × Heap) α) :
    Res BWorld α :=
  match w.hs[i]? with
  | none => (.error .indexError, w)
  | some b =>
    match f b w.heap with
    | (r, b, heap) => (r, { hs := w.hs.set i b, heap := heap })

/-- `n` built-in handlers as upload handlers.  `bool(file)` is `len(file) != 0`, i.e. the size
(`files/base.py:27-28`; Python 2 ignores `__bool__`). -/
def builtinOps (ρ : Type) (os : Os) (n : Nat) : HandlerOps ρ BWorld Uploaded where
  count := n
  chunkSize _ := some (64 * 2 ^ 10)
  rawInput i a s w :=
    match w.on i (fun b h => (.ok (), b.rawInput a, h)) with
    | (.error e, w) => (.error e, s, w)
    | (.ok (), w) => (.ok none, s, w)
  newFile i a w := w.on i (fun b h => b.newFile os a h)
  receive i raw _ w := w.on i (fun b h => b.receive os raw h)
  fileComplete i size w := w.on i (fun b h => b.fileComplete size h)
  truthy f _ := f.size ≠ 0
  uploadComplete _ w := (.ok false, w)
  close i w := w.on i (fun b h => (.ok (), b, b.close h))

end Verif
