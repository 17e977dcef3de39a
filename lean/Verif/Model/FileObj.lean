import Verif.Model.File
/-!
# Uploaded files as objects (`files/base.py`, `files/utils.py`, `files/uploadedfile.py`)

State, size, truth value, reopening and closing of `File` and its subclasses.  Reading in chunks and lines is
in `Model/File.lean`.
-/

namespace Verif

/-- The classes: `File`, `TemporaryUploadedFile`, `InMemoryUploadedFile` (and its subclass
`SimpleUploadedFile`). -/
inductive FileCls where
  | plain
  | temp
  | memory
deriving DecidableEq, Repr

/-- `self.size`: in a plain `File` it is the bound method (`files/base.py:31`); `UploadedFile.__init__` assigns
its argument (`files/uploadedfile.py:25`), a number or `None`. -/
inductive SizeAttr where
  | method
  | none
  | int (n : Int)
deriving DecidableEq, Repr

/-- A `File` object.  `file` is the underlying object with its content and position, `closed` its state;
`mode` is `self.mode` (`files/base.py:15-16`), absent for a `BytesIO`. -/
structure FileO where
  cls : FileCls
  name : Option Bytes := none
  size : SizeAttr := .method
  mode : Option Bytes := none
  file : PyFile
  closed : Bool := false
deriving DecidableEq, Repr

/-- The files of the working directory: what is found under a name. -/
inductive Entry where
  | absent
  | dir
  | file (content : Bytes)
deriving DecidableEq, Repr

/-- The working directory of the process. -/
abbrev Cwd := Bytes → Entry

/-- `len(f)` (`files/base.py:27-28`): `int(self.size)` of a method or `None` is a `TypeError`, and `len`
rejects negative numbers. -/
def FileO.len (f : FileO) : Except Exc Nat :=
  match f.size with
  | .method => .error .typeError
  | .none => .error .typeError
  | .int n => if n < 0 then .error .valueError else .ok n.toNat

/-- `bool(f)`.  Python 2 does not know `__bool__` (`files/base.py:24-25`); it calls `__len__`. -/
def FileO.truth (f : FileO) : Except Exc Bool :=
  match f.len with
  | .error e => .error e
  | .ok n => .ok (n ≠ 0)

/-- `f.multiple_chunks(n)` (`files/base.py:64-72`, `files/uploadedfile.py:94-96`).  In Python 2 `None` is less than
every number and a method greater. -/
def FileO.multipleChunks (f : FileO) (n : Option Int) : Bool :=
  match f.cls with
  | .memory => false
  | _ =>
    match f.size with
    | .method => true
    | .none => false
    | .int s => s > chunkSizeOr n

/-- `f.chunks(n)` (`files/base.py:47-62`, `files/uploadedfile.py:90-92`).  `seek` on a closed file raises
`ValueError`, which is not caught. -/
def FileO.chunks (f : FileO) (n : Option Int) : Except Exc (List Bytes × FileO) :=
  if f.closed then .error .valueError
  else
    match f.cls with
    | .memory => .ok ((memoryChunks f.file).1, { f with file := (memoryChunks f.file).2 })
    | _ =>
      match fileChunks f.file n with
      | .error e => .error e
      | .ok (cs, g) => .ok (cs, { f with file := g })

/-- `f.close()` (`files/base.py:116-117`, `files/uploadedfile.py:71-78`), also at the end of a `with` statement
(`files/base.py:101-105`, whatever the exception).  The file of a `TemporaryUploadedFile` is
deleted, which does not concern the working directory. -/
def FileO.close (f : FileO) : FileO := { f with closed := true }

/-- `self.seek(0)` on an open file.  `io.UnsupportedOperation` is a `ValueError` (and an `IOError`). -/
def FileO.rewind (f : FileO) : Except Exc FileO :=
  match f.file.seek with
  | .works => .ok { f with file := { f.file with pos := 0 } }
  | .missing => .error .attributeError
  | .unsupported => .error .valueError
  | .fails => .error .ioError

/-- The library function `open(name, mode)` for a name that exists: the new file object and the directory
afterwards.  A mode that begins with `w` empties the file.  Modes with `U`
(line ends are translated) are not modelled. -/
def openFile (cwd : Cwd) (name mode : Bytes) : Except Exc (PyFile × Cwd) :=
  match mode with
  | [] => .error .valueError
  | m :: _ =>
    if m ∉ b!"rwa" then .error .valueError
    else
      match cwd name with
      | .absent => .error .ioError
      | .dir => .error .ioError
      | .file c =>
        if m = 119 then .ok ({ content := [] }, fun n => if n = name then .file [] else cwd n)
        else if m = 114 then .ok ({ content := c }, cwd)
        else .ok ({ content := c, pos := c.length }, cwd)

/-- `f.open(mode)` (`files/base.py:107-114`, `files/uploadedfile.py:86-88`): an open file is rewound; a closed one is
looked up under `self.name` in the working directory.  `mode or self.mode`: without a `mode` attribute that is
an `AttributeError`.  An in-memory file is rewound, which is a `ValueError` if it is closed. -/
def FileO.reopen (f : FileO) (mode : Option Bytes) (cwd : Cwd) : Res Cwd FileO :=
  match f.cls with
  | .memory => if f.closed then (.error .valueError, cwd) else (f.rewind, cwd)
  | _ =>
    if f.closed = false then (f.rewind, cwd)
    else if f.name.getD [] ≠ [] ∧ cwd (f.name.getD []) ≠ .absent then
      match (if mode.getD [] ≠ [] then mode else f.mode) with
      | .none => (.error .attributeError, cwd)
      | .some m =>
        match openFile cwd (f.name.getD []) m with
        | .error e => (.error e, cwd)
        | .ok (g, cwd) => (.ok { f with file := g, closed := false }, cwd)
    else (.error .valueError, cwd)

/-- `f.size()` of a plain `File` (`files/base.py:31-45`) whose underlying object has neither a `size` nor a `name`
(a `BytesIO`): seek to the end, tell, seek back. -/
def FileO.sizeCall (f : FileO) : Except Exc (Nat × FileO) :=
  if f.closed then .error .valueError
  else
    match f.file.seek with
    | .works => .ok (f.file.content.length, f)
    | .missing => .error .attributeError
    | .unsupported => .error .valueError
    | .fails => .error .ioError

/-- `SimpleUploadedFile(name, content)` (`files/uploadedfile.py:102-104`).  The name is given after `_set_name`. -/
def simpleUploaded (name : Option Bytes) (content : Bytes) : FileO :=
  { cls := .memory, name := name, size := .int content.length, file := { content := content } }

/-- A `TemporaryUploadedFile` as the handlers leave it (`files/uploadhandler.py:148-151`): the mode of a
`NamedTemporaryFile` is `w+b`. -/
def temporaryUploaded (name content : Bytes) (size : Int) : FileO :=
  { cls := .temp, name := some name, size := .int size, mode := some b!"w+b", file := { content := content } }

end Verif
