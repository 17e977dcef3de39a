import Verif.Model.FileObj
import Verif.Model.Handlers
/-!
# Proxied files (`files/utils.py:4-55`, `files/base.py`, `files/temp.py`)

A `File` wraps another object, its `file`, which may itself be a `File`.  This file models what the wrapper
says about the wrapped object (`closed`, `readable`, `writable`, `seekable`), its texts, the `with` statement
and the temporary file class for Windows.
-/

namespace Verif

/-- What can be inside a `File`.  A Python 2 `file` object (and the wrapper that
`tempfile.NamedTemporaryFile` returns, which forwards to one) has `mode` and `closed` but no methods `readable`,
`writable` and `seekable`; the objects of the module `io` have the three methods and no useful `mode`. -/
inductive Wrapped where
  /-- `None` -/
  | nothing
  /-- an object of the module `io` -/
  | io (closed readable writable seekable : Bool)
  /-- a Python 2 `file`; `pipe` means that the system cannot seek in it -/
  | file (mode : Bytes) (closed pipe : Bool)
  /-- another `File`, with its `size` and its `mode` -/
  | wrap (size : SizeAttr) (mode : Option Bytes) (inner : Wrapped)
deriving DecidableEq, Repr

/-- `bool(x)`.  `None` is false, `io` and `file` objects are true, a `File` is asked for its length
(`files/base.py:27-28`; Python 2 does not know `__bool__`). -/
def Wrapped.truth : Wrapped → Except Exc Bool
  | .nothing => .ok false
  | .io .. => .ok true
  | .file .. => .ok true
  | .wrap s _ _ =>
    match s with
    | .int n => if n < 0 then .error .valueError else .ok (n ≠ 0)
    | _ => .error .typeError

/-- `closed` (`files/utils.py:29-31`) of an object wrapped in a `File`: its own attribute, or the property if it is a
`File`. -/
def Wrapped.closed : Wrapped → Except Exc Bool
  | .nothing => .error .attributeError
  | .io c _ _ _ => .ok c
  | .file _ c _ => .ok c
  | .wrap _ _ x =>
    match x.truth with
    | .error e => .error e
    | .ok false => .ok true
    | .ok true => x.closed

/-- `readable()` (`files/utils.py:33-38`); the method of an `io` object that is closed raises `ValueError`. -/
def Wrapped.readable : Wrapped → Except Exc Bool
  | .nothing => .error .attributeError
  | .io c r _ _ => if c then .error .valueError else .ok r
  | .file .. => .error .attributeError
  | .wrap s m x =>
    match (Wrapped.wrap s m x).closed with
    | .error e => .error e
    | .ok true => .ok false
    | .ok false =>
      match x with
      | .file .. => .ok true
      | x => x.readable

/-- The attribute `mode`, if there is one (`files/base.py:15-16`). -/
def Wrapped.mode : Wrapped → Option Bytes
  | .nothing => none
  | .io .. => none
  | .file m _ _ => some m
  | .wrap _ m _ => m

/-- `writable()` (`files/utils.py:40-45`). -/
def Wrapped.writable : Wrapped → Except Exc Bool
  | .nothing => .error .attributeError
  | .io c _ w _ => if c then .error .valueError else .ok w
  | .file .. => .error .attributeError
  | .wrap s m x =>
    match (Wrapped.wrap s m x).closed with
    | .error e => .error e
    | .ok true => .ok false
    | .ok false =>
      match x with
      | .file md _ _ => .ok (md.contains 119)
      | x => x.writable

/-- `seekable()` (`files/utils.py:47-52`). -/
def Wrapped.seekable : Wrapped → Except Exc Bool
  | .nothing => .error .attributeError
  | .io c _ _ s => if c then .error .valueError else .ok s
  | .file .. => .error .attributeError
  | .wrap s m x =>
    match (Wrapped.wrap s m x).closed with
    | .error e => .error e
    | .ok true => .ok false
    | .ok false =>
      match x with
      | .file .. => .ok true
      | x => x.seekable

/-- `File(x)` and `UploadedFile(x, size=…)` (`files/base.py:10-16`, `files/uploadedfile.py:23-29`). -/
def Wrapped.mk (size : SizeAttr) (x : Wrapped) : Wrapped := .wrap size x.mode x

/-- `str(f)` (`files/base.py:18-19`) for a name that is a byte string. -/
def FileO.str (f : FileO) : Bytes := f.name.getD []

/-- `'%s' % name` for a name that may be `None`. -/
def nameText (n : Option Bytes) : Bytes := n.getD b!"None"

/-- The name of the class. -/
def FileCls.text : FileCls → Bytes
  | .plain => b!"File"
  | .temp => b!"TemporaryUploadedFile"
  | .memory => b!"InMemoryUploadedFile"

/-- `repr(f)` (`files/base.py:21-22`, `files/uploadedfile.py:31-32`).  The one of `File` asks for the truth value of
`self`; `ct` is `self.content_type`. -/
def FileO.repr (f : FileO) (ct : Option Bytes) : Except Exc Bytes :=
  match f.cls with
  | .plain =>
    match f.truth with
    | .error e => .error e
    | .ok t => .ok (b!"<" ++ f.cls.text ++ b!": " ++ (if t then f.str else b!"None") ++ b!">")
  | c => .ok (b!"<" ++ c.text ++ b!": " ++ nameText f.name ++ b!" (" ++ nameText ct ++ b!")>")

/-- `SimpleUploadedFile.from_dict(d)` (`files/uploadedfile.py:106-117`, `102-104`) for a dictionary whose values are
byte strings or `None`: the file and its `content_type`.  The arguments are evaluated in order, `content or b''`
replaces `None`, and the name goes through `_set_name`. -/
def fromDict (d : Bytes → Option (Option Bytes)) : Except Exc (FileO × Option Bytes) :=
  match d b!"filename" with
  | none => .error .keyError
  | some name =>
    match d b!"content" with
    | none => .error .keyError
    | some content =>
      .ok (simpleUploaded (name.map setName) (content.getD []),
        match d b!"content-type" with
        | none => some b!"text/plain"
        | some t => t)

/-! ## The temporary file class for Windows -/

/-- The state of `TemporaryFile` (`files/temp.py:37-41`): whether the file inside is closed, whether the file is
still in its directory, `close_called`, and how often `file.close()` and `os.unlink` were called. -/
structure WinTemp where
  fileClosed : Bool := false
  exists_ : Bool := true
  closeCalled : Bool := false
  closes : Nat := 0
  unlinks : Nat := 0
deriving DecidableEq, Repr

/-- `close()` (`files/temp.py:48-58`), also called by `__del__` (`files/temp.py:60-61`).  `okClose` and `okUnlink`
say whether `file.close()` and `os.unlink` succeed; their `OSError` or `IOError` is caught. -/
def WinTemp.close (okClose okUnlink : Bool) (t : WinTemp) : WinTemp :=
  if t.closeCalled then t
  else
    -- files/temp.py:51-54
    let t := { t with closeCalled := true, fileClosed := t.fileClosed || okClose, closes := t.closes + 1 }
    -- files/temp.py:55-58
    { t with exists_ := t.exists_ && !okUnlink, unlinks := t.unlinks + 1 }

/-- `__exit__` (`files/temp.py:67-68`): only the file inside is closed. -/
def WinTemp.exit (t : WinTemp) : WinTemp := { t with fileClosed := true }

end Verif
