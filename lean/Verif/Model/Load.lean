import Verif.Model.Request
import Verif.Model.Handlers
import Verif.Model.Conf
/-!
# Loading upload handlers by name (`utils/module_loading.py`, `files/uploadhandler.py:265-275`)
-/

namespace Verif

/-- The importable modules: `import_module(path)` either raises or gives a module, by its attributes.
`α` is the type of attribute values. -/
abbrev Modules (α : Type) := Bytes → Except Exc (Bytes → Option α)

/-- `import_string` (`utils/module_loading.py:9-30`).  The two `except` branches end in
`six.reraise("...", err)`: raising a `str` is itself a `TypeError` in Python 2.7. -/
def importString {α : Type} (mods : Modules α) (path : Bytes) : Except Exc α :=
  match Py.rfindChar 46 path with
  | none => .error .typeError
  | some i =>
    match mods (path.take i) with
    | .error e => .error e
    | .ok attrs =>
      match attrs (path.drop (i + 1)) with
      | none => .error .typeError
      | some v => .ok v

/-- `load_handler(path, request)` (`files/uploadhandler.py:265-275`).  An attribute is represented by what
calling it with the request gives. -/
def loadHandler {α : Type} (mods : Modules (Except Exc α)) (path : Bytes) : Except Exc α :=
  match importString mods path with
  | .error e => .error e
  | .ok call => call

/-- `_initialize_handlers` (`http/request.py:322-328`): the handlers in order, or the first exception. -/
def loadHandlers {α : Type} (mods : Modules (Except Exc α)) : List Bytes → Except Exc (List α)
  | [] => .ok []
  | p :: ps =>
    match loadHandler mods p with
    | .error e => .error e
    | .ok h =>
      match loadHandlers mods ps with
      | .error e => .error e
      | .ok hs => .ok (h :: hs)

/-- The default `FILE_UPLOAD_HANDLERS` (`conf/settings.py:31-40`). -/
def defaultHandlers : List Bytes := [b!"request_parser.files.uploadhandler.ConvenientFileUploadHandler"]

/-- The handler classes of `files/uploadhandler.py`, by what calling them gives (lines 125, 153 and 211-215;
the constructor of the base class only keeps the request, lines 60-67). -/
def uploadhandlerModule (name : Bytes) : Option (Except Exc Builtin) :=
  if name = b!"MemoryFileUploadHandler" then some (.ok (.memory {}))
  else if name = b!"TemporaryFileUploadHandler" then some (.ok (.temp {}))
  else if name = b!"ConvenientFileUploadHandler" then some (.ok (.conv {}))
  else none

/-- The environment of a request whose `FILE_UPLOAD_HANDLERS` are `names`. -/
def namedEnv (ρ : Type) (C : Codecs) (up : List UStr) (os : Os) (mods : Modules (Except Exc Builtin))
    (names : List Bytes) (fuel64 : Nat) : Env ρ BWorld Uploaded where
  C := C
  up := up
  load w :=
    match loadHandlers mods names with
    | .error e => (.error e, w)
    | .ok hs => (.ok (builtinOps ρ os hs.length), { w with hs := hs })
  fuel64 := fuel64

/-- What the parser reads from a `Settings` object; `none` if an attribute is missing or not of the expected
kind. -/
def SettingsObj.read (s : SettingsObj) : Option Settings :=
  match s.fileUploadTempDir, s.maxHeaderSize, s.fileUploadMaxMemorySize, s.dataUploadMaxMemorySize,
      s.dataUploadMaxNumberFields, s.defaultCharset with
  | some (.str d), some (.int h), some (.int f), some mem, some fields, some (.str c) =>
    let opt : PyVal → Option (Option Int)
      | .int n => some (some n)
      | .none => some none
      | _ => none
    match opt mem, opt fields with
    | some mem, some fields => some
        { fileUploadTempDir := d, maxHeaderSize := h, fileMaxMemory := f, dataMaxMemory := mem,
          maxFields := fields, defaultCharset := c }
    | _, _ => none
  | _, _, _, _, _, _ => none

end Verif
