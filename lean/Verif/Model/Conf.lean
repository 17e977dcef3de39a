import Verif.Model.Exc
import Verif.Py.Dict
/-!
# Building settings (`conf/settings.py`, `files/utils.py:57-80`)
-/

namespace Verif

/-! ### Paths (library, POSIX) -/

/-- `'/'.join(parts)`. -/
def joinSlash : List Bytes → Bytes
  | [] => []
  | [p] => p
  | p :: ps => p ++ [47] ++ joinSlash ps

/-- `os.path.isabs`. -/
def isAbs (p : Bytes) : Bool := Py.startsWith [47] p

/-- `os.path.join(a, b)`. -/
def pathJoin (a b : Bytes) : Bytes :=
  if Py.startsWith [47] b then b
  else if a = [] ∨ Py.endsWith [47] a then a ++ b
  else a ++ [47] ++ b

/-- The initial slashes `os.path.normpath` keeps: one, or exactly two. -/
def initialSlashes (p : Bytes) : Bytes :=
  if Py.startsWith [47] p then
    if Py.startsWith [47, 47] p && !Py.startsWith [47, 47, 47] p then [47, 47] else [47]
  else []

/-- The loop of `os.path.normpath` over the components; `acc` is `new_comps` reversed. -/
def normLoop (rooted : Bool) : List Bytes → List Bytes → List Bytes
  | acc, [] => acc.reverse
  | acc, c :: cs =>
    if c = [] ∨ c = b!"." then normLoop rooted acc cs
    else if c ≠ b!".." ∨ (rooted = false ∧ acc = []) ∨ acc.head? = some b!".." then
      normLoop rooted (c :: acc) cs
    else normLoop rooted acc.tail cs

/-- `os.path.normpath`. -/
def normpath (p : Bytes) : Bytes :=
  if p = [] then b!"."
  else
    let r := initialSlashes p ++ joinSlash (normLoop (Py.startsWith [47] p) [] (Py.splitChar 47 p))
    if r = [] then b!"." else r

/-! ### The settings -/

/-- Values found in a settings dictionary. -/
inductive PyVal where
  | str (s : Bytes)
  | int (i : Int)
  | none
  /-- any other object -/
  | other (n : Nat)
deriving DecidableEq, Repr

/-- The file system as `_check_upload_dir` uses it.  Simplification: `touch` is opening, writing,
closing and removing the test file (`conf/settings.py:138-142`). -/
structure Fs where
  isdir : Bytes → Bool
  mkdir : Bytes → Except Exc Unit
  touch : Bytes → Except Exc Unit
  /-- the directory of the package, as `get_abs_path` computes it (`files/utils.py:67-71`) -/
  base : Bytes

/-- `get_abs_path(dir)` (`files/utils.py:57-80`). -/
def getAbsPath (fs : Fs) (dir : Bytes) : Bytes :=
  normpath (pathJoin (pathJoin fs.base dir) [])

/-- The part of `_check_upload_dir` that finds the path (`conf/settings.py:121-129`). -/
def uploadPath (fs : Fs) (dir : Bytes) : Bytes :=
  let d := normpath dir
  if !isAbs d || !fs.isdir d then getAbsPath fs d else d

/-- `_check_upload_dir` (`conf/settings.py:117-149`).  `normpath` of something that is not a string
raises `AttributeError`.  Only `IOError` becomes `InvalidDirectory`. -/
def checkUploadDir (fs : Fs) (dir : PyVal) (check : Bool) : Except Exc PyVal :=
  match dir with
  | .str dir =>
    let d := uploadPath fs dir
    if check then
      let made : Except Exc Unit := if fs.isdir d then .ok () else fs.mkdir d
      let tried : Except Exc Unit := match made with
        | .error e => .error e
        | .ok () => fs.touch (pathJoin d b!"acdr423x.tmp")
      match tried with
      | .error .ioError => .error .invalidDirectory
      | .error e => .error e
      | .ok () => .ok (.str d)
    else .ok (.str d)
  | _ => .error .attributeError

/-- The attributes of a `Settings` object; `none` is a missing attribute. -/
structure SettingsObj where
  fileUploadTempDir : Option PyVal := none
  maxHeaderSize : Option PyVal := none
  fileUploadMaxMemorySize : Option PyVal := none
  dataUploadMaxMemorySize : Option PyVal := none
  dataUploadMaxNumberFields : Option PyVal := none
  defaultCharset : Option PyVal := none
deriving DecidableEq, Repr

/-- `Settings.default` (`conf/settings.py:85-115`). -/
def settingsDefault (fs : Fs) (check : Bool) : Except Exc SettingsObj :=
  match checkUploadDir fs (.str (pathJoin b!"files" b!"file_uploads")) check with
  | .error e => .error e
  | .ok d => .ok {
      fileUploadTempDir := some d
      maxHeaderSize := some (.int 16)
      fileUploadMaxMemorySize := some (.int (30 * (2 ^ 10 * 2 ^ 10)))
      dataUploadMaxMemorySize := some (.int (5 * (2 ^ 10 * 2 ^ 10)))
      dataUploadMaxNumberFields := some (.int 4096)
      defaultCharset := some (.str b!"ISO-8859-1") }

/-- The argument of `Settings(...)`: a `dict`, or anything else (`None`, an instance of a subclass, …). -/
inductive SettingsArg where
  | dict (d : Dict Bytes PyVal)
  | other

/-- `settings_dict[key] if key in settings_dict else default`. -/
def pick (d : Dict Bytes PyVal) (key : Bytes) (dflt : Option PyVal) : Option PyVal :=
  match d.get? key with
  | some v => some v
  | none => dflt

/-- `Settings.__init__` (`conf/settings.py:42-83`). -/
def settingsInit (fs : Fs) (arg : SettingsArg) (check : Bool) : Except Exc SettingsObj :=
  match arg with
  | .other => .ok {}
  | .dict d =>
    if d = [] then .ok {}
    else
      match settingsDefault fs check with
      | .error e => .error e
      | .ok s =>
        let dir : Except Exc (Option PyVal) :=
          match d.get? b!"FILE_UPLOAD_TEMP_DIR" with
          | some v =>
            match checkUploadDir fs v true with
            | .error e => .error e
            | .ok v => .ok (some v)
          | none => .ok s.fileUploadTempDir
        match dir with
        | .error e => .error e
        | .ok dir => .ok {
            fileUploadTempDir := dir
            maxHeaderSize := pick d b!"MAX_HEADER_SIZE" s.maxHeaderSize
            fileUploadMaxMemorySize := pick d b!"FILE_UPLOAD_MAX_MEMORY" s.fileUploadMaxMemorySize
            dataUploadMaxMemorySize := pick d b!"DATA_UPLOAD_MAX_MEMORY" s.dataUploadMaxMemorySize
            dataUploadMaxNumberFields := pick d b!"DATA_UPLOAD_MAX_FIELDS" s.dataUploadMaxNumberFields
            defaultCharset := pick d b!"DEFAULT_CHARSET" s.defaultCharset }

end Verif
