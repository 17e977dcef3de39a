import Verif.Model.Load
import Verif.Model.FileObj
/-!
# `module_has_submodule`, `module_dir` (`utils/module_loading.py:68-104`), `ContentFile`
(`files/base.py:120-144`) and `DjangoUnicodeDecodeError` (`utils/encoding.py:11-17`)
-/

namespace Verif

/-- What of a module object is looked at: `__name__`, `__path__` (packages only) and `__file__`. -/
structure PyModule where
  name : Bytes
  path : Option (List Bytes) := none
  file : Option Bytes := none
  deriving DecidableEq, Repr

/-- `os.path.dirname(p)` (POSIX): up to the last slash, without slashes at the end unless there is nothing
else. -/
def Py.dirname (p : Bytes) : Bytes :=
  match Py.rfindChar 47 p with
  | none => []
  | some i =>
    let head := p.take (i + 1)
    if head.all (· = 47) then head else (head.reverse.dropWhile (· = 47)).reverse

/-- `module_dir` (`utils/module_loading.py:88-104`). -/
def moduleDir (m : PyModule) : Except Exc Bytes :=
  match m.path.getD [] with
  | [p] => .ok p
  | _ =>
    match m.file with
    | some f => .ok (Py.dirname f)
    | none => .error .valueError

/-- The file system as `imp.find_module` looks at it: is there a module file, with one of the suffixes
(`.py`, `.pyc`, `.so`, `module.so`), or a directory with an `__init__`, of this name in this directory? -/
abbrev ModuleFiles := (dir name : Bytes) → Bool

/-- `imp.find_module(name, path)` (library, Python 2): the directories are searched for the name as it is,
dots included; `ImportError` if nothing is found. -/
def findModule (fs : ModuleFiles) (name : Bytes) (path : List Bytes) : Except Exc Unit :=
  if path.any (fun d => fs d name) then .ok () else .error .importError

/-- `module_has_submodule` (`utils/module_loading.py:68-85`).  `find_module` never returns `None`. -/
def moduleHasSubmodule (fs : ModuleFiles) (p : PyModule) (name : Bytes) : Bool :=
  match p.path with
  | none => false
  | some path =>
    match findModule fs (p.name ++ [46] ++ name) path with
    | .ok () => true
    | .error _ => false

/-- `ContentFile(content, name)` (`files/base.py:124-127`): `super()` without arguments is a `TypeError` in
Python 2, whatever is passed.  (`StringIO(content)` of `io` with a `str` is a `TypeError` before that.)  So
there are no such objects, and the methods of lines 129-144 are never called. -/
def contentFile (_content : PyStr) (_name : Option Bytes) : Except Exc FileO := .error .typeError

end Verif
