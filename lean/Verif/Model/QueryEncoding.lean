import Verif.Model.Query
import Verif.Spec.MVDict
/-!
# The attribute `encoding` of a `QueryDict` (`http/request.py:619-642`, `657-665`)

The conversions of the methods are those of `queryConv` (`Model/Query.lean`) with the encoding that the attribute
has when the method is called.
-/

namespace Verif

/-- One `QueryDict`: the attribute `_encoding`, the attribute `DEFAULT_CHARSET` of the settings object that it
keeps, and the memory its contents are in. -/
structure QWorld where
  enc : Option Bytes
  dflt : Bytes
  mem : Mem PyStr PyStr

/-- The property `encoding` (`http/request.py:657-661`). -/
def QWorld.encoding (w : QWorld) : Bytes × QWorld :=
  match w.enc with
  | none => (w.dflt, { w with enc := some w.dflt })
  | some e => (e, w)

/-- Assigning to `encoding` (`http/request.py:663-665`). -/
def QWorld.setEncoding (e : Option Bytes) (w : QWorld) : QWorld := { w with enc := e }

/-- What is given as `settings` to `QueryDict(…)`: a settings object, or something without `DEFAULT_CHARSET`. -/
inductive QSettings where
  | settings (S : Settings)
  | other

/-- `QueryDict(settings, query_string, mutable, encoding)` (`http/request.py:619-642`).  The argument `encoding` is
not used; `self.settings.DEFAULT_CHARSET` is read first. -/
def initQueryDict (C : Codecs) (S : QSettings) (qs : Option PyStr) (mutable : Bool) (_encoding : Option Bytes)
    (m : Mem PyStr PyStr) : Except Exc (Nat × QWorld) :=
  match S with
  | .other => .error .attributeError
  | .settings S =>
    match newQueryDict C S qs mutable m with
    | (.error e, _) => .error e
    | (.ok i, m) => .ok (i, ({ enc := none, dflt := S.defaultCharset, mem := m } : QWorld).setEncoding (some S.defaultCharset))

/-- `for key in iterable: q.appendlist(key, value)` (`http/request.py:651-652`). -/
def appendKeys (C : Codecs) (i : Nat) (value : Val PyStr) : List PyStr → QWorld → Res QWorld Unit
  | [], w => (.ok (), w)
  | k :: ks, w =>
    match w.encoding with
    | (e, w) =>
      match w.mem.appendList (queryConv C e) i k value with
      | (.error x, m) => (.error x, { w with mem := m })
      | (.ok (), m) => appendKeys C i value ks { w with mem := m }

/-- `fromkeys` (`http/request.py:644-655`): the first argument of `cls('', mutable=True, encoding=encoding)` is the
parameter `settings`. -/
def fromKeys (C : Codecs) (keys : List PyStr) (value : Val PyStr) (mutable : Bool) (encoding : Option Bytes)
    (m : Mem PyStr PyStr) : Except Exc (Nat × QWorld) :=
  match initQueryDict C .other none true encoding m with
  | .error e => .error e
  | .ok (i, w) =>
    match appendKeys C i value keys w with
    | (.error e, _) => .error e
    | (.ok (), w) => .ok (i, if mutable then w else { w with mem := w.mem.setMutable i false })

/-- What can happen to a `QueryDict`. -/
inductive QEvent where
  /-- `q.encoding = e` -/
  | assign (e : Option Bytes)
  /-- `settings.DEFAULT_CHARSET = e` -/
  | default (e : Bytes)
  /-- `q.encoding` is read; also by `urlencode`. -/
  | read
  /-- a method is called -/
  | call (c : Spec.Call PyStr PyStr)

/-- The keys that `update` goes through (`utils/datastructures.py:201-228`); an argument that is no dictionary raises
`AttributeError` before the named arguments are looked at. -/
def updKeys (m : Mem PyStr PyStr) : UpdArg PyStr PyStr → List (PyStr × Val PyStr) → List PyStr
  | .absent, kw => kw.map Prod.fst
  | .mvd j, kw => (m.dict j).keys ++ kw.map Prod.fst
  | .mapping items, kw => items.map Prod.fst ++ kw.map Prod.fst
  | .other, _ => []

/-- Whether a method looks at `encoding` when the dictionary is mutable (`http/request.py:671-675`, `696-700`,
`704-708`, `722-726`): `__setitem__`, `setlist`, `appendlist` and `setdefault` do; `setlistdefault`
(`utils/datastructures.py:157-167`) does if the key is absent, when it calls `setlist`; `update` (`194-228`) calls
`setlistdefault` for each key, and the first absent one decides.  `converts_iff` says that this is when the conversions
matter. -/
def converts (m : Mem PyStr PyStr) (i : Nat) : Spec.Call PyStr PyStr → Bool
  | .set .. => true
  | .setlist .. => true
  | .append .. => true
  | .setdefault .. => true
  | .setlistdefault k _ => !m.contains i k
  | .update arg kw => (updKeys m arg kw).any fun k => !m.contains i k
  | _ => false

/-- One event in the life of the dictionary `i`.  The encoding does not change during a call. -/
def QWorld.step (C : Codecs) (i : Nat) (w : QWorld) : QEvent → QWorld
  | .assign e => w.setEncoding e
  | .default d => { w with dflt := d }
  | .read => w.encoding.2
  | .call c =>
    if converts w.mem i c = true ∧ (w.mem.obj i).mutable = true then
      { w.encoding.2 with mem := (w.mem.call (queryConv C w.encoding.1) i c).2 }
    else { w with mem := (w.mem.call (queryConv C w.dflt) i c).2 }

/-- A life. -/
def QWorld.run (C : Codecs) (i : Nat) (es : List QEvent) (w : QWorld) : QWorld := es.foldl (QWorld.step C i) w

end Verif
