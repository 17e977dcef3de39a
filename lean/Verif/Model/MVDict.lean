import Verif.Model.Exc
import Verif.Py.Dict
/-!
# `MultiValueDict`, `ImmutableMultiValueDict`, `QueryDict`
(`utils/datastructures.py:6-342`, `http/request.py:599-728`)

The dictionaries hold Python lists, which are mutable and can be shared, so lists and dictionaries
live in a memory and are known by their addresses.  `κ` is the type of keys, `α` the type of
values other than `None` and lists.

`__deepcopy__` is in `Model/DeepCopy.lean`, views and pickling are in `Model/Views.lean`, `__repr__` is in `Model/Repr.lean`.

Not modelled:
an `__eq__` of values that makes them equal to the empty list; values of the
underlying dictionary that are not lists (a constructor argument like `{'a': 'xyz'}`).
-/

namespace Verif

/-- A Python value: `None`, a list (by address), anything else. -/
inductive Val (α : Type) where
  | none
  | list (r : Nat)
  | atom (a : α)
  deriving DecidableEq, Repr

/-- The three classes. -/
inductive DCls where
  | plain | immutable | query
  deriving DecidableEq, Repr

/-- A dictionary object: its class, `_mutable`, and the underlying `dict` with the addresses of the
lists. -/
structure DObj (κ : Type) where
  cls : DCls := .plain
  mutable : Bool := false
  data : Dict κ Nat := []
  deriving DecidableEq, Repr

/-- All lists and dictionaries that exist. -/
structure Mem (κ α : Type) where
  lists : List (List (Val α)) := []
  dicts : List (DObj κ) := []
  deriving DecidableEq, Repr

/-- What `QueryDict` does with keys and values (`bytes_to_text`, `http/request.py:764-776`), and how
a value that is not a list is iterated over. -/
structure Conv (κ α : Type) where
  key : κ → Except Exc κ
  val : Val α → Except Exc (Val α)
  iter : α → Except Exc (List (Val α))

/-- The optional positional argument of `update`. -/
inductive UpdArg (κ α : Type) where
  | absent
  | mvd (j : Nat)
  | mapping (items : List (κ × Val α))
  | other

namespace Mem
variable {κ α : Type} [DecidableEq κ]

/-- A new list. -/
def alloc (m : Mem κ α) (xs : List (Val α)) : Nat × Mem κ α :=
  (m.lists.length, { m with lists := m.lists ++ [xs] })

/-- The elements of a list. -/
def elems (m : Mem κ α) (r : Nat) : List (Val α) := (m.lists[r]?).getD []

/-- Replace the elements of a list (any mutation of it). -/
def write (m : Mem κ α) (r : Nat) (xs : List (Val α)) : Mem κ α :=
  { m with lists := m.lists.set r xs }

/-- The object at an address. -/
def obj (m : Mem κ α) (i : Nat) : DObj κ := (m.dicts[i]?).getD {}

/-- Its underlying dictionary. -/
def dict (m : Mem κ α) (i : Nat) : Dict κ Nat := (m.obj i).data

/-- Replace the underlying dictionary. -/
def setDict (m : Mem κ α) (i : Nat) (d : Dict κ Nat) : Mem κ α :=
  { m with dicts := m.dicts.set i { m.obj i with data := d } }

/-- `dict.__setitem__(self, key, [..])` with a new list. -/
def put (m : Mem κ α) (i : Nat) (k : κ) (xs : List (Val α)) : Mem κ α :=
  let (r, m) := m.alloc xs
  m.setDict i ((m.dict i).set k r)

/-- `_assert_mutable` (`utils/datastructures.py:286-288`, `http/request.py:667-669`);
`MultiValueDict` itself has no such check. -/
def assertMutable (m : Mem κ α) (i : Nat) : Except Exc Unit :=
  match (m.obj i).cls with
  | .plain => .ok ()
  | _ => if (m.obj i).mutable then .ok () else .error .attributeError

/-- `key in self`. -/
def contains (m : Mem κ α) (i : Nat) (k : κ) : Bool := ((m.dict i).get? k).isSome

/-- `__getitem__` (`utils/datastructures.py:37-49`). -/
def getItem (i : Nat) (k : κ) (m : Mem κ α) : Res (Mem κ α) (Val α) :=
  match (m.dict i).get? k with
  | none => (.error .multiValueDictKeyError, m)
  | some r =>
    match (m.elems r).getLast? with
    | some v => (.ok v, m)
    | none => let (r, m) := m.alloc []; (.ok (.list r), m)

/-- `val == []`. -/
def isEmptyList (m : Mem κ α) : Val α → Bool
  | .list r => (m.elems r).isEmpty
  | _ => false

/-- `get` (`utils/datastructures.py:94-105`). -/
def get (i : Nat) (k : κ) (dflt : Val α) (m : Mem κ α) : Res (Mem κ α) (Val α) :=
  match getItem i k m with
  | (.error .multiValueDictKeyError, m) => (.ok dflt, m)
  | (.error e, m) => (.error e, m)
  | (.ok v, m) => if m.isEmptyList v then (.ok dflt, m) else (.ok v, m)

/-- `_getlist` without copying (`utils/datastructures.py:107-124`), default `None`. -/
def getListLive (i : Nat) (k : κ) (m : Mem κ α) : Res (Mem κ α) (Val α) :=
  match (m.dict i).get? k with
  | some r => (.ok (.list r), m)
  | none => let (r, m) := m.alloc []; (.ok (.list r), m)

/-- `getlist` (`utils/datastructures.py:126-131`): a copy of the list. -/
def getList (i : Nat) (k : κ) (dflt : Val α) (m : Mem κ α) : Res (Mem κ α) (Val α) :=
  match (m.dict i).get? k with
  | some r => let (r, m) := m.alloc (m.elems r); (.ok (.list r), m)
  | none =>
    match dflt with
    | .none => let (r, m) := m.alloc []; (.ok (.list r), m)
    | v => (.ok v, m)

/-- `__setitem__` (`utils/datastructures.py:51-53`, `:290-293`, `http/request.py:671-675`).  The
immutable class wraps the value twice. -/
def setItem (C : Conv κ α) (i : Nat) (k : κ) (v : Val α) (m : Mem κ α) : Res (Mem κ α) Unit :=
  match (m.obj i).cls with
  | .plain => (.ok (), m.put i k [v])
  | .immutable =>
    match m.assertMutable i with
    | .error e => (.error e, m)
    | .ok () => let (r, m) := m.alloc [v]; (.ok (), m.put i k [.list r])
  | .query =>
    match m.assertMutable i with
    | .error e => (.error e, m)
    | .ok () =>
      match C.key k with
      | .error e => (.error e, m)
      | .ok k =>
        match C.val v with
        | .error e => (.error e, m)
        | .ok v => (.ok (), m.put i k [v])

/-- `__delitem__` (`utils/datastructures.py:295-297`, `http/request.py:677-679`). -/
def delItem (i : Nat) (k : κ) (m : Mem κ α) : Res (Mem κ α) Unit :=
  match m.assertMutable i with
  | .error e => (.error e, m)
  | .ok () => if m.contains i k then (.ok (), m.setDict i ((m.dict i).erase k)) else (.error .keyError, m)

/-- `MultiValueDict.setlist` (`utils/datastructures.py:133-145`). -/
def setListBase (i : Nat) (k : κ) (p : Val α) (m : Mem κ α) : Mem κ α :=
  match p with
  | .none => m.put i k []
  | .list r => m.put i k (m.elems r)
  | .atom a => m.put i k [.atom a]

/-- `[bytes_to_text(elt, self.encoding) for elt in list_]`. -/
def convAll (C : Conv κ α) : List (Val α) → Except Exc (List (Val α))
  | [] => .ok []
  | v :: vs =>
    match C.val v with
    | .error e => .error e
    | .ok v =>
      match convAll C vs with
      | .error e => .error e
      | .ok vs => .ok (v :: vs)

/-- `setlist` (`utils/datastructures.py:133-145`, `:312-318`, `http/request.py:694-698`). -/
def setList (C : Conv κ α) (i : Nat) (k : κ) (p : Val α) (m : Mem κ α) : Res (Mem κ α) Unit :=
  match (m.obj i).cls with
  | .plain => (.ok (), m.setListBase i k p)
  | .immutable =>
    match m.assertMutable i with
    | .error e => (.error e, m)
    | .ok () => (.ok (), m.setListBase i k p)
  | .query =>
    match m.assertMutable i with
    | .error e => (.error e, m)
    | .ok () =>
      match C.key k with
      | .error e => (.error e, m)
      | .ok k =>
        match (match p with
          | .none => .error .typeError
          | .list r => .ok (m.elems r)
          | .atom a => C.iter a : Except Exc (List (Val α))) with
        | .error e => (.error e, m)
        | .ok vs =>
          match convAll C vs with
          | .error e => (.error e, m)
          | .ok vs => (.ok (), m.put i k vs)

/-- `if key not in self: ... self.setlist(key, default_list)` (`utils/datastructures.py:161-164`). -/
def ensureList (C : Conv κ α) (i : Nat) (k : κ) (p : Val α) (m : Mem κ α) : Res (Mem κ α) Unit :=
  if m.contains i k then (.ok (), m)
  else
    match p with
    | .none => let (r, m) := m.alloc []; setList C i k (.list r) m
    | p => setList C i k p m

/-- `setlistdefault` (`utils/datastructures.py:157-167`, `:327-332`, `http/request.py:700-702`);
the immutable class returns `None`. -/
def setListDefault (C : Conv κ α) (i : Nat) (k : κ) (p : Val α) (m : Mem κ α) : Res (Mem κ α) (Val α) :=
  match m.assertMutable i with
  | .error e => (.error e, m)
  | .ok () =>
    match ensureList C i k p m with
    | (.error e, m) => (.error e, m)
    | (.ok (), m) =>
      match getListLive i k m with
      | (.error e, m) => (.error e, m)
      | (.ok v, m) => (.ok (if (m.obj i).cls = .immutable then .none else v), m)

/-- `x.append(v)` for the result of `setlistdefault`. -/
def appendTo (x : Val α) (v : Val α) (m : Mem κ α) : Res (Mem κ α) Unit :=
  match x with
  | .list r => (.ok (), m.write r (m.elems r ++ [v]))
  | _ => (.error .attributeError, m)

/-- `self.setlistdefault(key).append(value)`. -/
def appendBase (C : Conv κ α) (i : Nat) (k : κ) (v : Val α) (m : Mem κ α) : Res (Mem κ α) Unit :=
  match setListDefault C i k .none m with
  | (.error e, m) => (.error e, m)
  | (.ok x, m) => appendTo x v m

/-- `appendlist` (`utils/datastructures.py:169-171`, `:334-337`, `http/request.py:704-708`). -/
def appendList (C : Conv κ α) (i : Nat) (k : κ) (v : Val α) (m : Mem κ α) : Res (Mem κ α) Unit :=
  match m.assertMutable i with
  | .error e => (.error e, m)
  | .ok () =>
    if (m.obj i).cls = .query then
      match C.key k with
      | .error e => (.error e, m)
      | .ok k =>
        match C.val v with
        | .error e => (.error e, m)
        | .ok v => appendBase C i k v m
    else appendBase C i k v m

/-- `if key not in self: self[key] = default; return self[key]` (`utils/datastructures.py:151-155`). -/
def setDefaultBase (C : Conv κ α) (i : Nat) (k : κ) (v : Val α) (m : Mem κ α) : Res (Mem κ α) (Val α) :=
  match (if m.contains i k then (.ok (), m) else setItem C i k v m) with
  | (.error e, m) => (.error e, m)
  | (.ok (), m) =>
    match getItem i k m with
    | (.error e, m) => (.error e, m)
    | (.ok v, m) => (.ok (if (m.obj i).cls = .immutable then .none else v), m)

/-- `setdefault` (`utils/datastructures.py:147-155`, `:320-325`, `http/request.py:722-726`). -/
def setDefault (C : Conv κ α) (i : Nat) (k : κ) (v : Val α) (m : Mem κ α) : Res (Mem κ α) (Val α) :=
  match m.assertMutable i with
  | .error e => (.error e, m)
  | .ok () =>
    if (m.obj i).cls = .query then
      match C.key k with
      | .error e => (.error e, m)
      | .ok k =>
        match C.val v with
        | .error e => (.error e, m)
        | .ok v => setDefaultBase C i k v m
    else setDefaultBase C i k v m

/-- `pop` (`dict.pop`; `http/request.py:710-712`): returns the list itself.  `ImmutableMultiValueDict`
does not override it. -/
def pop (i : Nat) (k : κ) (dflt : Option (Val α)) (m : Mem κ α) : Res (Mem κ α) (Val α) :=
  match (if (m.obj i).cls = .query then m.assertMutable i else .ok ()) with
  | .error e => (.error e, m)
  | .ok () =>
    match (m.dict i).get? k with
    | some r => (.ok (.list r), m.setDict i ((m.dict i).erase k))
    | none =>
      match dflt with
      | some v => (.ok v, m)
      | none => (.error .keyError, m)

/-- `popitem` (`dict.popitem`; `http/request.py:714-716`): removes some pair, here the `n`-th
(modulo the size); Python does not say which. -/
def popItem (i n : Nat) (m : Mem κ α) : Res (Mem κ α) (κ × Val α) :=
  match (if (m.obj i).cls = .query then m.assertMutable i else .ok ()) with
  | .error e => (.error e, m)
  | .ok () =>
    match (m.dict i)[n % (m.dict i).length]? with
    | some (k, r) => (.ok (k, .list r), m.setDict i ((m.dict i).erase k))
    | none => (.error .keyError, m)

/-- `clear` (`dict.clear`; `http/request.py:718-720`). -/
def clear (i : Nat) (m : Mem κ α) : Res (Mem κ α) Unit :=
  match (if (m.obj i).cls = .query then m.assertMutable i else .ok ()) with
  | .error e => (.error e, m)
  | .ok () => (.ok (), m.setDict i [])

/-- `for key, value in ...: self.setlistdefault(key).append(value)`. -/
def appendAll (C : Conv κ α) (i : Nat) : List (κ × Val α) → Mem κ α → Res (Mem κ α) Unit
  | [], m => (.ok (), m)
  | (k, v) :: items, m =>
    match appendBase C i k v m with
    | (.error e, m) => (.error e, m)
    | (.ok (), m) => appendAll C i items m

/-- `for key, value_list in other.lists(): self.setlistdefault(key).extend(value_list)`. -/
def extendAll (C : Conv κ α) (i : Nat) : Dict κ Nat → Mem κ α → Res (Mem κ α) Unit
  | [], m => (.ok (), m)
  | (k, r') :: items, m =>
    match setListDefault C i k .none m with
    | (.error e, m) => (.error e, m)
    | (.ok (.list r), m) => extendAll C i items (m.write r (m.elems r ++ m.elems r'))
    | (.ok _, m) => (.error .attributeError, m)

/-- The positional argument of `update` (`utils/datastructures.py:201-222`). -/
def updateArg (C : Conv κ α) (i : Nat) (arg : UpdArg κ α) (m : Mem κ α) : Res (Mem κ α) Unit :=
  match arg with
  | .absent => (.ok (), m)
  | .mvd j => extendAll C i (m.dict j) m
  | .mapping items =>
    match appendAll C i items m with
    | (.error .typeError, m) => (.error .valueError, m)
    | r => r
  | .other => (.error .attributeError, m)

/-- `update` (`utils/datastructures.py:194-228`, `:339-342`).  `ImmutableMultiValueDict.update` passes
its two arguments on as two positional ones, which is a `TypeError`.  A `TypeError` inside the loop
over a mapping becomes a `ValueError`. -/
def update (C : Conv κ α) (i : Nat) (arg : UpdArg κ α) (kwargs : List (κ × Val α)) (m : Mem κ α) :
    Res (Mem κ α) Unit :=
  if (m.obj i).cls = .immutable then
    match m.assertMutable i with
    | .error e => (.error e, m)
    | .ok () => (.error .typeError, m)
  else
    match updateArg C i arg m with
    | (.error e, m) => (.error e, m)
    | (.ok (), m) => appendAll C i kwargs m

/-- A new empty dictionary (`utils/datastructures.py:31-32`, `:283-284`). -/
def newDict (m : Mem κ α) (cls : DCls) (mutable : Bool := false) : Mem κ α :=
  { m with dicts := m.dicts ++ [{ cls := cls, mutable := mutable }] }

/-- `[(k, v[:]) for k, v in self.lists()]` put into the new dictionary `c`. -/
def copyItems (c : Nat) : Dict κ Nat → Mem κ α → Mem κ α
  | [], m => m
  | (k, r) :: t, m => copyItems c t (m.put c k (m.elems r))

/-- `copy` / `__copy__` (`utils/datastructures.py:55-61`, `:190-192`): a new dictionary of the same
class with copies of the lists.  `QueryDict` (`http/request.py:681-692`, `:728-730`) calls its
constructor with `''` for the settings, and `''.DEFAULT_CHARSET` is an `AttributeError`. -/
def copy (i : Nat) (m : Mem κ α) : Res (Mem κ α) Nat :=
  if (m.obj i).cls = .query then (.error .attributeError, m)
  else (.ok m.dicts.length, copyItems m.dicts.length (m.dict i) (m.newDict (m.obj i).cls))

end Mem

end Verif
