import Verif.Model.MVDict
/-!
# The views of a `MultiValueDict` and its pickling (`utils/datastructures.py:78-92`, `:173-188`, `:230-232`)

The generators are run to their end with nothing in between.  Keys are visited in the order of the model's
dictionaries (Python 2 leaves the order open).
-/

namespace Verif
namespace Mem
variable {κ α : Type} [DecidableEq κ]

/-- `[(key, self[key]) for key in keys]`. -/
def itemsLoop (i : Nat) : List κ → Mem κ α → Res (Mem κ α) (List (κ × Val α))
  | [], m => (.ok [], m)
  | k :: ks, m =>
    match getItem i k m with
    | (.error e, m) => (.error e, m)
    | (.ok v, m) =>
      match itemsLoop i ks m with
      | (.error e, m) => (.error e, m)
      | (.ok l, m) => (.ok ((k, v) :: l), m)

/-- `list(self.items())` (`utils/datastructures.py:173-179`). -/
def items (i : Nat) (m : Mem κ α) : Res (Mem κ α) (List (κ × Val α)) := itemsLoop i (m.dict i).keys m

/-- `list(self.values())` (`utils/datastructures.py:185-188`). -/
def values (i : Nat) (m : Mem κ α) : Res (Mem κ α) (List (Val α)) :=
  match items i m with
  | (.error e, m) => (.error e, m)
  | (.ok l, m) => (.ok (l.map Prod.snd), m)

/-- `list(self.lists())` (`utils/datastructures.py:181-183`): the lists themselves, not copies. -/
def listsOf (i : Nat) (m : Mem κ α) : List (κ × Val α) := (m.dict i).map fun p => (p.1, .list p.2)

/-- `dict()` (`utils/datastructures.py:230-232`). -/
def asDict (i : Nat) (m : Mem κ α) : Res (Mem κ α) (Dict κ (Val α)) :=
  match items i m with
  | (.error e, m) => (.error e, m)
  | (.ok l, m) => (.ok (l.foldl (fun d p => d.set p.1 p.2) []), m)

/-- `__getstate__` (`utils/datastructures.py:78-81`): `{self.__dict__, {...}}` is a set of two dictionaries, which
cannot be hashed.  (The lists looked up before are not kept.) -/
def getState (_ : Nat) (m : Mem κ α) : Res (Mem κ α) Unit := (.error .typeError, m)

/-- `for k, v in data.items(): self.setlist(k, v)`. -/
def setAll (C : Conv κ α) (i : Nat) : List (κ × Val α) → Mem κ α → Res (Mem κ α) Unit
  | [], m => (.ok (), m)
  | (k, v) :: l, m =>
    match setList C i k v m with
    | (.error e, m) => (.error e, m)
    | (.ok (), m) => setAll C i l m

/-- `__setstate__` (`utils/datastructures.py:83-92`).  Of the attributes in `obj_dict` only `_mutable` is in the
model. -/
def setState (C : Conv κ α) (i : Nat) (data : List (κ × Val α)) (mutable : Option Bool) (m : Mem κ α) :
    Res (Mem κ α) Unit :=
  match setAll C i data m with
  | (.error e, m) => (.error e, m)
  | (.ok (), m) =>
    match mutable with
    | none => (.ok (), m)
    | some b => (.ok (), { m with dicts := m.dicts.set i { m.obj i with mutable := b } })

end Mem
end Verif
