import Verif.Model.MVDict
/-!
# `copy.deepcopy` of a `MultiValueDict` (`utils/datastructures.py:63-76`)

Values other than `None` and lists are taken to be unchangeable (strings, numbers), for which the library's
`deepcopy` returns the object itself; keys are such values.
-/

namespace Verif
namespace Mem
variable {κ α : Type} [DecidableEq κ]

/-- The argument `memo` (list to its copy) and the memory.  The entry for the dictionary itself
(`utils/datastructures.py:67`) is never looked up because no value is a dictionary. -/
abbrev DState (κ α : Type) := Dict Nat Nat × Mem κ α

/-- `for a in x: y.append(deepcopy(a, memo))` (library, `_deepcopy_list`); `r` is `y`. -/
def deepElems (f : Val α → DState κ α → Res (DState κ α) (Val α)) (r : Nat) :
    List (Val α) → DState κ α → Res (DState κ α) Unit
  | [], st => (.ok (), st)
  | v :: vs, st =>
    match f v st with
    | (.error e, st) => (.error e, st)
    | (.ok v, st) => deepElems f r vs (st.1, st.2.write r (st.2.elems r ++ [v]))

/-- `copy.deepcopy(v, memo)` (library).  `depth` is the number of nested calls the interpreter still allows;
`other 0` is the `RuntimeError` when there are none left. -/
def deepVal : (depth : Nat) → Val α → DState κ α → Res (DState κ α) (Val α)
  | 0, _, st => (.error (.other 0), st)
  | depth + 1, v, st =>
    match v with
    | .list r =>
      match st.1.get? r with
      | some r' => (.ok (.list r'), st)
      | none =>
        match deepElems (deepVal depth) st.2.lists.length (st.2.elems r)
            (st.1.set r st.2.lists.length, (st.2.alloc []).2) with
        | (.error e, st') => (.error e, st')
        | (.ok (), st') => (.ok (.list st.2.lists.length), st')
    | v => (.ok v, st)

/-- The loop of `__deepcopy__` (`utils/datastructures.py:69-75`) with the result at address `c`. -/
def deepItems (depth c : Nat) : Dict κ Nat → DState κ α → Res (DState κ α) Unit
  | [], st => (.ok (), st)
  | (k, r) :: t, st =>
    match deepVal depth (.list r) st with
    | (.ok (.list r'), st) => deepItems depth c t (st.1, st.2.setDict c ((st.2.dict c).set k r'))
    | (.ok _, st) => (.error .typeError, st)
    | (.error e, st) => (.error e, st)

/-- `copy.deepcopy(self)` (`utils/datastructures.py:63-76`).  `QueryDict.__deepcopy__`
(`http/request.py:687-692`) calls its constructor with `''` for the settings, which is an `AttributeError`. -/
def deepCopy (depth i : Nat) (m : Mem κ α) : Res (Mem κ α) Nat :=
  if (m.obj i).cls = .query then (.error .attributeError, m)
  else
    match deepItems depth m.dicts.length (m.dict i) ([], m.newDict (m.obj i).cls) with
    | (.error e, st) => (.error e, st.2)
    | (.ok (), st) => (.ok m.dicts.length, st.2)

end Mem
end Verif
