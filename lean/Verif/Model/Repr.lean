import Verif.Model.Uri
import Verif.Model.MVDict
/-!
# `MultiValueDict.__repr__`

`utils/datastructures.py:34-35`: `"<%s: %s>" % (self.__class__.__name__, super(MultiValueDict, self).__repr__())`.
What `dict`, `list`, `str` and `unicode` of Python 2.7 (a build with wide characters) do is written here.

Keys and values are byte strings, texts, `None` or lists of such.  The items are shown in the order in which the
model's dictionary has them; in Python 2 this order is arbitrary.
-/

namespace Verif

/-- A hexadecimal digit as `repr` writes it. -/
def hexLow (n : Nat) : UInt8 := if n < 10 then 48 + UInt8.ofNat n else 87 + UInt8.ofNat n

/-- One character of `repr` of a text in quotes `q`. -/
def reprPoint (q : UInt8) (c : Nat) : Bytes :=
  if 0x10000 ≤ c then b!"\\U" ++ [28, 24, 20, 16, 12, 8, 4, 0].map fun k => hexLow (c / 2 ^ k % 16)
  else if 256 ≤ c then b!"\\u" ++ [12, 8, 4, 0].map fun k => hexLow (c / 2 ^ k % 16)
  else reprByte q (UInt8.ofNat c)

/-- `repr` of a text. -/
def reprText (s : UStr) : Bytes :=
  let q : UInt8 := if 39 ∈ s ∧ 34 ∉ s then 34 else 39
  b!"u" ++ [q] ++ s.flatMap (reprPoint q) ++ [q]

/-- `repr` of a string. -/
def reprStr : PyStr → Bytes
  | .b s => reprBytes s
  | .u s => reprText s

/-- `repr` of a value; `seen` are the lists that are just being shown (`Py_ReprEnter`).  As there are only
`m.lists.length` lists with elements, `fuel` greater than that is never used up. -/
def reprVal {κ : Type} (m : Mem κ PyStr) : (fuel : Nat) → (seen : List Nat) → Val PyStr → Bytes
  | _, _, .none => b!"None"
  | _, _, .atom a => reprStr a
  | 0, _, .list _ => b!"[...]"
  | fuel + 1, seen, .list r =>
    if r ∈ seen then b!"[...]"
    else b!"[" ++ List.intercalate b!", " ((m.elems r).map (reprVal m fuel (r :: seen))) ++ b!"]"

/-- `self.__class__.__name__`. -/
def DCls.name : DCls → Bytes
  | .plain => b!"MultiValueDict"
  | .immutable => b!"ImmutableMultiValueDict"
  | .query => b!"QueryDict"

/-- `repr(d)` (`utils/datastructures.py:34-35`). -/
def Mem.repr (m : Mem PyStr PyStr) (i : Nat) : Bytes :=
  b!"<" ++ (m.obj i).cls.name ++ b!": " ++
    (b!"{" ++ List.intercalate b!", " ((m.dict i).map fun p =>
      reprStr p.1 ++ b!": " ++ reprVal m (m.lists.length + 1) [] (.list p.2)) ++ b!"}") ++ b!">"

end Verif
