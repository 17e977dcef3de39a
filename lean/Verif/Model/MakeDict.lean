import Verif.Model.MVDict
/-!
# Making a `MultiValueDict` from something else (`utils/datastructures.py:31-32`, `:283-284`)
-/

namespace Verif
namespace Mem
variable {κ α : Type} [DecidableEq κ]

/-- `MultiValueDict(pairs)` and `ImmutableMultiValueDict(pairs)` (`utils/datastructures.py:31-32`, `:283-284`):
`dict.__init__`, which keeps the lists it is given and does not copy them.  `pairs` are the keys and lists of a
dictionary or of a sequence of pairs.  Not modelled: values that are not lists. -/
def makeDict (cls : DCls) (pairs : List (κ × Nat)) (m : Mem κ α) : Nat × Mem κ α :=
  (m.dicts.length,
    { m with dicts := m.dicts ++ [{ cls := cls, data := pairs.foldl (fun d p => d.set p.1 p.2) [] }] })

/-- `MultiValueDict(other)` for another `MultiValueDict`: `dict.__init__` of Python 2 takes what is stored in
`other`, without asking its methods. -/
def makeFrom (cls : DCls) (j : Nat) (m : Mem κ α) : Nat × Mem κ α := makeDict cls (m.dict j) m

end Mem
end Verif
