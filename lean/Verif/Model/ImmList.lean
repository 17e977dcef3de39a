import Verif.Model.Exc
/-!
# `ImmutableList` (`utils/datastructures.py:234-273`)
-/

namespace Verif

/-- An `ImmutableList`: a tuple and the `warning`, which is an exception or some other object (a
message, say). -/
structure ImmList (α : Type) where
  items : List α
  warning : Option Exc := none
  deriving DecidableEq, Repr

namespace ImmList
variable {α : Type}

/-- `__new__` (`utils/datastructures.py:248-252`): `warning` is an exception instance (`some`) or
anything else. -/
def new (items : List α) (warning : Option Exc := none) : ImmList α := ⟨items, warning⟩

/-- `complain` (`utils/datastructures.py:254-258`). -/
def complain (l : ImmList α) : Exc := l.warning.getD .attributeError

/-- The attributes assigned `complain` in the class body (`utils/datastructures.py:261-273`). -/
def complaining : List String :=
  ["__delitem__", "__delslice__", "__iadd__", "__imul__", "__setitem__", "__setslice__", "append",
   "extend", "insert", "pop", "remove", "sort", "reverse"]

/-- Calling the method `name`: found in the class, it complains; a method of `tuple` never changes
the tuple (its result is not modelled); any other name is an `AttributeError`. -/
def callMethod (tupleMethods : List String) (name : String) (l : ImmList α) : Res (ImmList α) Unit :=
  if name ∈ complaining then (.error l.complain, l)
  else if name ∈ tupleMethods then (.ok (), l)
  else (.error .attributeError, l)

end ImmList
end Verif
