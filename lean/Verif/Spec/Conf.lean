import Verif.Py.Bytes
/-! Normal paths. -/

namespace Verif.Spec

/-- A name of a path: not empty, not `.` or `..`, without slash. -/
def PathName (c : Bytes) : Prop := c ≠ [] ∧ c ≠ b!"." ∧ c ≠ b!".." ∧ 47 ∉ c

/-- Names, each after a slash. -/
def slashed : List Bytes → Bytes
  | [] => []
  | c :: cs => [47] ++ c ++ slashed cs

/-- An absolute path in normal form: `/`, or names each after a slash; POSIX allows one more slash in
front to mean something else. -/
def NormalAbs (p : Bytes) : Prop :=
  ∃ (names : List Bytes) (extra : Bytes), (∀ c ∈ names, PathName c) ∧ (extra = [] ∨ extra = [47]) ∧
    p = extra ++ (if names = [] then [47] else slashed names)

end Verif.Spec
