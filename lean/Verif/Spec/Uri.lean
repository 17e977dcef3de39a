import Verif.Spec.Query
import Verif.Model.Uri
import Verif.Spec.Message
import Verif.Spec.Utf8
/-!
# Escaped paths and URIs, independently of the functions that write them
-/

namespace Verif.Spec

/-- The characters that stand for themselves in the path of a URI; `%` begins an escape that is there
already. -/
def pathChar (c : UInt8) : Bool :=
  decide ((97 ≤ c ∧ c ≤ 122) ∨ (65 ≤ c ∧ c ≤ 90) ∨ (48 ≤ c ∧ c ≤ 57) ∨ c ∈ b!"-._~/:@!$&'()*+,%")

/-- `t` is `s` with every byte outside `keep` written as `%` and two upper-case hexadecimal digits. -/
inductive Escaped (keep : UInt8 → Bool) : Bytes → Bytes → Prop where
  | nil : Escaped keep [] []
  | kept (c) {s t} : keep c = true → Escaped keep s t → Escaped keep (c :: s) (c :: t)
  | esc (c x y) {s t} : keep c = false → b!"0123456789ABCDEF"[c.toNat / 16]? = some x →
      b!"0123456789ABCDEF"[c.toNat % 16]? = some y → Escaped keep s t →
      Escaped keep (c :: s) (37 :: x :: y :: t)

/-- The slash that `force_append_slash` adds. -/
def Slash (force : Bool) (path slash : Bytes) : Prop :=
  slash = if force = true ∧ path.getLast? ≠ some 47 then b!"/" else []

/-- The part of a request target after scheme and authority. -/
def Message.pathQuery (m : Message) : Bytes := m.path ++ (if m.query = [] then [] else b!"?" ++ m.query)

/-- The characters that `quote` leaves alone. -/
def quoteChar (safe : Bytes) (c : UInt8) : Bool :=
  decide ((97 ≤ c ∧ c ≤ 122) ∨ (65 ≤ c ∧ c ≤ 90) ∨ (48 ≤ c ∧ c ≤ 57) ∨ c ∈ b!"_.-" ∨ (c ∈ safe ∧ c < 128))

/-- A string is the text `u`, which is `b` in UTF-8. -/
def TextOf : PyStr → UStr → Bytes → Prop
  | .b s, u, b => s = b ∧ Utf8 u b
  | .u s, u, b => s = u ∧ Utf8 u b ∧ ∀ c ∈ u, Scalar c

/-- An item of a list of values is the text `u`; `unicode` items are ASCII. -/
def ItemText : Option PyStr → UStr → Prop
  | none, _ => False
  | some (.b s), u => Utf8 u s
  | some (.u s), u => s = u ∧ ∀ c ∈ u, c < 128

/-- The pairs of names and values that the argument of `urlencode` stands for. -/
inductive QueryText : List (PyStr × QVal) → List (UStr × UStr) → Prop where
  | nil : QueryText [] []
  | str {k ku kb v vu q ps} : TextOf k ku kb → Utf8 vu v → QueryText q ps →
      QueryText ((k, .str (.b v)) :: q) ((ku, vu) :: ps)
  | list {k ku kb items us q ps} : TextOf k ku kb → List.Forall₂ ItemText items us → QueryText q ps →
      QueryText ((k, .list items) :: q) (us.map (fun u => (ku, u)) ++ ps)

/-- No value is `None` and no list of values contains `None`. -/
def NoNone : QVal → Prop
  | .none => False
  | .str _ => True
  | .list items => none ∉ items

end Verif.Spec
