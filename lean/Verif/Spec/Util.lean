import Verif.Py.Bytes
/-! Base 36 numerals, the URL-safe alphabet, entity tags. -/

namespace Verif.Spec

/-- `s` is the number `n` written with the digits 0-9, a-z, most significant first. -/
inductive Num36 : Bytes → Nat → Prop where
  | nil : Num36 [] 0
  | digit {s n c v} : Num36 s n → b!"0123456789abcdefghijklmnopqrstuvwxyz"[v]? = some c →
      Num36 (s ++ [c]) (n * 36 + v)

/-- Letters, digits, `-` and `_`. -/
def UrlSafe (c : UInt8) : Prop :=
  (65 ≤ c ∧ c ≤ 90) ∨ (97 ≤ c ∧ c ≤ 122) ∨ (48 ≤ c ∧ c ≤ 57) ∨ c = 45 ∨ c = 95

/-- An entity tag (RFC 7232): optionally `W/`, then quoted text. -/
def ETag (s : Bytes) : Prop :=
  ∃ w q, (w = [] ∨ w = b!"W/") ∧ 34 ∉ q ∧ s = w ++ [34] ++ q ++ [34]

/-- `t` is `s` without the white space around it. -/
def Trimmed (s t : Bytes) : Prop :=
  ∃ l r, s = l ++ t ++ r ∧ (∀ c ∈ l ++ r, Py.isSpace c = true) ∧
    ∀ c, t.head? = some c ∨ t.getLast? = some c → Py.isSpace c = false

/-- `tags` are the entity tags in the comma-separated list `items`, in order. -/
inductive TagsOf : List Bytes → List Bytes → Prop where
  | nil : TagsOf [] []
  | tag {s t items tags} : Trimmed s t → ETag t → TagsOf items tags → TagsOf (s :: items) (t :: tags)
  | other {s t items tags} : Trimmed s t → ¬ ETag t → TagsOf items tags → TagsOf (s :: items) tags

/-- `s` is the list `items` with commas in between. -/
inductive CommaList : List Bytes → Bytes → Prop where
  | one {s} : 44 ∉ s → CommaList [s] s
  | more {s items rest} : 44 ∉ s → CommaList items rest → CommaList (s :: items) (s ++ [44] ++ rest)

end Verif.Spec
