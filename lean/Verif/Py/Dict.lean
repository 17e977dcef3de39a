import Verif.Py.Bytes
/-!
# Python dictionaries and strings of either type

A `dict` is an association list with distinct keys, in insertion order.  (Python 2 does not
specify the iteration order; nothing in the model depends on it unless a comment says so.)
-/

namespace Verif

/-- Python `dict`. -/
abbrev Dict (α β : Type) := List (α × β)

namespace Dict
variable {α β : Type} [DecidableEq α]

/-- `d.get(k)`. -/
def get? (d : Dict α β) (k : α) : Option β :=
  match d with
  | [] => none
  | (k', v) :: t => if k' = k then some v else get? t k

/-- `d[k] = v`. -/
def set (d : Dict α β) (k : α) (v : β) : Dict α β :=
  match d with
  | [] => [(k, v)]
  | (k', v') :: t => if k' = k then (k, v) :: t else (k', v') :: set t k v

/-- `del d[k]` (no effect when absent). -/
def erase (d : Dict α β) (k : α) : Dict α β := d.filter (fun p => p.1 ≠ k)

/-- `d.keys()`. -/
def keys (d : Dict α β) : List α := d.map Prod.fst

theorem get?_set (d : Dict α β) (k k' : α) (v : β) :
    (d.set k v).get? k' = if k = k' then some v else d.get? k' := by
  induction d with
  | nil => simp [set, get?]
  | cons p t ih =>
    obtain ⟨a, b⟩ := p
    unfold set
    by_cases h : a = k
    · subst h; simp [get?]; split <;> simp_all
    · simp only [h, if_false, get?, ih]
      by_cases h2 : a = k'
      · subst h2; simp [Ne.symm h]
      · simp [h2]

theorem get?_erase (d : Dict α β) (k k' : α) :
    (d.erase k).get? k' = if k = k' then none else d.get? k' := by
  induction d with
  | nil => simp [erase, get?]
  | cons p t ih =>
    obtain ⟨a, b⟩ := p
    unfold erase at *
    by_cases h : a = k
    · subst h; simp [get?, ih]; split <;> simp_all
    · simp only [List.filter_cons, ne_eq, h, not_false_eq_true, decide_true, if_true, get?]
      rw [ih]
      by_cases h2 : a = k'
      · subst h2; simp [Ne.symm h]
      · simp [h2]

end Dict

/-- A Python 2 string: `str` or `unicode`. -/
inductive PyStr where
  | b (s : Bytes)
  | u (s : UStr)
  deriving DecidableEq, Repr

namespace PyStr

/-- `unicode.isspace()` for one code point (Python 2.7). -/
def isUniSpace (c : Nat) : Bool :=
  (9 ≤ c && c ≤ 13) || (28 ≤ c && c ≤ 32) || c = 0x85 || c = 0xa0 || c = 0x1680 || c = 0x180e ||
  (0x2000 ≤ c && c ≤ 0x200a) || c = 0x2028 || c = 0x2029 || c = 0x202f || c = 0x205f || c = 0x3000

/-- `s.strip()`. -/
def strip : PyStr → PyStr
  | b s => b (Py.strip s)
  | u s => u (Py.stripBy isUniSpace s)

/-- `bool(s)`. -/
def truthy : PyStr → Bool
  | b s => s ≠ []
  | u s => s ≠ []

/-- `len(s)`. -/
def len : PyStr → Nat
  | b s => s.length
  | u s => s.length

end PyStr

/-- ASCII bytes as code points (`s.decode('ascii')` after a successful check). -/
def Py.toU (s : Bytes) : UStr := s.map UInt8.toNat

end Verif
