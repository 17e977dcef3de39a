import Verif.Py.Dict
/-!
# How a header is split into parameters, and how parameters are written
-/

namespace Verif.Spec

/-- Number of double quotes. -/
def quotes (s : Bytes) : Nat := s.count 34

/-- Pieces joined by semicolons. -/
def joinSemi : List Bytes → Bytes
  | [] => []
  | [r] => r
  | r :: rs => r ++ 59 :: joinSemi rs

/-- `raws` is the header `h` cut at every semicolon that follows an even number of double
quotes within its piece, and nowhere else. -/
structure SplitSemis (h : Bytes) (raws : List Bytes) : Prop where
  ne : raws ≠ []
  join : h = joinSemi raws
  /-- a semicolon kept inside a piece is inside quotes -/
  inner : ∀ r ∈ raws, ∀ a b, r = a ++ 59 :: b → quotes a % 2 = 1
  /-- a piece that is followed by a cut has balanced quotes -/
  outer : ∀ r ∈ raws.dropLast, quotes r % 2 = 0

/-- Backslash-escape `\` and `"`. -/
def escapeQuoted : Bytes → Bytes
  | [] => []
  | c :: t => if c = 92 ∨ c = 34 then 92 :: c :: escapeQuoted t else c :: escapeQuoted t

/-- `; name="value"` for every parameter. -/
def renderParams : List (Bytes × Bytes) → Bytes
  | [] => []
  | (n, v) :: ps => b!"; " ++ n ++ b!"=\"" ++ escapeQuoted v ++ b!"\"" ++ renderParams ps

/-- The value written last for a name. -/
def lastValue (ps : List (Bytes × Bytes)) (n : Bytes) : Option Bytes :=
  (ps.reverse.find? (fun p => p.1 = n)).map Prod.snd

end Verif.Spec

namespace Verif.Spec

/-- A name that may be written before `=`: ASCII, no white space around it, none of the
delimiters, and not ending with `*` (which announces an encoded value). -/
structure ParamName (n : Bytes) : Prop where
  ascii : ∀ c ∈ n, c < 128
  noEq : 61 ∉ n
  noSemi : 59 ∉ n
  noQuote : 34 ∉ n
  first : ∀ c, n.head? = some c → c ≠ 32 ∧ ¬ (9 ≤ c ∧ c ≤ 13)
  last : ∀ c, n.getLast? = some c → c ≠ 32 ∧ ¬ (9 ≤ c ∧ c ≤ 13) ∧ c ≠ 42

end Verif.Spec
