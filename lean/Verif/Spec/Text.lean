import Verif.Py.Bytes
/-! Character references. -/

namespace Verif.Spec

/-- `s` is the number `n` in base `base`, most significant digit first, at least one digit. -/
inductive Numeral (base : Nat) (val : UInt8 → Nat → Prop) : Bytes → Nat → Prop where
  | one {c v} : val c v → Numeral base val [c] v
  | more {s n c v} : Numeral base val s n → val c v → Numeral base val (s ++ [c]) (n * base + v)

/-- The decimal digits. -/
def DecDigit (c : UInt8) (v : Nat) : Prop := b!"0123456789"[v]? = some c

/-- The hexadecimal digits. -/
def HexDigit (c : UInt8) (v : Nat) : Prop :=
  b!"0123456789abcdef"[v]? = some c ∨ b!"0123456789ABCDEF"[v]? = some c

/-- A letter, a digit or an underscore. -/
def Word (c : UInt8) : Prop :=
  (65 ≤ c ∧ c ≤ 90) ∨ (97 ≤ c ∧ c ≤ 122) ∨ (48 ≤ c ∧ c ≤ 57) ∨ c = 95

/-- What can stand between `&` and `;`: perhaps `#`, perhaps `x` or `X`, then hexadecimal digits or up
to eight word characters. -/
def RefBody (b : Bytes) : Prop :=
  ∃ h x w, (h = [] ∨ h = [35]) ∧ (x = [] ∨ x = [120] ∨ x = [88]) ∧ w ≠ [] ∧
    ((∀ c ∈ w, ∃ v, HexDigit c v) ∨ (w.length ≤ 8 ∧ ∀ c ∈ w, Word c)) ∧ b = h ++ x ++ w

/-- `b` refers to the character with number `n`: `#n`, or `#x` and hexadecimal digits (Python's `int`
allows another `0x` before them). -/
def RefNum (b : Bytes) (n : Nat) : Prop :=
  (∃ ds, b = 35 :: ds ∧ Numeral 10 DecDigit ds n) ∨
  ∃ x p ds, (x = 120 ∨ x = 88) ∧ (p = [] ∨ p = b!"0x" ∨ p = b!"0X") ∧
    b = [35, x] ++ p ++ ds ∧ Numeral 16 HexDigit ds n

/-- The names of the characters 160 to 255 in HTML 4, in order (the table "Latin-1 entities"). -/
def latin1Names : List Bytes := Py.splitChar 32 (
  b!"nbsp iexcl cent pound curren yen brvbar sect uml copy ordf laquo not shy reg macr deg plusmn " ++
  b!"sup2 sup3 acute micro para middot cedil sup1 ordm raquo frac14 frac12 frac34 iquest Agrave " ++
  b!"Aacute Acirc Atilde Auml Aring AElig Ccedil Egrave Eacute Ecirc Euml Igrave Iacute Icirc Iuml " ++
  b!"ETH Ntilde Ograve Oacute Ocirc Otilde Ouml times Oslash Ugrave Uacute Ucirc Uuml Yacute THORN " ++
  b!"szlig agrave aacute acirc atilde auml aring aelig ccedil egrave eacute ecirc euml igrave iacute " ++
  b!"icirc iuml eth ntilde ograve oacute ocirc otilde ouml divide oslash ugrave uacute ucirc uuml " ++
  b!"yacute thorn yuml")

/-- The names of the characters below 256 in HTML 4. -/
def htmlNames : List (Bytes × UInt8) :=
  [(b!"quot", 34), (b!"amp", 38), (b!"lt", 60), (b!"gt", 62)] ++ latin1Names.zipIdx.map fun p => (p.1, 160 + UInt8.ofNat p.2)

/-- What becomes of the reference `b`, given the names of the characters below 256. -/
inductive RefOut (names : List (Bytes × UInt8)) : Bytes → Bytes → Prop where
  | num {b n} : RefNum b n → n < 256 → RefOut names b [UInt8.ofNat n]
  | big {b n} : RefNum b n → 256 ≤ n → n < 2 ^ 63 → RefOut names b ([38] ++ b ++ [59])
  | name {b v} : (b, v) ∈ names → RefOut names b [v]
  | other {b} : (∀ n, ¬ RefNum b n) → (∀ v, (b, v) ∉ names) → RefOut names b ([38] ++ b ++ [59])

/-- A reference starts the text `s`. -/
def StartsRef (s : Bytes) : Prop := ∃ b r, RefBody b ∧ s = [38] ++ b ++ [59] ++ r

/-- `r` is `s` with its references replaced, from left to right. -/
inductive Unescaped (names : List (Bytes × UInt8)) : Bytes → Bytes → Prop where
  | nil : Unescaped names [] []
  | plain {c t r} : ¬ StartsRef (c :: t) → Unescaped names t r → Unescaped names (c :: t) (c :: r)
  | ref {b o t r} : RefBody b → RefOut names b o → Unescaped names t r →
      Unescaped names ([38] ++ b ++ [59] ++ t) (o ++ r)

end Verif.Spec
