import Verif.Py.Bytes
/-!
# `base64.b64decode` / `binascii.a2b_base64` of Python 2.7

Library semantics (part of the trusted base), transcribed from `Modules/binascii.c`.
-/

namespace Verif.Py

/-- The base64 alphabet. -/
def b64val (c : UInt8) : Option Nat :=
  if 65 ≤ c ∧ c ≤ 90 then some (c.toNat - 65)
  else if 97 ≤ c ∧ c ≤ 122 then some (c.toNat - 71)
  else if 48 ≤ c ∧ c ≤ 57 then some (c.toNat + 4)
  else if c = 43 then some 62
  else if c = 47 then some 63
  else none

/-- The first character of the alphabet or `=` in a string (`binascii_find_valid(s, len, 1)`
called on the text after the current character). -/
def b64nextValid : Bytes → Option UInt8
  | [] => none
  | c :: t => if c = 61 ∨ (b64val c).isSome then some c else b64nextValid t

/-- The loop of `a2b_base64`: `quad` is `quad_pos`, `bits` is `leftbits`, `char` is
`leftchar`.  Characters outside the alphabet are skipped; a `=` in the third position
followed by `=`, or in the fourth, ends the input; `none` is `Incorrect padding`. -/
def a2bLoop : Bytes → (quad char bits : Nat) → (out : Bytes) → Option Bytes
  | [], _, _, bits, out => if bits = 0 then some out else none
  | c :: t, quad, char, bits, out =>
    if c = 61 then
      if quad < 2 ∨ (quad = 2 ∧ b64nextValid t ≠ some 61) then a2bLoop t quad char bits out
      else some out
    else
      match b64val c with
      | none => a2bLoop t quad char bits out
      | some v =>
        let quad := (quad + 1) % 4
        let char := char * 64 + v
        let bits := bits + 6
        if bits ≥ 8 then
          let bits := bits - 8
          a2bLoop t quad (char % 2 ^ bits) bits (out ++ [UInt8.ofNat (char / 2 ^ bits)])
        else a2bLoop t quad char bits out

/-- `base64.b64decode(s)`; `none` is the `TypeError` Python 2 raises for bad padding. -/
def b64decode (s : Bytes) : Option Bytes := a2bLoop s 0 0 0 []

end Verif.Py
