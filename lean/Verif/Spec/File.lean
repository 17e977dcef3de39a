import Verif.Py.Bytes
/-! The lines of a text. -/

namespace Verif.Spec

/-- Without line ends. -/
def NoBreak (s : Bytes) : Prop := 10 ∉ s ∧ 13 ∉ s

/-- `ls` are the lines of the text, each with its line end LF, CR or CR LF; only the last may be without. -/
inductive TextLines : Bytes → List Bytes → Prop where
  | nil : TextLines [] []
  | last {b} : b ≠ [] → NoBreak b → TextLines b [b]
  | lf {b r ls} : NoBreak b → TextLines r ls → TextLines (b ++ [10] ++ r) ((b ++ [10]) :: ls)
  | crlf {b r ls} : NoBreak b → TextLines r ls → TextLines (b ++ [13, 10] ++ r) ((b ++ [13, 10]) :: ls)
  | cr {b r ls} : NoBreak b → r.head? ≠ some 10 → TextLines r ls → TextLines (b ++ [13] ++ r) ((b ++ [13]) :: ls)

end Verif.Spec
