import Verif.Model.Exc
/-!
# How a multipart body is cut into parts
-/

namespace Verif.Spec

/-- Remove one line end (CRLF, LF or CR) from the end of a byte string. -/
def stripEol (b : Bytes) : Bytes :=
  match b.reverse with
  | 10 :: 13 :: t => t.reverse
  | 10 :: t => t.reverse
  | 13 :: t => t.reverse
  | _ => b

/-- `Cut sep body part rest`: the first part of `body` is `part`, and `rest` follows its
separator.  Either the separator occurs, then `part` is what precedes its first occurrence
without one line end directly before it, or it does not, then everything is the part. -/
inductive Cut (sep body part rest : Bytes) : Prop where
  | sep (pre : Bytes) : body = pre ++ sep ++ rest →
      (∀ pre' rest', body = pre' ++ sep ++ rest' → pre.length ≤ pre'.length) →
      part = stripEol pre → Cut sep body part rest
  | nosep : (¬ sep <:+: body) → part = body → rest = [] → Cut sep body part rest

end Verif.Spec

namespace Verif.Spec

/-- The parts of a body, as found by cutting again and again until nothing is left. -/
inductive Parts (sep : Bytes) : Bytes → List Bytes → Prop where
  | nil : Parts sep [] []
  | cons {body part rest parts} : body ≠ [] → Cut sep body part rest → Parts sep rest parts →
      Parts sep body (part :: parts)

end Verif.Spec
