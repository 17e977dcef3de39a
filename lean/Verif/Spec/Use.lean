import Verif.Spec.File
import Verif.Model.Use
/-!
# Reading a file that holds a given content
-/

namespace Verif.Spec

/-- What an application may see that reads an open file with this content, the position being `pos`, by and by
in several ways: `chunks` and the lines start from the beginning, whatever has been read, and so does `open()`;
`read(n)` goes on where the last one stopped. -/
inductive Session (content : Bytes) : Nat → List (Use × Except Exc (List Bytes)) → Prop where
  | nil {pos} : Session content pos []
  | chunks {pos n cs rest} : cs.flatten = content → Session content content.length rest →
      Session content pos ((.chunks n, .ok cs) :: rest)
  | lines {pos ls rest} : TextLines content ls → Session content content.length rest →
      Session content pos ((.lines, .ok ls) :: rest)
  | whole {pos rest} : Session content content.length rest → Session content pos ((.whole, .ok [content]) :: rest)
  | read {pos n d rest} : 0 ≤ n → d = (content.drop pos).take n.toNat → Session content (pos + d.length) rest →
      Session content pos ((.read n, .ok [d]) :: rest)
  | rest {pos n d rest} : n < 0 → d = content.drop pos → Session content (pos + d.length) rest →
      Session content pos ((.read n, .ok [d]) :: rest)

/-- The uses of the file at an address, with what they gave. -/
def usesOf (r : Nat) (us : List (Uploaded × Use)) (res : List (Except Exc (List Bytes))) :
    List (Use × Except Exc (List Bytes)) :=
  ((us.zip res).filter fun p => p.1.1.ref == r).map fun p => (p.1.2, p.2)

end Verif.Spec
