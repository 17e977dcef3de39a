import Verif.Model.Multipart
import Verif.Model.Query
/-!
# `POST` of a multipart form as an object (`http/multipartparser.py:132`, `214-220`, `315`)

`MultiPart.parse` keeps the fields of a form by value.  In the code they are in a `QueryDict`, which is a dictionary of
lists in memory; here is how it is made.
-/

namespace Verif

/-- The conversions of the `QueryDict` of a form (`bytes_to_text`, `http/request.py:764-776`): names are native strings,
the items are dictionaries, which stay as they are.  (Iterating over an item is never needed.) -/
def formConv (C : Codecs) (S : Settings) : Conv Bytes PostItem where
  key := C.strEncode S.defaultCharset
  val := .ok
  iter := fun _ => .error .typeError

/-- `self._post.appendlist(field_name, {...})` for one field after the other (`http/multipartparser.py:214-220`). -/
def formAppends (C : Codecs) (S : Settings) (i : Nat) :
    List (Bytes × PostItem) → Mem Bytes PostItem → Res (Mem Bytes PostItem) Unit
  | [], m => (.ok (), m)
  | (name, item) :: t, m =>
    match Mem.appendList (formConv C S) i name (.atom item) m with
    | (.error e, m) => (.error e, m)
    | (.ok (), m) => formAppends C S i t m

/-- `self._post = QueryDict(self.settings, mutable=True)`, the fields, `self._post._mutable = False`
(`http/multipartparser.py:132`, `214-220`, `315`). -/
def formDict (C : Codecs) (S : Settings) (fields : List (Bytes × PostItem)) (m : Mem Bytes PostItem) :
    Res (Mem Bytes PostItem) Nat :=
  match emptyQueryDict C S with
  | .error e => (.error e, m)
  | .ok () =>
    let i := m.dicts.length
    match formAppends C S i fields (m.newDict .query true) with
    | (.error e, m) => (.error e, m)
    | (.ok (), m) => (.ok i, m.setMutable i false)

end Verif
