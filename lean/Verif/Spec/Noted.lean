import Verif.Model.Multipart
/-!
# Writing down what upload handlers raise

`noted H` behaves exactly like `H` and keeps a list of all exceptions that its methods raise (`parse_noted` in
`Proofs/Noted.lean` shows that this changes nothing).
-/

namespace Verif.Spec

/-- The methods of an upload handler that the parser calls. -/
inductive Hook where
  | raw
  | newFile
  | receive
  | complete
  | upload
  | close
  deriving DecidableEq

/-- The exception in which a call ended. -/
def outcome {α : Type} (k : Hook) : Except Exc α → List (Hook × Exc)
  | .ok _ => []
  | .error e => [(k, e)]

/-- Handlers whose exceptions are written down. -/
def noted {ρ σ F : Type} (H : HandlerOps ρ σ F) : HandlerOps ρ (σ × List (Hook × Exc)) F where
  count := H.count
  chunkSize := H.chunkSize
  rawInput i a s w :=
    ((H.rawInput i a s w.1).1, (H.rawInput i a s w.1).2.1, (H.rawInput i a s w.1).2.2,
      w.2 ++ outcome .raw (H.rawInput i a s w.1).1)
  newFile i a w := ((H.newFile i a w.1).1, (H.newFile i a w.1).2, w.2 ++ outcome .newFile (H.newFile i a w.1).1)
  receive i d n w := ((H.receive i d n w.1).1, (H.receive i d n w.1).2,
    w.2 ++ outcome .receive (H.receive i d n w.1).1)
  fileComplete i n w := ((H.fileComplete i n w.1).1, (H.fileComplete i n w.1).2,
    w.2 ++ outcome .complete (H.fileComplete i n w.1).1)
  truthy f w := H.truthy f w.1
  uploadComplete i w := ((H.uploadComplete i w.1).1, (H.uploadComplete i w.1).2,
    w.2 ++ outcome .upload (H.uploadComplete i w.1).1)
  close i w := ((H.close i w.1).1, (H.close i w.1).2, w.2 ++ outcome .close (H.close i w.1).1)

/-- The exceptions with which a method of a handler steers the parser (`files/uploadhandler.py:16-54`): announced
a file, it may keep it to itself, skip it or stop the upload; given data, it may skip the file or stop the upload;
asked for the file or to close it, it may stop the upload. -/
def Steers : Hook → Exc → Prop
  | .newFile, .stopFutureHandlers => True
  | .newFile, .skipFile => True
  | .receive, .skipFile => True
  | .newFile, .stopUpload _ => True
  | .receive, .stopUpload _ => True
  | .complete, .stopUpload _ => True
  | .close, .stopUpload _ => True
  | _, _ => False

end Verif.Spec
