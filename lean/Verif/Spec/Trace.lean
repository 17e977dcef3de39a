import Verif.Model.Multipart
/-!
# Observing the calls made to upload handlers

`traced H` behaves exactly like `H` and keeps a log of all calls (`parse_traced` in
`Proofs/Trace.lean` shows that tracing changes nothing).
-/

namespace Verif.Spec

/-- A call to a method of handler number `i`. -/
inductive Ev (F : Type) where
  | raw (i : Nat)
  | newFile (i : Nat) (args : NewFileArgs)
  | receive (i : Nat) (data : Bytes) (start : Nat)
  | complete (i : Nat) (size : Nat) (result : Except Exc (Option F))
  | upload (i : Nat)
  | close (i : Nat)

/-- Handlers whose calls are logged. -/
def traced {ρ σ F : Type} (H : HandlerOps ρ σ F) : HandlerOps ρ (σ × List (Ev F)) F where
  count := H.count
  chunkSize := H.chunkSize
  rawInput i a s w :=
    ((H.rawInput i a s w.1).1, (H.rawInput i a s w.1).2.1, (H.rawInput i a s w.1).2.2, w.2 ++ [.raw i])
  newFile i a w := ((H.newFile i a w.1).1, (H.newFile i a w.1).2, w.2 ++ [.newFile i a])
  receive i d n w := ((H.receive i d n w.1).1, (H.receive i d n w.1).2, w.2 ++ [.receive i d n])
  fileComplete i n w := ((H.fileComplete i n w.1).1, (H.fileComplete i n w.1).2,
    w.2 ++ [.complete i n (H.fileComplete i n w.1).1])
  truthy f w := H.truthy f w.1
  uploadComplete i w := ((H.uploadComplete i w.1).1, (H.uploadComplete i w.1).2, w.2 ++ [.upload i])
  close i w := ((H.close i w.1).1, (H.close i w.1).2, w.2 ++ [.close i])

/-- Follow a log, keeping for every handler the number of bytes it was given for the current
file; a new file begins when it is announced to handler 0.  `none`: a call had the wrong offset
or size. -/
def followOffsets {F : Type} : List (Ev F) → (Nat → Nat) → Option (Nat → Nat)
  | [], tot => some tot
  | .newFile 0 _ :: es, _ => followOffsets es (fun _ => 0)
  | .receive i d start :: es, tot =>
    if start = tot i then followOffsets es (fun j => if j = i then tot i + d.length else tot j) else none
  | .complete i size _ :: es, tot => if size = tot i then followOffsets es tot else none
  | _ :: es, tot => followOffsets es tot

/-- Every `receive_data_chunk` call has the right offset and every `file_complete` call the right
size. -/
def Contiguous {F : Type} (log : List (Ev F)) : Prop := ∃ tot, followOffsets log (fun _ => 0) = some tot

/-- The data handed to handler 0. -/
def dataOf {F : Type} : List (Ev F) → Bytes
  | [] => []
  | .receive 0 d _ :: es => d ++ dataOf es
  | _ :: es => dataOf es

end Verif.Spec

namespace Verif.Spec

/-- A file was announced with `args`, handler 0 was given `data` for it, and then some handler's
`file_complete` returned `f`. -/
def Completed {F : Type} (log : List (Ev F)) (args : NewFileArgs) (data : Bytes) (f : F) : Prop :=
  ∃ l1 l2 l3 i size, log = l1 ++ .newFile 0 args :: l2 ++ .complete i size (.ok (some f)) :: l3 ∧
    (∀ e ∈ l2, ∀ a, e ≠ .newFile 0 a) ∧ dataOf l2 = data

/-- In `body` there is a header followed by an empty line, `content`, at most one line end and a
separator, which is not the end of the body. -/
def Delimited (sep body content : Bytes) : Prop :=
  ∃ pre header eol post, body = pre ++ header ++ b!"\r\n\r\n" ++ content ++ eol ++ sep ++ post ∧
    (eol = [] ∨ eol = b!"\r\n" ∨ eol = b!"\n" ∨ eol = b!"\r") ∧ post ≠ [] ∧ ¬ sep <:+: content

end Verif.Spec

namespace Verif.Spec

/-- `handle_raw_input` of the handlers `is` is called in this order, each time returning `None`;
this leads from `s`, `w` to `s'`, `w'`. -/
inductive Consult {ρ σ F : Type} (H : HandlerOps ρ σ F) (a : RawArgs) :
    List Nat → LazyStream ρ → σ → LazyStream ρ → σ → Prop where
  | nil {s w} : Consult H a [] s w s w
  | cons {i is s w s1 w1 s' w'} : H.rawInput i a s w = (.ok none, s1, w1) →
      Consult H a is s1 w1 s' w' → Consult H a (i :: is) s w s' w'

/-- The number of the handler whose `handle_raw_input` is called. -/
def rawIndex {F : Type} : Ev F → Option Nat
  | .raw i => some i
  | _ => none

end Verif.Spec
