import Verif.Model.Stream
/-!
# What a user expects of a byte stream

An abstract stream is the list of bytes still to come.  These definitions mention
neither leftovers nor producers.
-/

namespace Verif.Spec

/-- The calls a user can make on a stream. -/
inductive StreamOp where
  /-- `read(n)` -/
  | read (n : Nat)
  /-- `read()` -/
  | readAll
  /-- `next(stream)` -/
  | next
  /-- `unget(b)` -/
  | unget (b : Bytes)

/-- One call on an abstract stream `rest`: the value returned (`none` when nothing is
returned or `StopIteration` is raised) and the stream afterwards. -/
inductive Step : Bytes → StreamOp → Option Bytes → Bytes → Prop where
  | read (rest n) : Step rest (.read n) (some (rest.take n)) (rest.drop n)
  | readAll (rest) : Step rest .readAll (some rest) []
  | nextSome (chunk rest) : Step (chunk ++ rest) .next (some chunk) rest
  | nextStop : Step [] .next none []
  | unget (b rest) : Step rest (.unget b) none (b ++ rest)

/-- A sequence of calls. -/
inductive Run : Bytes → List StreamOp → List (Option Bytes) → Bytes → Prop where
  | nil (rest) : Run rest [] [] rest
  | cons {rest op out rest' ops outs rest''} :
      Step rest op out rest' → Run rest' ops outs rest'' →
      Run rest (op :: ops) (out :: outs) rest''

/-- Bytes handed out minus bytes pushed back. -/
def netBytes : List StreamOp → List (Option Bytes) → Int
  | .unget b :: ops, _ :: outs => - (b.length : Int) + netBytes ops outs
  | _ :: ops, some o :: outs => o.length + netBytes ops outs
  | _ :: ops, none :: outs => netBytes ops outs
  | _, _ => 0

end Verif.Spec

namespace Verif
open Spec

/-- Execute one user call on the model. -/
def LazyStream.call {σ : Type} [Producer σ] (s : LazyStream σ) :
    StreamOp → Res (LazyStream σ) (Option Bytes)
  | .read n => match s.read (some n) with
    | (.ok b, s) => (.ok (some b), s)
    | (.error e, s) => (.error e, s)
  | .readAll => match s.read none with
    | (.ok b, s) => (.ok (some b), s)
    | (.error e, s) => (.error e, s)
  | .next => s.next
  | .unget b => match s.unget b with
    | (.ok (), s) => (.ok none, s)
    | (.error e, s) => (.error e, s)

/-- Execute a sequence of user calls, stopping at the first exception. -/
def LazyStream.calls {σ : Type} [Producer σ] (s : LazyStream σ) :
    List StreamOp → Res (LazyStream σ) (List (Option Bytes))
  | [] => (.ok [], s)
  | op :: ops =>
    match s.call op with
    | (.error e, s) => (.error e, s)
    | (.ok out, s) =>
      match s.calls ops with
      | (.error e, s) => (.error e, s)
      | (.ok outs, s) => (.ok (out :: outs), s)

/-- `Drain p cs p'`: calling `next` until `StopIteration` yields the chunks `cs`. -/
inductive Drain {σ : Type} [Producer σ] : σ → List Bytes → σ → Prop where
  | stop {p p'} : Producer.next p = (.ok none, p') → Drain p [] p'
  | step {p c p' cs p''} : Producer.next p = (.ok (some c), p') → Drain p' cs p'' →
      Drain p (c :: cs) p''

end Verif
