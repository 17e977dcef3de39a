import Verif.Model.Handlers
import Verif.Proofs.Multipart
/-!
# Vocabulary for statements about multipart parsing
-/

namespace Verif.Spec

/-- All (name, value) pairs held by a multi-value dictionary. -/
def items {α : Type} (d : MVD α) : List (Bytes × α) :=
  d.flatMap (fun p => p.2.map (fun v => (p.1, v)))

/-- The size of a form field as the documentation counts it: value, name and 2 bytes for `&=`. -/
def fieldSize (p : Bytes × PostItem) : Nat := p.2.data.length + p.1.length + 2

/-- Handlers that leave the parsing to the parser: `handle_raw_input` returns `None` and uses the
request stream, if at all, by reading it. -/
structure LeavesParsing {ρ σ F : Type} [Producer ρ] (L : Lawful ρ) (H : HandlerOps ρ σ F) : Prop where
  none : ∀ i a s w r, (H.rawInput i a s w).1 ≠ .ok (some r)
  reads : ∀ i a s w, SOK L s → SOK L (H.rawInput i a s w).2.1 ∧
    L.sc (H.rawInput i a s w).2.1 <:+ L.sc s

end Verif.Spec
