import Verif.Proofs.ParseInv
/-! The built-in handlers leave the parsing to the parser. -/

namespace Verif
open Spec

theorem builtin_leaves {ρ : Type} [Producer ρ] (L : Lawful ρ) (os : Os) (n : Nat) :
    LeavesParsing L (builtinOps ρ os n) where
  none := by
    intro i a s w r
    simp only [builtinOps, BWorld.on]
    cases w.hs[i]? <;> simp
  reads := by
    intro i a s w h
    simp only [builtinOps, BWorld.on]
    cases w.hs[i]? <;> exact ⟨h, List.suffix_refl _⟩

theorem SOK.fresh (chunks : List Bytes) : SOK Source.lawful (LazyStream.mk' ⟨chunks⟩) :=
  ⟨trivial, HistOK.nil _ _, rfl⟩

theorem sc_fresh (chunks : List Bytes) :
    Source.lawful.sc (LazyStream.mk' ⟨chunks⟩) = chunks.flatten := by
  simp [Lawful.sc, LazyStream.mk', Source.lawful]

end Verif
