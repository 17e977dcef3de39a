import Verif.Props.Robust
import Verif.Props.Written
/-!
# The exceptions of a whole parse with the codecs of Python (C108)
-/

namespace Verif
open Spec

/-- The codecs of Python raise only these. -/
theorem py_avoids {e : Exc} (h1 : e ≠ .lookupError) (h2 : e ≠ .unicodeDecodeError) (h3 : e ≠ .unicodeEncodeError) :
    pyCodecs.Avoids e := by
  refine ⟨?_, ?_, ?_, ?_⟩
  · intro enc x
    simp only [pyCodecs]
    split <;> simp [h1.symm]
  · intro enc x
    simp only [pyCodecs]
    split
    · simp [h1.symm]
    · rename_i e _
      cases e <;> simp only [Enc.decode] <;> (try split) <;> simp [h2.symm]
  · intro enc x
    simp only [pyCodecs]
    split
    · simp [h1.symm]
    · split <;> simp [h2.symm]
  · intro enc x
    simp only [pyCodecs]
    split
    · simp [h1.symm]
    · rename_i e _
      cases e <;> simp only [Enc.encode] <;> (try split) <;> simp [h3.symm]

/-- **C108, the complete list for Python's codecs and the handlers of the package**, whichever are named in the settings:
apart from the exceptions that the package defines, six of Python and the `LookupError` for an unknown charset are possible,
and what creating a temporary file raises; a parse that does not terminate was sent the text `base64`. -/
theorem C108_python_partial {ρ : Type} [Producer ρ] (L : Lawful ρ) (up : List UStr) (mods : Modules (Except Exc Builtin))
    (names : List Bytes) (fuel64 : Nat) (os : Os) (hos : os.Plain)
    {hs : List Builtin} (hl : loadHandlers mods names = .ok hs) {S S' : Settings} (hS : 1 ≤ S.maxHeaderSize)
    (hmem : ∀ k, S.dataMaxMemory = some k → 0 ≤ k) {p : ρ} (hI : L.Inv p) {r r' : Req ρ BWorld Uploaded}
    (hr : Req.new pyCodecs S p = .ok r) {w w' : BWorld} {e : Exc}
    (h : parseRequest (namedEnv ρ pyCodecs up os mods names fuel64) S r w = (.error e, S', r', w')) :
    OwnExc e ∨ ForeignExc e ∨ e = .lookupError ∨ os.Raises e ∨ (e = .diverge ∧ b!"base64" <:+: Py.lower (L.content p)) := by
  by_cases hf : ForeignExc e
  · exact .inr (.inl hf)
  by_cases hk : e = .lookupError
  · exact .inr (.inr (.inl hk))
  by_cases ho : os.Raises e
  · exact .inr (.inr (.inr (.inl ho)))
  have hf' := hf
  simp only [ForeignExc, not_or] at hf'
  obtain ⟨f1, f2, f3, f4, f5, f6⟩ := hf'
  have hload : ∀ w, (namedEnv ρ pyCodecs up os mods names fuel64).load w =
      (.ok (builtinOps ρ os hs.length), { w with hs := hs }) := by
    intro w; simp only [namedEnv, hl]
  have := C108_exceptions_partial L (E := namedEnv ρ pyCodecs up os mods names fuel64) hS hmem
    hI hr ⟨py_avoids hk f2 f3, fun w => by rw [hload]; simp, fun w H w' h => ?_,
      namedEnv_oblivious L pyCodecs up os mods names fuel64⟩ h
  · rcases this with h | h | h
    · exact .inl h
    · exact .inr (.inl h)
    · exact .inr (.inr (.inr (.inr h)))
  rw [hload] at h
  simp only [Prod.mk.injEq, Except.ok.injEq] at h
  rw [← h.1, ← h.2]
  refine ⟨builtin_leaves _ _ _, ?_⟩
  by_cases he : e = .indexError
  · right
    intro S m fuel64 input hmem hc hi hx
    subst he
    exact builtin_no_index pyCodecs (fun b => py_avoids (by simp) (by simp) (by simp)) S os hos ho fuel64 m hc hmem hs w.heap input hi
      (py_avoids (by simp) (by simp) (by simp)) (Prod.ext hx rfl)
  · exact .inl (builtin_avoids (fun x hx => ho ⟨x, hx⟩) f6 f1 he)

/-- Each of the exceptions of the codecs is raised by some of them. -/
example : (pyCodecs.decode b!"ascii" [200] = .error .unicodeDecodeError) ∧ (pyCodecs.decode b!"utf-8" [200] = .error .unicodeDecodeError) ∧
    (pyCodecs.encode b!"latin-1" [300] = .error .unicodeEncodeError) ∧ (pyCodecs.decode b!"x" [] = .error .lookupError) :=
  ⟨rfl, rfl, rfl, rfl⟩

end Verif
