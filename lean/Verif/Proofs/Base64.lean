import Verif.Spec.Base64
import Verif.Py.Base64
import Verif.Proofs.FormParse
/-! Base64 data that arrives in pieces. -/

namespace Verif
open Spec

theorem b64digit_spec (v : Nat) (h : v < 64) : Py.b64val (b64digit v) = some v ∧ b64digit v ≠ 61 := by
  have : ∀ v : Fin 64, Py.b64val (b64digit v) = some v.val ∧ b64digit v ≠ 61 := by decide +kernel
  exact this ⟨v, h⟩

theorem Spec.Base64.loop {t d : Bytes} (h : Base64 t d) : ∀ out, Py.a2bLoop t 0 0 0 out = some (out ++ d) := by
  induction h with
  | nil => intro out; simp [Py.a2bLoop]
  | one a =>
    intro out
    have ha := a.toNat_lt
    obtain ⟨x2, x3⟩ := b64digit_spec (a.toNat / 4) (by omega)
    obtain ⟨y2, y3⟩ := b64digit_spec (a.toNat % 4 * 16) (by omega)
    have e : (a.toNat / 4 * 64 + a.toNat % 4 * 16) / 16 = a.toNat := by omega
    simp [Py.a2bLoop, Py.b64nextValid, x2, x3, y2, y3, e]
  | two a b =>
    intro out
    have ha := a.toNat_lt
    have hb := b.toNat_lt
    obtain ⟨x2, x3⟩ := b64digit_spec (a.toNat / 4) (by omega)
    obtain ⟨y2, y3⟩ := b64digit_spec (a.toNat % 4 * 16 + b.toNat / 16) (by omega)
    obtain ⟨z2, z3⟩ := b64digit_spec (b.toNat % 16 * 4) (by omega)
    have e : (a.toNat / 4 * 64 + (a.toNat % 4 * 16 + b.toNat / 16)) / 16 = a.toNat := by omega
    have e2 : ((a.toNat / 4 * 64 + (a.toNat % 4 * 16 + b.toNat / 16)) % 16 * 64 + b.toNat % 16 * 4) / 4
      = b.toNat := by omega
    simp [Py.a2bLoop, Py.b64nextValid, x2, x3, y2, y3, z2, z3, e, e2]
  | three a b c _ ih =>
    intro out
    have ha := a.toNat_lt
    have hb := b.toNat_lt
    have hc := c.toNat_lt
    obtain ⟨x2, x3⟩ := b64digit_spec (a.toNat / 4) (by omega)
    obtain ⟨y2, y3⟩ := b64digit_spec (a.toNat % 4 * 16 + b.toNat / 16) (by omega)
    obtain ⟨z2, z3⟩ := b64digit_spec (b.toNat % 16 * 4 + c.toNat / 64) (by omega)
    obtain ⟨w2, w3⟩ := b64digit_spec (c.toNat % 64) (by omega)
    have e : (a.toNat / 4 * 64 + (a.toNat % 4 * 16 + b.toNat / 16)) / 16 = a.toNat := by omega
    have e2 : ((a.toNat / 4 * 64 + (a.toNat % 4 * 16 + b.toNat / 16)) % 16 * 64 +
      (b.toNat % 16 * 4 + c.toNat / 64)) / 4 = b.toNat := by omega
    have e3 : ((a.toNat / 4 * 64 + (a.toNat % 4 * 16 + b.toNat / 16)) % 16 * 64 +
      (b.toNat % 16 * 4 + c.toNat / 64)) % 4 * 64 + c.toNat % 64 = c.toNat := by omega
    have h3 := ih (out ++ [a, b, c])
    simp [Py.a2bLoop, x2, x3, y2, y3, z2, z3, w2, w3, e, e2, e3, Nat.mod_one] at h3 ⊢
    exact h3

/-- Python decodes what RFC 4648 encodes. -/
theorem Spec.Base64.decode {t d : Bytes} (h : Base64 t d) : Py.b64decode t = some d := by
  simpa [Py.b64decode] using h.loop []

theorem Spec.Base64.length {t d : Bytes} (h : Base64 t d) : t.length % 4 = 0 := by
  induction h with
  | nil => rfl
  | three _ _ _ _ ih => simp only [List.length_cons]; omega
  | two => simp
  | one => simp

/-- Cut at a multiple of four characters, both halves are base64. -/
theorem Spec.Base64.split {t d : Bytes} (h : Base64 t d) : ∀ p q, t = p ++ q → p.length % 4 = 0 →
    ∃ d1 d2, d = d1 ++ d2 ∧ Base64 p d1 ∧ Base64 q d2 := by
  induction h with
  | nil =>
    intro p q h _
    obtain ⟨rfl, rfl⟩ := List.nil_eq_append_iff.1 h
    exact ⟨[], [], rfl, .nil, .nil⟩
  | three a b c ht ih =>
    intro p q h hp
    match p, h with
    | [], h => exact ⟨[], _, rfl, .nil, by rw [List.nil_append] at h; rw [← h]; exact .three a b c ht⟩
    | [_], _ => simp at hp
    | [_, _], _ => simp at hp
    | [_, _, _], _ => simp at hp
    | w :: x :: y :: z :: p, h =>
      simp only [List.cons_append, List.cons.injEq] at h
      obtain ⟨rfl, rfl, rfl, rfl, h⟩ := h
      simp only [List.length_cons] at hp
      obtain ⟨d1, d2, h1, h2, h3⟩ := ih p q h (by omega)
      exact ⟨a :: b :: c :: d1, d2, by simp [h1], .three a b c h2, h3⟩
  | two a b =>
    intro p q h hp
    match p, h with
    | [], h => exact ⟨[], _, rfl, .nil, by rw [List.nil_append] at h; rw [← h]; exact .two a b⟩
    | [_], _ => simp at hp
    | [_, _], _ => simp at hp
    | [_, _, _], _ => simp at hp
    | w :: x :: y :: z :: p, h =>
      simp only [List.cons_append, List.cons.injEq, List.nil_eq, List.append_eq_nil_iff] at h
      obtain ⟨rfl, rfl, rfl, rfl, rfl, rfl⟩ := h
      exact ⟨[a, b], [], rfl, .two a b, .nil⟩
  | one a =>
    intro p q h hp
    match p, h with
    | [], h => exact ⟨[], _, rfl, .nil, by rw [List.nil_append] at h; rw [← h]; exact .one a⟩
    | [_], _ => simp at hp
    | [_, _], _ => simp at hp
    | [_, _, _], _ => simp at hp
    | w :: x :: y :: z :: p, h =>
      simp only [List.cons_append, List.cons.injEq, List.nil_eq, List.append_eq_nil_iff] at h
      obtain ⟨rfl, rfl, rfl, rfl, rfl, rfl⟩ := h
      exact ⟨[a], [], rfl, .one a, .nil⟩

theorem removeSpaces_append (a b : Bytes) :
    Py.removeSpaces (a ++ b) = Py.removeSpaces a ++ Py.removeSpaces b := by
  simp [Py.removeSpaces]

section
variable {ρ σ F : Type} {H : HandlerOps ρ σ F} {Ready : σ → List (Bytes × F × Bytes) → Prop}
  {Busy : σ → List Nat → List (Bytes × F × Bytes) → Bytes → Bytes → Prop}

/-- Handlers that store files get the decoded data, however the text arrives. -/
theorem FileRun.stores64 {T : NewFileArgs → Prop} (hs : Stores H Ready Busy T) {fuel64 : Nat} {content : Bytes} {cs cs' : List Nat}
    {w w' : σ} {r : Except Exc Unit} (h : FileRun H fuel64 true content cs w r cs' w') :
    ∀ done n d0 d, content.length ≤ fuel64 → Base64 (Py.removeSpaces content) d → Busy w cs done n d0 →
      r = .ok () ∧ Busy w' cs' done n (d0 ++ d) := by
  generalize hb : true = b64 at h
  induction h with
  | stop =>
    intro done n d0 d _ h1 h
    have : d = [] := by cases h1; rfl
    exact ⟨rfl, by simpa [this] using h⟩
  | step _ h2 h3 _ ih =>
    intro done n d0 d hl h1 h
    obtain ⟨a1, a2⟩ := h2 hb.symm
    rw [removeSpaces_append] at h1
    obtain ⟨d1, d2, rfl, b1, b2⟩ := h1.split _ _ rfl a1
    rw [b1.decode] at a2
    simp only [Option.some.injEq] at a2
    subst a2
    obtain ⟨cs2, w2, c1, c2⟩ := hs.feeds _ _ _ _ _ _ h
    rw [c1] at h3
    simp only [Prod.mk.injEq, true_and] at h3
    obtain ⟨rfl, rfl⟩ := h3
    rw [List.length_append] at hl
    have := ih _ _ _ d2 (by omega) b2 c2
    rw [← List.append_assoc]; exact this
  | fail _ h2 h3 =>
    intro done n d0 d hl h1 h
    obtain ⟨cs2, w2, c1, c2⟩ := hs.feeds _ _ _ _ _ _ h
    rw [c1] at h3
    simp at h3
  | badBase64 _ h2 h3 =>
    intro done n d0 d hl h1 h
    rw [removeSpaces_append] at h1
    obtain ⟨d1, d2, rfl, b1, b2⟩ := h1.split _ _ rfl h2
    rw [b1.decode] at h3
    simp at h3
  | spin _ h =>
    intro done n d0 d hl h1 _
    exact absurd h1.length (h hl)

end
end Verif
