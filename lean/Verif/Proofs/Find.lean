import Verif.Py.Bytes
import Mathlib.Data.List.Infix
import Mathlib.Tactic.Linarith
/-! Lemmas about `Py.find`. -/

namespace Verif.Py
variable {α : Type} [DecidableEq α]

theorem find_some {p s : List α} {i : Nat} :
    find p s = some i ↔ i ≤ s.length ∧ p <+: s.drop i ∧ ∀ j < i, ¬ p <+: s.drop j := by
  induction s generalizing i with
  | nil =>
    unfold find
    by_cases h : p = []
    · subst h; simp; constructor
      · rintro rfl; simp
      · rintro ⟨h, _⟩; exact h.symm
    · simp [h]
  | cons x t ih =>
    unfold find
    by_cases h : p.isPrefixOf (x :: t)
    · simp only [h, if_true]
      have h' := List.isPrefixOf_iff_prefix.1 h
      constructor
      · intro e; obtain rfl : 0 = i := by simpa using e
        simpa using h'
      · rintro ⟨_, _, h3⟩
        cases i with
        | zero => rfl
        | succ i => exact absurd h' (by simpa using h3 0 (by omega))
    · simp only [h]
      have h' : ¬ p <+: x :: t := fun e => h (List.isPrefixOf_iff_prefix.2 e)
      cases i with
      | zero => simp [h']
      | succ i =>
        simp only [Bool.false_eq_true, if_false, Option.map_eq_some_iff, Nat.add_right_cancel_iff,
          exists_eq_right, ih, List.length_cons, List.drop_succ_cons]
        constructor
        · rintro ⟨a, b, c⟩
          refine ⟨by omega, b, fun j hj => ?_⟩
          cases j with
          | zero => simpa using h'
          | succ j => simpa using c j (by omega)
        · rintro ⟨a, b, c⟩
          exact ⟨by omega, b, fun j hj => by simpa using c (j+1) (by omega)⟩

theorem find_none {p s : List α} :
    find p s = none ↔ ∀ j ≤ s.length, ¬ p <+: s.drop j := by
  constructor
  · intro h j hj hp
    classical
    have ex : ∃ j, j ≤ s.length ∧ p <+: s.drop j := ⟨j, hj, hp⟩
    have := Nat.find_spec ex
    have e : find p s = some (Nat.find ex) :=
      find_some.2 ⟨this.1, this.2, fun k hk hp' =>
        Nat.find_min ex hk ⟨by omega, hp'⟩⟩
    simp [h] at e
  · intro h
    cases e : find p s with
    | none => rfl
    | some i => exact absurd (find_some.1 e).2.1 (h i (find_some.1 e).1)

theorem find_none_iff_not_infix {p s : List α} : find p s = none ↔ ¬ p <:+: s := by
  rw [find_none]
  constructor
  · rintro h ⟨a, b, rfl⟩
    refine h a.length (by simp) ?_
    simp
  · intro h j _ hp
    exact h (hp.isInfix.trans (List.drop_suffix j s).isInfix)

theorem find_bound {p s : List α} {i : Nat} (h : find p s = some i) : i + p.length ≤ s.length := by
  obtain ⟨a, b, _⟩ := find_some.1 h
  have := b.length_le
  simp at this; omega

theorem find_decomp {p s : List α} {i : Nat} (h : find p s = some i) :
    s = s.take i ++ p ++ s.drop (i + p.length) := by
  obtain ⟨a, ⟨t, b⟩, _⟩ := find_some.1 h
  have e : s.drop (i + p.length) = t := by
    rw [← List.drop_drop, ← b]; simp
  rw [e, List.append_assoc, b, List.take_append_drop]

/-- A match in a prefix is the match in the whole. -/
theorem find_append_left {p s t : List α} {i : Nat} (h : find p s = some i) :
    find p (s ++ t) = some i := by
  obtain ⟨a, b, c⟩ := find_some.1 h
  have hb := find_bound h
  refine find_some.2 ⟨by simp; omega, ?_, fun j hj hp => c j hj ?_⟩
  · rw [List.drop_append_of_le_length a]
    exact b.trans (List.prefix_append _ _)
  · rw [List.drop_append_of_le_length (by omega)] at hp
    refine List.prefix_of_prefix_length_le hp (List.prefix_append _ _) ?_
    simp; omega

/-- If there is no match in `s`, every match in `s ++ t` ends after `s`. -/
theorem find_append_gt {p s t : List α} {i : Nat} (h : find p s = none)
    (h2 : find p (s ++ t) = some i) : s.length < i + p.length := by
  by_contra hc
  obtain ⟨a, b, c⟩ := find_some.1 h2
  refine find_none.1 h i (by omega) ?_
  rw [List.drop_append_of_le_length (by omega)] at b
  refine List.prefix_of_prefix_length_le b (List.prefix_append _ _) ?_
  simp; omega

/-- Dropping a prefix in which no match starts shifts the match. -/
theorem find_drop {p s : List α} {n : Nat} (hn : n ≤ s.length)
    (h : ∀ j < n, ¬ p <+: s.drop j) : find p s = (find p (s.drop n)).map (· + n) := by
  cases e : find p (s.drop n) with
  | none =>
    simp only [Option.map_none]
    refine find_none.2 fun j hj hp => ?_
    by_cases hjn : j < n
    · exact h j hjn hp
    · refine find_none.1 e (j - n) (by simp; omega) ?_
      rw [List.drop_drop]; rwa [show n + (j - n) = j by omega]
  | some i =>
    simp only [Option.map_some]
    obtain ⟨a, b, c⟩ := find_some.1 e
    simp at a
    refine find_some.2 ⟨by omega, ?_, fun j hj hp => ?_⟩
    · rw [List.drop_drop] at b; rwa [Nat.add_comm]
    · by_cases hjn : j < n
      · exact h j hjn hp
      · refine c (j - n) (by omega) ?_
        rw [List.drop_drop]; rwa [show n + (j - n) = j by omega]

/-- First-occurrence characterisation. -/
theorem find_of_decomp {p a b : List α}
    (h : ∀ j < a.length, ¬ p <+: (a ++ p ++ b).drop j) :
    find p (a ++ p ++ b) = some a.length := by
  refine find_some.2 ⟨by simp, by simp, h⟩

theorem find_eq_zero_of_prefix {p s : List α} (h : p <+: s) : find p s = some 0 :=
  find_some.2 ⟨by simp, by simpa using h, by simp⟩

theorem find_nil_of_ne {p : List α} (h : p ≠ []) : find p [] = none := by simp [find, h]

/-- `s.find(p)` does not depend on bytes after the match being appended. -/
theorem find_none_of_append {p s t : List α} (h : find p (s ++ t) = none) : find p s = none := by
  rw [find_none_iff_not_infix] at *
  exact fun hp => h (hp.trans (List.prefix_append _ _).isInfix)

end Verif.Py
