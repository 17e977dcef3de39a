import Verif.Props.Described
/-!
# What trimming does (C120)

`str.strip()` and, on an ASCII text, `unicode.strip()`; the second one also removes the four separators
`0x1c` to `0x1f`.
-/

namespace Verif
open Spec

namespace Spec

/-- `t` is `s` without the characters of `ws` at both ends. -/
def TrimmedOf {α : Type} (ws : List α) (s t : List α) : Prop :=
  ∃ l r, s = l ++ t ++ r ∧ (∀ c ∈ l ++ r, c ∈ ws) ∧ ∀ c, t.head? = some c ∨ t.getLast? = some c → c ∉ ws

/-- The white space of a byte string. -/
def byteBlanks : Bytes := [9, 10, 11, 12, 13, 32]

/-- The ASCII white space of a `unicode` object. -/
def textBlanks : Bytes := [9, 10, 11, 12, 13, 28, 29, 30, 31, 32]

end Spec

theorem dropWhile_parts {α : Type} (p : α → Bool) (s : List α) :
    ∃ l, s = l ++ s.dropWhile p ∧ (∀ c ∈ l, p c = true) ∧ ∀ c, (s.dropWhile p).head? = some c → p c = false := by
  induction s with
  | nil => exact ⟨[], rfl, by simp, by simp⟩
  | cons x t ih =>
    by_cases h : p x = true
    · obtain ⟨l, e, h1, h2⟩ := ih
      rw [List.dropWhile_cons_of_pos h]
      refine ⟨x :: l, by rw [List.cons_append, ← e], ?_, h2⟩
      simpa [h] using h1
    · rw [List.dropWhile_cons_of_neg h]
      refine ⟨[], rfl, by simp, ?_⟩
      simpa using h

theorem dropWhile_unique {α : Type} (p : α → Bool) {l t : List α} (h1 : ∀ c ∈ l, p c = true)
    (h2 : ∀ c, t.head? = some c → p c = false) : (l ++ t).dropWhile p = t := by
  induction l with
  | nil =>
    cases t with
    | nil => rfl
    | cons x t => simp [List.dropWhile, h2 x rfl]
  | cons x l ih =>
    rw [List.cons_append, List.dropWhile_cons_of_pos (h1 x (by simp))]
    exact ih (fun c hc => h1 c (by simp [hc]))

/-- Trimming is what it should be, for any kind of white space. -/
theorem stripBy_iff {α : Type} (p : α → Bool) (ws : List α) (hp : ∀ c, p c = true ↔ c ∈ ws) (s t : List α) :
    Py.stripBy p s = t ↔ TrimmedOf ws s t := by
  have hp' : ∀ c, p c = false ↔ c ∉ ws := fun c => by rw [← hp, Bool.not_eq_true]
  constructor
  · rintro rfl
    obtain ⟨l, e1, h1, h2⟩ := dropWhile_parts p s
    obtain ⟨r, e2, h3, h4⟩ := dropWhile_parts p (s.dropWhile p).reverse
    have e3 : s.dropWhile p = Py.stripBy p s ++ r.reverse := by
      rw [Py.stripBy, ← List.reverse_append, ← e2, List.reverse_reverse]
    refine ⟨l, r.reverse, ?_, ?_, ?_⟩
    · rw [List.append_assoc, ← e3]
      exact e1
    · intro c hc
      rw [List.mem_append, List.mem_reverse] at hc
      exact (hp c).1 (hc.elim (h1 c) (h3 c))
    · intro c hc
      rw [← hp']
      rcases hc with hc | hc
      · refine h2 c ?_
        rw [e3, List.head?_append, hc]
        rfl
      · refine h4 c ?_
        rwa [Py.stripBy, List.getLast?_reverse] at hc
  · rintro ⟨l, r, rfl, h1, h2⟩
    rw [List.append_assoc]
    by_cases ht : t = []
    · subst ht
      rw [Py.stripBy, List.nil_append, show (l ++ r).dropWhile p = [] from by
        have := dropWhile_unique p (l := l ++ r) (t := []) (fun c hc => (hp c).2 (h1 c hc)) (by simp)
        rwa [List.append_nil] at this]
      rfl
    · have hne : ∃ c, t.head? = some c := by
        cases t with
        | nil => exact absurd rfl ht
        | cons c t => exact ⟨c, rfl⟩
      obtain ⟨c0, hc0⟩ := hne
      rw [Py.stripBy, dropWhile_unique p (fun c hc => (hp c).2 (h1 c (by simp [hc]))) (by
        intro c hc
        rw [List.head?_append, hc0] at hc
        exact (hp' c).2 (h2 c (.inl (hc0.trans hc)))), List.reverse_append,
        dropWhile_unique p (fun c hc => (hp c).2 (h1 c (by simp [List.mem_reverse.1 hc]))) (by
          intro c hc
          rw [List.head?_reverse] at hc
          exact (hp' c).2 (h2 c (.inr hc))), List.reverse_reverse]

/-- **C120**: the trimming of a header value (`strip` on a `unicode` object) removes the ASCII white space at both ends,
the four separators `0x1c` to `0x1f` included, and nothing else. -/
theorem C120_trim (s t : Bytes) : Py.ustrip s = t ↔ TrimmedOf textBlanks s t := by
  refine stripBy_iff _ _ (fun c => ?_) s t
  have := forall_u8 (fun c => decide (Py.isUSpace c = true ↔ c ∈ textBlanks)) (by decide +kernel) c
  exact of_decide_eq_true this

/-- The same for byte strings. -/
theorem C120_trim_bytes (s t : Bytes) : Py.strip s = t ↔ TrimmedOf byteBlanks s t := by
  refine stripBy_iff _ _ (fun c => ?_) s t
  have := forall_u8 (fun c => decide (Py.isSpace c = true ↔ c ∈ byteBlanks)) (by decide +kernel) c
  exact of_decide_eq_true this

/-- What a file is announced with: the type written in the header of its part, trimmed; no other is possible. -/
theorem C120_type {md : MetaData} {name fileName : Bytes} {a : NewFileArgs} (h : Describes md name fileName a) (t : Bytes) :
    a.contentType = t ↔ TrimmedOf textBlanks ((md.get? b!"content-type").getD ([], [])).1 t := by
  rw [h.contentType, C120_trim]

/-- A separator and a space around `a b`: all removed from a text, only the space from a byte string. -/
example : TrimmedOf textBlanks ([32, 28] ++ b!"a b" ++ [9, 31]) b!"a b" ∧
    Py.ustrip ([32, 28] ++ b!"a b" ++ [9, 31]) = b!"a b" ∧
    Py.strip ([32, 28] ++ b!"a b" ++ [9, 31]) = [28] ++ b!"a b" ++ [9, 31] :=
  ⟨⟨[32, 28], [9, 31], rfl, by decide, by rintro c (h | h) <;> simp at h <;> subst h <;> decide⟩, by decide +kernel, by decide +kernel⟩

end Verif
