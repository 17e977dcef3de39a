import Verif.Proofs.Find
/-! Splitting strings at single characters. -/

namespace Verif.Py
variable {α : Type} [DecidableEq α]

theorem find1_none {c : α} {s : List α} : find [c] s = none ↔ c ∉ s := by
  induction s with
  | nil => simp [find]
  | cons x t ih =>
    by_cases h : c = x
    · subst h; simp [find, List.isPrefixOf]
    · simp [find, List.isPrefixOf, h, ih]

theorem find1_append {c : α} {l r : List α} (h : c ∉ l) : find [c] (l ++ c :: r) = some l.length := by
  induction l with
  | nil => simp [find, List.isPrefixOf]
  | cons x t ih =>
    simp only [List.mem_cons, not_or] at h
    simp [find, List.isPrefixOf, h.1, ih h.2]

/-- The first occurrence splits the string. -/
theorem mem_split_first {c : α} : ∀ {s : List α}, c ∈ s → ∃ l r, s = l ++ c :: r ∧ c ∉ l
  | [], h => by simp at h
  | x :: t, h => by
    by_cases hx : c = x
    · exact ⟨[], t, by simp [hx], by simp⟩
    · obtain ⟨l, r, e, hl⟩ := mem_split_first (s := t) (by simpa [hx] using h)
      exact ⟨x :: l, r, by simp [e], by simp [hx, hl]⟩

/-- The last occurrence splits the string. -/
theorem mem_split_last {c : α} {s : List α} (h : c ∈ s) : ∃ l r, s = l ++ c :: r ∧ c ∉ r := by
  obtain ⟨l, r, e, hl⟩ := mem_split_first (s := s.reverse) (c := c) (by simpa using h)
  refine ⟨r.reverse, l.reverse, ?_, by simpa using hl⟩
  have := congrArg List.reverse e
  simpa using this

theorem find1_some {c : α} {s : List α} {i : Nat} (h : find [c] s = some i) :
    ∃ l r, s = l ++ c :: r ∧ c ∉ l ∧ i = l.length := by
  have hm : c ∈ s := by
    by_contra hc
    rw [find1_none.2 hc] at h; simp at h
  obtain ⟨l, r, e, hl⟩ := mem_split_first hm
  refine ⟨l, r, e, hl, ?_⟩
  rw [e, find1_append hl] at h
  simpa using h.symm

theorem splitFirst_app {c : α} {l r : List α} (h : c ∉ l) :
    splitFirst c (l ++ c :: r) = some (l, r) := by
  induction l with
  | nil => simp [splitFirst]
  | cons x t ih =>
    simp only [List.mem_cons, not_or] at h
    simp [splitFirst, Ne.symm h.1, ih h.2]

theorem splitFirst_eq_none {c : α} {s : List α} : splitFirst c s = none ↔ c ∉ s := by
  induction s with
  | nil => simp [splitFirst]
  | cons x t ih =>
    by_cases h : x = c
    · subst h; simp [splitFirst]
    · simp [splitFirst, h, ih, Ne.symm h]

theorem splitFirst_eq_some {c : α} {s l r : List α} (h : splitFirst c s = some (l, r)) :
    s = l ++ c :: r ∧ c ∉ l := by
  have hm : c ∈ s := by
    by_contra hc
    rw [splitFirst_eq_none.2 hc] at h; simp at h
  obtain ⟨l', r', e, hl⟩ := mem_split_first hm
  rw [e, splitFirst_app hl] at h
  simp only [Option.some.injEq, Prod.mk.injEq] at h
  obtain ⟨rfl, rfl⟩ := h
  exact ⟨e, hl⟩

theorem rfindChar_eq_none {c : α} {s : List α} : rfindChar c s = none ↔ c ∉ s := by
  induction s with
  | nil => simp [rfindChar]
  | cons x t ih =>
    unfold rfindChar
    cases h : rfindChar c t with
    | some i =>
      have : c ∈ t := by
        by_contra hc
        rw [ih.2 hc] at h; simp at h
      simp [this]
    | none =>
      have := ih.1 h
      by_cases hx : x = c
      · simp [hx]
      · simp [hx, Ne.symm hx, this]

theorem rfindChar_app {c : α} {l r : List α} (h : c ∉ r) :
    rfindChar c (l ++ c :: r) = some l.length := by
  induction l with
  | nil => simp [rfindChar, rfindChar_eq_none.2 h]
  | cons x t ih => simp [rfindChar, ih]

theorem rfindChar_eq_some {c : α} {s : List α} {i : Nat} (h : rfindChar c s = some i) :
    ∃ l r, s = l ++ c :: r ∧ c ∉ r ∧ i = l.length := by
  have hm : c ∈ s := by
    by_contra hc
    rw [rfindChar_eq_none.2 hc] at h; simp at h
  obtain ⟨l, r, e, hl⟩ := mem_split_last hm
  refine ⟨l, r, e, hl, ?_⟩
  rw [e, rfindChar_app hl] at h
  simpa using h.symm

end Verif.Py
