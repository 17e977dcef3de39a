import Verif.Proofs.ParseErr
import Verif.Py.Utf8
/-!
# Lines of a part's header that cannot be read (C150)
-/

namespace Verif
open Spec

/-- `ValueError` and the classes derived from it. -/
def Spec.ValueErr (e : Exc) : Prop := e = .valueError ∨ e = .unicodeDecodeError ∨ e = .unicodeEncodeError

/-- The line is a name, a colon and a value, with parameters that can be read. -/
def Spec.Readable (C : Codecs) (line : Bytes) : Prop := ∃ x, parsePartHeader C line = .ok x

theorem partHeaders_bad {C : Codecs} {line : Bytes} {e : Exc} (h : parsePartHeader C line = .error e) (hv : ValueErr e)
    (ls : List Bytes) (t : ItemType) (out : MetaData) : partHeaders C (line :: ls) t out = partHeaders C ls t out := by
  rcases hv with rfl | rfl | rfl <;> simp [partHeaders, h, Exc.isValueError]

theorem partHeaders_raise {C : Codecs} {line : Bytes} {e : Exc} (h : parsePartHeader C line = .error e) (hv : ¬ ValueErr e)
    (ls : List Bytes) (t : ItemType) (out : MetaData) : partHeaders C (line :: ls) t out = .error e := by
  have : e.isValueError = false := by
    cases e <;> first | rfl | exact absurd (by simp [ValueErr]) hv
  simp [partHeaders, h, this]

/-- **C150**: wherever a line that cannot be read (a `ValueError` of any kind, whatever the codecs raise) is in the header of
a part, the header means what it means without the line. -/
theorem C150_left_out {C : Codecs} {line : Bytes} {e : Exc} (h : parsePartHeader C line = .error e) (hv : ValueErr e)
    (a b : List Bytes) (t : ItemType) (out : MetaData) :
    partHeaders C (a ++ line :: b) t out = partHeaders C (a ++ b) t out := by
  induction a generalizing t out with
  | nil => exact partHeaders_bad h hv b t out
  | cons l a ih =>
    cases hl : parsePartHeader C l with
    | error e' =>
      by_cases hv' : ValueErr e'
      · simp only [List.cons_append, partHeaders_bad hl hv', ih]
      · simp only [List.cons_append, partHeaders_raise hl hv']
    | ok x => simp only [List.cons_append, partHeaders, hl, ih]

/-- **C150**: an exception leaves the header of a part exactly when one of its lines raises it, it is not a `ValueError`, and
no line before it raises another such exception. -/
theorem C150_raised {C : Codecs} (ls : List Bytes) (t : ItemType) (out : MetaData) (e : Exc) :
    partHeaders C ls t out = .error e ↔
      ¬ ValueErr e ∧ ∃ a line b, ls = a ++ line :: b ∧ parsePartHeader C line = .error e ∧
        ∀ l ∈ a, Readable C l ∨ ∃ e', parsePartHeader C l = .error e' ∧ ValueErr e' := by
  induction ls generalizing t out with
  | nil => simp [partHeaders]
  | cons l ls ih =>
    cases hl : parsePartHeader C l with
    | error e' =>
      by_cases hv : ValueErr e'
      · rw [partHeaders_bad hl hv, ih]
        constructor
        · rintro ⟨h1, a, line, b, rfl, h2, h3⟩
          refine ⟨h1, l :: a, line, b, rfl, h2, fun x hx => ?_⟩
          rcases List.mem_cons.1 hx with rfl | hx
          · exact .inr ⟨e', hl, hv⟩
          · exact h3 x hx
        · rintro ⟨h1, a, line, b, h, h2, h3⟩
          cases a with
          | nil =>
            simp only [List.nil_append, List.cons.injEq] at h
            obtain ⟨rfl, -⟩ := h
            rw [hl] at h2
            cases h2
            exact absurd hv h1
          | cons c a =>
            simp only [List.cons_append, List.cons.injEq] at h
            exact ⟨h1, a, line, b, h.2, h2, fun x hx => h3 x (by simp [hx])⟩
      · rw [partHeaders_raise hl hv]
        constructor
        · intro h
          cases h
          exact ⟨hv, [], l, ls, rfl, hl, by simp⟩
        · rintro ⟨h1, a, line, b, h, h2, h3⟩
          cases a with
          | nil =>
            simp only [List.nil_append, List.cons.injEq] at h
            obtain ⟨rfl, -⟩ := h
            rw [hl] at h2
            cases h2
            rfl
          | cons c a =>
            simp only [List.cons_append, List.cons.injEq] at h
            obtain ⟨rfl, -⟩ := h
            rcases h3 l (by simp) with ⟨x, hx⟩ | ⟨e2, hx, hv2⟩
            · rw [hl] at hx; cases hx
            · rw [hl] at hx; cases hx; exact absurd hv2 hv
    | ok x =>
      have hstep : ∃ t' out', partHeaders C (l :: ls) t out = partHeaders C ls t' out' := by
        simp only [partHeaders, hl]
        exact ⟨_, _, rfl⟩
      obtain ⟨t', out', hs⟩ := hstep
      rw [hs, ih]
      constructor
      · rintro ⟨h1, a, line, b, rfl, h2, h3⟩
        refine ⟨h1, l :: a, line, b, rfl, h2, fun y hy => ?_⟩
        rcases List.mem_cons.1 hy with rfl | hy
        · exact .inl ⟨x, hl⟩
        · exact h3 y hy
      · rintro ⟨h1, a, line, b, h, h2, h3⟩
        cases a with
        | nil =>
          simp only [List.nil_append, List.cons.injEq] at h
          obtain ⟨rfl, -⟩ := h
          rw [hl] at h2
          cases h2
        | cons c a =>
          simp only [List.cons_append, List.cons.injEq] at h
          exact ⟨h1, a, line, b, h.2, h2, fun y hy => h3 y (by simp [hy])⟩

/-- A line without a colon, one with a byte that is not ASCII in the name of a parameter, and one that names an unknown
charset: the first two are left out, the third raises `LookupError`. -/
example : (∃ e, parsePartHeader pyCodecs b!"nonsense" = .error e ∧ ValueErr e) ∧
    (∃ e, parsePartHeader pyCodecs (b!"a: b; " ++ 200 :: b!"=c") = .error e ∧ ValueErr e) ∧
    (∃ e, parsePartHeader pyCodecs b!"a: b; c*=klingon''%41" = .error e ∧ ¬ ValueErr e) := by
  refine ⟨⟨.valueError, by rfl, .inl rfl⟩, ⟨.unicodeDecodeError, by rfl, .inr (.inl rfl)⟩, ⟨.lookupError, by rfl, ?_⟩⟩
  simp [ValueErr]

end Verif
