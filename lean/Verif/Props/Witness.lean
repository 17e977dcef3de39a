import Verif.Props.Text
import Verif.Props.Date2
/-!
# C62, C72: all the inputs for which the property is false
-/

namespace Verif
open Verif.Spec

theorem refBody_no_amp {b : Bytes} (h : RefBody b) : 38 ∉ b := by
  obtain ⟨h, x, w, hh, hx, _, hw, rfl⟩ := h
  have h1 : 38 ∉ h := by rcases hh with rfl | rfl <;> simp
  have h2 : 38 ∉ x := by rcases hx with rfl | rfl | rfl <;> simp
  have h3 : 38 ∉ w := by
    intro hm
    rcases hw with hw | hw
    · exact absurd ((hexDigit_bool 38).2 (hw _ hm)) (by decide)
    · exact absurd ((word_bool 38).2 (hw.2 _ hm)) (by decide)
  simp [h1, h2, h3]

/-- Two texts up to a semicolon. -/
theorem semi_inj {b b' t t' : Bytes} (h : 59 ∉ b) (h' : 59 ∉ b') (e : b ++ [59] ++ t = b' ++ [59] ++ t') : b = b' := by
  have h1 := (uptoSemi_iff (b ++ [59] ++ t) b).2 ⟨h, t, rfl⟩
  have h2 := (uptoSemi_iff (b ++ [59] ++ t) b').2 ⟨h', t', e⟩
  rw [h1] at h2
  exact Option.some.inj h2

/-- The numbers of a text whose references can be replaced fit a C `long`. -/
theorem Spec.Unescaped.small {names : List (Bytes × UInt8)} (hnames : ∀ p ∈ names, ∀ n, ¬ RefNum p.1 n) {s r : Bytes}
    (h : Unescaped names s r) :
    ∀ p b q n, RefBody b → s = p ++ ([38] ++ b ++ [59]) ++ q → RefNum b n → n < 2 ^ 63 := by
  induction h with
  | nil => intro p b q n _ e; simp at e
  | @plain c t r hs _ ih =>
    intro p b q n hb e hn
    cases p with
    | nil => exact absurd ⟨b, q, hb, by simpa using e⟩ hs
    | cons x p =>
      simp only [List.cons_append, List.cons.injEq] at e
      exact ih p b q n hb e.2 hn
  | @ref b0 o t r hb0 ho _ ih =>
    intro p b q n hb e hn
    cases p with
    | nil =>
      simp only [List.nil_append, List.append_assoc, List.cons_append, List.cons.injEq, true_and] at e
      have : b0 = b := semi_inj (t := t) (t' := q) (refBody_no_semi hb0) (refBody_no_semi hb) (by simpa using e)
      subst this
      have hu : ∀ k, RefNum b0 k → k = n := by
        intro k hk
        have h1 := (refNumber_iff b0 k).2 hk
        rw [(refNumber_iff b0 n).2 hn] at h1
        exact (Option.some.inj h1).symm
      cases ho with
      | num hk hl => rw [← hu _ hk]; omega
      | big hk _ hl => rw [← hu _ hk]; exact hl
      | name hm => exact absurd hn (hnames _ hm n)
      | other hk _ => exact absurd hn (hk n)
    | cons x p =>
      have e : (b0 ++ [59]) ++ t = p ++ (38 :: (b ++ [59] ++ q)) := by
        simp only [List.cons_append, List.nil_append, List.append_assoc, List.cons.injEq] at e
        simpa using e.2
      rcases List.append_eq_append_iff.1 e with ⟨a, rfl, ha⟩ | ⟨a, ha, hb'⟩
      · exact ih a b q n hb (by rw [ha]; simp) hn
      · cases a with
        | nil => exact ih [] b q n hb (by simpa using hb'.symm) hn
        | cons y a =>
          simp only [List.cons_append, List.cons.injEq] at hb'
          have : (38 : UInt8) ∈ b0 ++ [59] := by rw [ha, ← hb'.1]; simp
          rcases List.mem_append.1 this with h | h
          · exact absurd h (refBody_no_amp hb0)
          · simp at h

theorem unescapeLoop_error (fuel : Nat) : ∀ (s : Bytes) e, unescapeLoop fuel s = .error e → e = .overflowError := by
  induction fuel with
  | zero => intro s e h; cases h
  | succ fuel ih =>
    intro s e h
    cases s with
    | nil => cases h
    | cons c t =>
      have hplain : (match unescapeLoop fuel t with
          | .error e => (.error e : Except Exc Bytes)
          | .ok r => .ok (c :: r)) = .error e → e = .overflowError := by
        intro h
        split at h
        · rename_i e' he; cases h; exact ih _ _ he
        · cases h
      by_cases hs : StartsRef (c :: t)
      · obtain ⟨b, r, hb, e'⟩ := hs
        rw [e', unescapeLoop_ref hb, replaceEntity_eq] at h
        have hrep : ∀ x, (match refNumber b with
            | some n => pyChr n
            | none => (.ok ((entityNames.find? (fun p : Bytes × UInt8 => p.1 = b)).map Prod.snd) : Except Exc (Option UInt8))) = .error x → x = .overflowError := by
          intro x hx
          split at hx
          · unfold pyChr at hx
            split at hx
            · cases hx
            · split at hx
              · cases hx
              · cases hx; rfl
          · cases hx
        split at h
        · rename_i x hx; cases h; exact hrep _ hx
        · split at h
          · rename_i x hx; cases h; exact ih _ _ hx
          · cases h
      · rw [unescapeLoop_plain hs] at h
        exact hplain h

/-- **C62 is false of the code for every text with a reference whose number does not fit a C `long`**, and only for
those an exception escapes: it is an `OverflowError`. -/
theorem C62_overflow_refuted (s : Bytes) (e : Exc) : unescapeEntities s = .error e ↔
    e = .overflowError ∧ ∃ p b q n, RefBody b ∧ s = p ++ ([38] ++ b ++ [59]) ++ q ∧ RefNum b n ∧ 2 ^ 63 ≤ n := by
  constructor
  · intro h
    refine ⟨unescapeLoop_error _ _ _ h, ?_⟩
    by_contra hn
    obtain ⟨r, hr⟩ := C62_total s (by
      intro p b q n hb e hk
      by_contra hl
      exact hn ⟨p, b, q, n, hb, e, hk, by omega⟩)
    rw [h] at hr
    cases hr
  · rintro ⟨rfl, p, b, q, n, hb, hs, hn, hl⟩
    cases hr : unescapeEntities s with
    | error e => rw [unescapeLoop_error _ _ _ hr]
    | ok r =>
      exfalso
      have hnames : ∀ p ∈ htmlNames, ∀ n, ¬ RefNum p.1 n := by
        have hall : ∀ p ∈ htmlNames, p.1.head? ≠ some 35 := by decide +kernel
        intro p hp n hn
        rcases hn with ⟨ds, e, _⟩ | ⟨x, pr, ds, _, _, e, _⟩ <;> exact hall p hp (by rw [e]; rfl)
      have := ((C62_partial s r).1 hr).small hnames p b q n hb hs hn
      omega

/-- A reference in the middle of a text. -/
example : RefBody b!"#xFFFFFFFFFFFFFFFF" ∧ RefNum b!"#xFFFFFFFFFFFFFFFF" (2 ^ 64 - 1) := by
  refine ⟨⟨b!"#", b!"x", b!"FFFFFFFFFFFFFFFF", .inr rfl, .inr (.inl rfl), by decide, .inl ?_, rfl⟩, ?_⟩
  · intro c hc
    exact (hexDigit_bool c).1 (by
      have : ∀ c ∈ b!"FFFFFFFFFFFFFFFF", isHexDigit c = true := by decide
      exact this c hc)
  · exact (refNumber_iff _ _).1 (by decide +kernel)

/-- **C72 is false of the code for every text of one of the three forms that names no month, no real date or no time of
the day**: it raises `TypeError`, and nothing else does. -/
theorem C72_all_refuted (text : Bytes) : parseHttpDate text = .error .typeError ↔
    (∃ y mon d h mi s, DateForm text y mon d h mi s) ∧
    ¬ ∃ y mon m d h mi s, DateForm text y mon d h mi s ∧ IsMonth mon m ∧ RealDate (window y) m d ∧
      h < 24 ∧ mi < 60 ∧ s < 60 := by
  have hv := C72_exact text
  constructor
  · intro h
    constructor
    · by_contra hn
      rw [hv.2 hn] at h
      cases h
    · rintro ⟨y, mon, m, d, hh, mi, s, a1, a2, a3, a4, a5, a6⟩
      rw [(C61_exact text _).2 ⟨y, mon, m, d, hh, mi, s, _, a1, a2, a3, a4, a5, a6, (dayNumber_iff a3 _).2 rfl, rfl⟩] at h
      cases h
  · rintro ⟨h1, h2⟩
    rcases (C72_partial text).1 with ⟨t, ht, _⟩ | ⟨h, _⟩ | ⟨h, _⟩
    · obtain ⟨y, mon, m, d, hh, mi, s, n, a1, a2, a3, a4, a5, a6, _⟩ := (C61_exact text t).1 ht
      exact absurd ⟨y, mon, m, d, hh, mi, s, a1, a2, a3, a4, a5, a6⟩ h2
    · exact absurd h1 (hv.1 h)
    · exact h

example : parseHttpDate b!"Mon, 30 Feb 2026 00:00:00 GMT" = .error .typeError ∧
    parseHttpDate b!"Xyz, 01 Abc 2026 00:00:00 GMT" = .error .typeError ∧
    parseHttpDate b!"Mon, 01 Feb 2026 24:00:00 GMT" = .error .typeError := ⟨rfl, rfl, rfl⟩

end Verif
