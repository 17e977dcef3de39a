import Verif.Model.Quote
import Verif.Spec.Query
import Verif.Proofs.Chars
/-! Helper lemmas about percent-encoding. -/

namespace Verif
open Spec

/-- Checking all 256 bytes. -/
theorem forall_u8 (p : UInt8 → Bool) (h : (List.range 256).all (fun n => p (UInt8.ofNat n)) = true)
    (c : UInt8) : p c = true := by
  have := List.all_eq_true.1 h c.toNat (by simpa using c.toNat_lt)
  simpa using this

theorem hexVal_eq : hexVal = hexValue := by
  funext c
  have := forall_u8 (fun c => decide (hexVal c = hexValue c)) (by decide +kernel) c
  simpa using this

theorem hexVal_hexDigit (c : UInt8) :
    hexValue (hexDigit (c / 16)) = some (c / 16) ∧ hexValue (hexDigit (c % 16)) = some (c % 16) ∧
    c / 16 * 16 + c % 16 = c ∧ alwaysSafe (hexDigit (c / 16)) = true ∧
    alwaysSafe (hexDigit (c % 16)) = true ∧
    hexDigit (c / 16) ≠ 37 ∧ hexDigit (c % 16) ≠ 37 := by
  have := forall_u8 (fun c => decide (hexValue (hexDigit (c / 16)) = some (c / 16) ∧
    hexValue (hexDigit (c % 16)) = some (c % 16) ∧
    c / 16 * 16 + c % 16 = c ∧ alwaysSafe (hexDigit (c / 16)) = true ∧
    alwaysSafe (hexDigit (c % 16)) = true ∧
    hexDigit (c / 16) ≠ 37 ∧ hexDigit (c % 16) ≠ 37)) (by decide +kernel) c
  simpa using this

/-- The characters `quote` leaves alone. -/
def quoteKeeps (safe : Bytes) (c : UInt8) : Prop := alwaysSafe c = true ∨ (c ∈ safe ∧ c < 128)

instance (safe : Bytes) (c : UInt8) : Decidable (quoteKeeps safe c) :=
  inferInstanceAs (Decidable (_ ∨ _))

theorem quoteBytes_cons (safe : Bytes) (c : UInt8) (s : Bytes) :
    quoteBytes safe (c :: s) = quoteByte safe c ++ quoteBytes safe s := by
  simp [quoteBytes]

theorem quoteBytes_id {safe s : Bytes} (h : ∀ c ∈ s, quoteKeeps safe c) : quoteBytes safe s = s := by
  induction s with
  | nil => rfl
  | cons c t ih =>
    rw [quoteBytes_cons, ih (fun c hc => h c (by simp [hc])), quoteByte,
      if_pos (show alwaysSafe c = true ∨ (c ∈ safe ∧ c < 128) from h c (by simp))]
    rfl

/-- Every character of the result is kept by `quote` or is the `%` of an escape. -/
theorem quoteBytes_chars (safe s : Bytes) : ∀ c ∈ quoteBytes safe s, quoteKeeps safe c ∨ c = 37 := by
  induction s with
  | nil => simp [quoteBytes]
  | cons x t ih =>
    intro c hc
    rw [quoteBytes_cons, List.mem_append] at hc
    rcases hc with hc | hc
    · unfold quoteByte at hc
      split at hc
      · rename_i h; simp at hc; subst hc; exact .inl h
      · have := hexVal_hexDigit x
        simp only [List.mem_cons, List.not_mem_nil, or_false] at hc
        rcases hc with rfl | rfl | rfl
        · exact .inr rfl
        · exact .inl (.inl this.2.2.2.1)
        · exact .inl (.inl this.2.2.2.2.1)
    · exact ih c hc

theorem quoteBytes_idem {safe : Bytes} (h : 37 ∈ safe) (s : Bytes) :
    quoteBytes safe (quoteBytes safe s) = quoteBytes safe s := by
  refine quoteBytes_id fun c hc => ?_
  rcases quoteBytes_chars safe s c hc with h' | rfl
  · exact h'
  · exact .inr ⟨h, by decide⟩

theorem alwaysSafe_ascii {c : UInt8} (h : alwaysSafe c = true) : c < 128 ∧ c ≠ 37 := by
  have := forall_u8 (fun c => !alwaysSafe c || (decide (c < 128 ∧ c ≠ 37))) (by decide +kernel) c
  simpa [h] using this

theorem quoteKeeps_ascii {safe : Bytes} {c : UInt8} (h : quoteKeeps safe c) : c < 128 := by
  rcases h with h | h
  · exact (alwaysSafe_ascii h).1
  · exact h.2

theorem quoteBytes_ascii (safe s : Bytes) : ∀ c ∈ quoteBytes safe s, c < 128 := by
  intro c hc
  rcases quoteBytes_chars safe s c hc with h | rfl
  · exact quoteKeeps_ascii h
  · decide

/-- The output of `quote` percent-encodes its input, when `%` itself is not left alone. -/
theorem quoteBytes_pct {safe s : Bytes} (h : 37 ∉ safe ∨ 37 ∉ s) : Pct (quoteBytes safe s) s := by
  induction s with
  | nil => exact .nil
  | cons c t ih =>
    have ih := ih (h.imp id (fun h => fun hm => h (by simp [hm])))
    rw [quoteBytes_cons]
    unfold quoteByte
    split
    · rename_i hk
      refine .lit c ?_ ih
      rintro rfl
      rcases hk with hk | hk
      · exact (alwaysSafe_ascii hk).2 rfl
      · rcases h with h | h
        · exact h hk.1
        · exact h (by simp)
    · obtain ⟨h1, h2, h3, _⟩ := hexVal_hexDigit c
      have := Pct.esc _ _ _ _ h1 h2 ih
      rw [h3] at this
      exact this

theorem unquoteToBytes_cons {c : UInt8} (h : c ≠ 37) (t : Bytes) :
    unquoteToBytes (c :: t) = c :: unquoteToBytes t := by
  rw [unquoteToBytes]
  rintro a b r h1
  simp [h] at h1

theorem unquoteToBytes_esc {x y a c : UInt8} (h1 : hexValue x = some a) (h2 : hexValue y = some c)
    (t : Bytes) : unquoteToBytes (37 :: x :: y :: t) = (a * 16 + c) :: unquoteToBytes t := by
  rw [unquoteToBytes, hexVal_eq, h1, h2]

/-- Percent-decoding. -/
theorem Spec.Pct.unquote {t b : Bytes} (h : Pct t b) : unquoteToBytes t = b := by
  induction h with
  | nil => rfl
  | lit c hc _ ih => rw [unquoteToBytes_cons hc, ih]
  | esc x y a c h1 h2 _ ih => rw [unquoteToBytes_esc h1 h2, ih]

theorem Spec.FormEnc.pct {t b : Bytes} (h : FormEnc t b) : Pct (Py.replaceChar 43 32 t) b := by
  induction h with
  | nil => exact .nil
  | lit c hc _ _ ih =>
    simp only [List.mem_cons, List.not_mem_nil, or_false, not_or] at hc
    simp only [Py.replaceChar, List.map_cons, hc.2.1, if_false]
    exact .lit c hc.1 ih
  | plus _ ih => exact .lit 32 (by decide) ih
  | esc x y a c h1 h2 _ ih =>
    have nx : ∀ x a, hexValue x = some a → x ≠ 43 := by
      rintro x a h rfl; revert h; decide +revert
    simp only [Py.replaceChar, List.map_cons, nx _ _ h1, nx _ _ h2, if_false]
    exact .esc x y a c h1 h2 ih

theorem Spec.FormEnc.clean {t b : Bytes} (h : FormEnc t b) : ∀ c ∈ t, c < 128 ∧ c ≠ 38 ∧ c ≠ 59 ∧ c ≠ 61 := by
  have nx : ∀ x a, hexValue x = some a → x < 128 ∧ x ≠ 38 ∧ x ≠ 59 ∧ x ≠ 61 := by
    intro x a hx
    have := forall_u8 (fun x => !(hexValue x).isSome || decide (x < 128 ∧ x ≠ 38 ∧ x ≠ 59 ∧ x ≠ 61))
      (by decide +kernel) x
    simpa [hx] using this
  induction h with
  | nil => simp
  | lit c hc hl _ ih =>
    simp only [List.mem_cons, List.not_mem_nil, or_false, not_or] at hc
    intro d hd
    rcases List.mem_cons.1 hd with rfl | hd
    · exact ⟨hl, hc.2.2.1, hc.2.2.2.1, hc.2.2.2.2⟩
    · exact ih d hd
  | plus _ ih =>
    intro d hd
    rcases List.mem_cons.1 hd with rfl | hd
    · decide
    · exact ih d hd
  | esc x y a c h1 h2 _ ih =>
    intro d hd
    simp only [List.mem_cons] at hd
    rcases hd with rfl | rfl | rfl | hd
    · decide
    · exact nx _ _ h1
    · exact nx _ _ h2
    · exact ih d hd

/-- Text without `%` stands for itself. -/
theorem Spec.Pct.eq_of_no_pct {t b : Bytes} (h : Pct t b) (hn : 37 ∉ t) : t = b := by
  induction h with
  | nil => rfl
  | lit c _ _ ih => rw [ih (fun h => hn (by simp [h]))]
  | esc => simp at hn

theorem toU_ofNat (s : Bytes) : (Py.toU s).map UInt8.ofNat = s := by
  simp [Py.toU, Function.comp_def]

theorem toU_lt {s : Bytes} (h : ∀ c ∈ s, c < 128) : ∀ n ∈ Py.toU s, n < 128 := by
  intro n hn
  obtain ⟨c, hc, rfl⟩ := List.mem_map.1 hn
  exact h c hc

theorem mem_toU {s : Bytes} {c : UInt8} : c.toNat ∈ Py.toU s ↔ c ∈ s := by
  unfold Py.toU
  constructor
  · intro h
    obtain ⟨d, hd, e⟩ := List.mem_map.1 h
    rwa [UInt8.toNat_inj.1 e] at hd
  · intro h; exact List.mem_map_of_mem h

theorem takeWhile_all {p : Nat → Bool} {s : UStr} (h : ∀ n ∈ s, p n = true) : s.takeWhile p = s := by
  induction s with
  | nil => rfl
  | cons x t ih => simp [List.takeWhile_cons, h x (by simp), ih (fun n hn => h n (by simp [hn]))]

theorem dropWhile_all {p : Nat → Bool} {s : UStr} (h : ∀ n ∈ s, p n = true) : s.dropWhile p = [] := by
  induction s with
  | nil => rfl
  | cons x t ih => simp [List.dropWhile_cons, h x (by simp), ih (fun n hn => h n (by simp [hn]))]

/-- `unquote` of ASCII text: one run. -/
theorem unquoteU_ascii (C : Codecs) (enc s : Bytes) (h : ∀ c ∈ s, c < 128) :
    unquoteU C enc (Py.toU s) =
      if 37 ∈ s then C.decodeReplace enc (unquoteToBytes s) else .ok (Py.toU s) := by
  unfold unquoteU
  have hm : (37 : Nat) ∈ Py.toU s ↔ (37 : UInt8) ∈ s := mem_toU (c := 37)
  by_cases h37 : (37 : UInt8) ∈ s
  · rw [if_pos h37, if_pos (hm.2 h37)]
    cases s with
    | nil => simp at h37
    | cons c t =>
      have hl := toU_lt h
      have hc : c.toNat < 128 := hl c.toNat (by simp [Py.toU])
      have e : Py.toU (c :: t) = c.toNat :: Py.toU t := rfl
      have ht := takeWhile_all (p := fun n => decide (n < 128)) (s := Py.toU (c :: t))
        (fun n hn => by simpa using hl n hn)
      have hd := dropWhile_all (p := fun n => decide (n < 128)) (s := Py.toU (c :: t))
        (fun n hn => by simpa using hl n hn)
      rw [e] at ht hd ⊢
      rw [List.length_cons, unquoteRuns, if_pos hc, ht, hd, ← e, toU_ofNat]
      cases C.decodeReplace enc (unquoteToBytes (c :: t)) with
      | error e => rfl
      | ok u =>
        cases h : (Py.toU t).length <;> simp [unquoteRuns]
  · rw [if_neg h37, if_neg (fun h' => h37 (hm.1 h'))]

end Verif
