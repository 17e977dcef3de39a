import Verif.Py.Utf8
import Verif.Spec.Utf8
import Verif.Proofs.Query
/-! # The UTF-8 codec -/

namespace Verif
open Spec

theorem isCont_of {b : UInt8} {v : Nat} (h : Cont b v) : isCont b = true ∧ v = b.toNat - 128 := by
  obtain ⟨h1, h2⟩ := h
  simp only [isCont, decide_eq_true_eq, UInt8.le_iff_toNat_le, UInt8.lt_iff_toNat_lt]
  have a : (128 : UInt8).toNat = 128 := rfl
  have c : (192 : UInt8).toNat = 192 := rfl
  omega

theorem cont_of {b : UInt8} (h : isCont b = true) : Cont b (b.toNat - 128) := by
  simp only [isCont, decide_eq_true_eq, UInt8.le_iff_toNat_le, UInt8.lt_iff_toNat_lt] at h
  have a : (128 : UInt8).toNat = 128 := rfl
  have c : (192 : UInt8).toNat = 192 := rfl
  unfold Cont
  omega

/-- A valid character is read whatever follows. -/
theorem utf8Step_valid {c : Nat} {b : UInt8} {r : Bytes} (h : Utf8Char c (b :: r)) (t : Bytes) :
    utf8Step b (r ++ t) = (some c, r.length) := by
  cases h with
  | one h1 h2 =>
    have : utf8Len b.toNat = 1 := by unfold utf8Len; rw [if_pos (by omega)]
    simp only [utf8Step]
    rw [if_pos this, h2]
    rfl
  | @two _ b1 h v1 h1 h2 h3 h4 h5 =>
    have l : utf8Len b.toNat = 2 := by
      have := h4.1
      unfold utf8Len
      rw [if_neg (by omega), if_neg (by omega), if_pos (by omega)]
    obtain ⟨i1, e1⟩ := isCont_of h4
    simp only [utf8Step, l, List.cons_append, List.nil_append, List.length_cons, List.length_nil]
    rw [if_neg (by omega), if_neg (by omega), if_pos trivial, if_pos i1]
    refine Prod.ext (congrArg some ?_) rfl
    show _ = c
    omega
  | @three _ b1 b2 h v1 v2 h1 h2 h3 h4 h5 h6 =>
    have l : utf8Len b.toNat = 3 := by
      unfold utf8Len
      rw [if_neg (by omega), if_neg (by omega), if_neg (by omega), if_pos (by omega)]
    obtain ⟨i1, e1⟩ := isCont_of h4
    obtain ⟨i2, e2⟩ := isCont_of h5
    have c4 := h4.1
    have c5 := h5.1
    simp only [utf8Step, l, List.cons_append, List.nil_append, List.length_cons, List.length_nil]
    rw [if_neg (by omega), if_neg (by omega), if_neg (by omega), if_pos trivial]
    have g : ¬ (b = 224 ∧ b1 < 160) := by
      rintro ⟨g1, g2⟩
      rw [UInt8.lt_iff_toNat_lt] at g2
      rw [g1] at h3
      have a : (160 : UInt8).toNat = 160 := rfl
      have a' : (224 : UInt8).toNat = 224 := rfl
      have := h4.2
      omega
    rw [if_pos (by rw [i1, Bool.true_and, decide_eq_false g]; rfl), if_pos i2]
    refine Prod.ext (congrArg some ?_) rfl
    show _ = c
    omega
  | @four _ b1 b2 b3 h v1 v2 v3 h1 h1' h2 h3 h4 h5 h6 h7 =>
    have c4 := h4.1
    have c5 := h5.1
    have c6 := h6.1
    have l : utf8Len b.toNat = 4 := by
      unfold utf8Len
      rw [if_neg (by omega), if_neg (by omega), if_neg (by omega), if_neg (by omega), if_pos (by omega)]
    obtain ⟨i1, e1⟩ := isCont_of h4
    obtain ⟨i2, e2⟩ := isCont_of h5
    obtain ⟨i3, e3⟩ := isCont_of h6
    simp only [utf8Step, l, List.cons_append, List.nil_append, List.length_cons, List.length_nil]
    rw [if_neg (by omega), if_neg (by omega), if_neg (by omega), if_neg (by omega), if_pos trivial]
    have g : ¬ ((b = 240 ∧ b1 < 144) ∨ (b = 244 ∧ 143 < b1)) := by
      have d := h4.2
      rintro (⟨g1, g2⟩ | ⟨g1, g2⟩)
      · rw [UInt8.lt_iff_toNat_lt] at g2
        rw [g1] at h3
        have a : (144 : UInt8).toNat = 144 := rfl
        have a' : (240 : UInt8).toNat = 240 := rfl
        omega
      · rw [UInt8.lt_iff_toNat_lt] at g2
        rw [g1] at h3
        have a : (143 : UInt8).toNat = 143 := rfl
        have a' : (244 : UInt8).toNat = 244 := rfl
        omega
    rw [if_pos (by rw [i1, Bool.true_and, decide_eq_false g]; rfl), if_pos i2, if_pos i3]
    refine Prod.ext (congrArg some ?_) rfl
    show _ = c
    omega

/-- Whatever is read is a valid character. -/
theorem utf8Step_some {c n : Nat} {b : UInt8} {t : Bytes} (h : utf8Step b t = (some c, n)) :
    ∃ r t', t = r ++ t' ∧ r.length = n ∧ Utf8Char c (b :: r) := by
  unfold utf8Step at h
  simp only at h
  have hb : b.toNat < 256 := b.toNat_lt
  by_cases n1 : utf8Len b.toNat = 1
  · rw [if_pos n1] at h
    simp only [Prod.mk.injEq, Option.some.injEq] at h
    refine ⟨[], t, rfl, h.2, .one ?_ h.1⟩
    unfold utf8Len at n1
    by_contra hc
    rw [if_neg (by omega)] at n1
    repeat' split at n1
    all_goals omega
  rw [if_neg n1] at h
  by_cases hs : t.length + 1 < utf8Len b.toNat
  · rw [if_pos hs] at h; simp at h
  rw [if_neg hs] at h
  by_cases n2 : utf8Len b.toNat = 2
  · rw [if_pos n2] at h
    have hr : 0xC2 ≤ b.toNat ∧ b.toNat < 0xE0 := by
      unfold utf8Len at n2
      repeat' split at n2
      all_goals omega
    match t, h with
    | b1 :: t', h =>
      simp only at h
      split at h
      · rename_i i1
        simp only [Prod.mk.injEq, Option.some.injEq] at h
        have := (cont_of i1).1
        exact ⟨[b1], t', rfl, h.2, .two (h := b.toNat - 192) (by omega) (by omega) (by omega) (cont_of i1) (by omega)⟩
      · simp at h
    | [], h => simp at h
  rw [if_neg n2] at h
  by_cases n3 : utf8Len b.toNat = 3
  · rw [if_pos n3] at h
    have hr : 0xE0 ≤ b.toNat ∧ b.toNat < 0xF0 := by
      unfold utf8Len at n3
      repeat' split at n3
      all_goals omega
    match t, h with
    | b1 :: b2 :: t', h =>
      simp only at h
      split at h
      · rename_i i1
        simp only [Bool.and_eq_true, Bool.not_eq_true', decide_eq_false_iff_not] at i1
        split at h
        · rename_i i2
          simp only [Prod.mk.injEq, Option.some.injEq] at h
          have c1 := cont_of i1.1
          have c1' := c1.1
          have c1'' := c1.2
          have c2 := (cont_of i2).1
          have g : b.toNat = 224 → 160 ≤ b1.toNat := by
            intro e
            have e' : b = 224 := UInt8.toNat_inj.1 e
            exact Nat.not_lt.1 fun q => i1.2 ⟨e', UInt8.lt_iff_toNat_lt.2 q⟩
          refine ⟨[b1, b2], t', rfl, h.2, .three (h := b.toNat - 224) ?_ (by omega) (by omega) c1 (cont_of i2) (by omega)⟩
          by_cases e : b.toNat = 224
          · have := g e; omega
          · omega
        · simp at h
      · simp at h
    | [_], h => simp at h
    | [], h => simp at h
  rw [if_neg n3] at h
  by_cases n4 : utf8Len b.toNat = 4
  · rw [if_pos n4] at h
    have hr : 0xF0 ≤ b.toNat ∧ b.toNat < 0xF5 := by
      unfold utf8Len at n4
      repeat' split at n4
      all_goals omega
    match t, h with
    | b1 :: b2 :: b3 :: t', h =>
      simp only at h
      split at h
      · rename_i i1
        simp only [Bool.and_eq_true, Bool.not_eq_true', decide_eq_false_iff_not] at i1
        split at h
        · rename_i i2
          split at h
          · rename_i i3
            simp only [Prod.mk.injEq, Option.some.injEq] at h
            have c1 := cont_of i1.1
            have c1' := c1.1
            have c1'' := c1.2
            have c2 := (cont_of i2).1
            have c3 := (cont_of i3).1
            have g : b.toNat = 240 → 144 ≤ b1.toNat := by
              intro e
              have e' : b = 240 := UInt8.toNat_inj.1 e
              exact Nat.not_lt.1 fun q => i1.2 (.inl ⟨e', UInt8.lt_iff_toNat_lt.2 q⟩)
            have g' : b.toNat = 244 → b1.toNat ≤ 143 := by
              intro e
              have e' : b = 244 := UInt8.toNat_inj.1 e
              exact Nat.not_lt.1 fun q => i1.2 (.inr ⟨e', UInt8.lt_iff_toNat_lt.2 q⟩)
            refine ⟨[b1, b2, b3], t', rfl, h.2, .four (h := b.toNat - 240) ?_ ?_ (by omega) (by omega) c1
              (cont_of i2) (cont_of i3) (by omega)⟩
            · by_cases e : b.toNat = 240
              · have := g e; omega
              · omega
            · by_cases e : b.toNat = 244
              · have := g' e; omega
              · omega
          · simp at h
        · simp at h
      · simp at h
    | [_, _], h => simp at h
    | [_], h => simp at h
    | [], h => simp at h
  rw [if_neg n4] at h
  simp at h

theorem utf8Step_drop (b : UInt8) (t : Bytes) : (t.drop (utf8Step b t).2).length ≤ t.length := by
  simp

theorem utf8DecodeLoop_fuel (s : Bytes) : ∀ f, s.length ≤ f → utf8DecodeLoop f s = utf8Decode s := by
  suffices H : ∀ n f s, s.length ≤ n → s.length ≤ f → utf8DecodeLoop f s = utf8DecodeLoop n s from
    fun f hf => H s.length f s (Nat.le_refl _) hf
  intro n
  induction n with
  | zero =>
    intro f s h _
    have : s = [] := List.eq_nil_of_length_eq_zero (by omega)
    subst this
    cases f <;> rfl
  | succ n ih =>
    intro f s h hf
    cases s with
    | nil => cases f <;> rfl
    | cons b t =>
      cases f with
      | zero => simp at hf
      | succ f =>
        simp only [List.length_cons] at h hf
        simp only [utf8DecodeLoop]
        rw [ih f _ (by simp; omega) (by simp; omega)]

theorem utf8DecodeReplaceLoop_fuel (s : Bytes) : ∀ f, s.length ≤ f → utf8DecodeReplaceLoop f s = utf8DecodeReplace s := by
  suffices H : ∀ n f s, s.length ≤ n → s.length ≤ f → utf8DecodeReplaceLoop f s = utf8DecodeReplaceLoop n s from
    fun f hf => H s.length f s (Nat.le_refl _) hf
  intro n
  induction n with
  | zero =>
    intro f s h _
    have : s = [] := List.eq_nil_of_length_eq_zero (by omega)
    subst this
    cases f <;> rfl
  | succ n ih =>
    intro f s h hf
    cases s with
    | nil => cases f <;> rfl
    | cons b t =>
      cases f with
      | zero => simp at hf
      | succ f =>
        simp only [List.length_cons] at h hf
        simp only [utf8DecodeReplaceLoop]
        rw [ih f _ (by simp; omega) (by simp; omega)]

theorem utf8Decode_cons (b : UInt8) (t : Bytes) : utf8Decode (b :: t) =
    match (utf8Step b t).1 with
    | none => none
    | some c => (utf8Decode (t.drop (utf8Step b t).2)).map (c :: ·) := by
  rw [utf8Decode, List.length_cons, utf8DecodeLoop, utf8DecodeLoop_fuel _ _ (utf8Step_drop b t)]
  rfl

theorem utf8DecodeReplace_cons (b : UInt8) (t : Bytes) : utf8DecodeReplace (b :: t) =
    (utf8Step b t).1.getD 0xFFFD :: utf8DecodeReplace (t.drop (utf8Step b t).2) := by
  rw [utf8DecodeReplace, List.length_cons, utf8DecodeReplaceLoop, utf8DecodeReplaceLoop_fuel _ _ (utf8Step_drop b t)]

theorem Spec.Utf8Char.ne_nil {c : Nat} {b : Bytes} (h : Utf8Char c b) : b ≠ [] := by cases h <;> simp

theorem utf8Decode_append {u : UStr} {a : Bytes} (h : Utf8 u a) (t : Bytes) :
    utf8Decode (a ++ t) = (utf8Decode t).map (u ++ ·) := by
  induction h with
  | nil => simp
  | @cons c u b a hc _ ih =>
    cases b with
    | nil => exact absurd rfl hc.ne_nil
    | cons x r =>
      rw [List.cons_append, List.cons_append, utf8Decode_cons, List.append_assoc, utf8Step_valid hc]
      simp only [List.drop_left, ih, Option.map_map, List.cons_append]
      rfl

theorem utf8DecodeReplace_append {u : UStr} {a : Bytes} (h : Utf8 u a) (t : Bytes) :
    utf8DecodeReplace (a ++ t) = u ++ utf8DecodeReplace t := by
  induction h with
  | nil => simp
  | @cons c u b a hc _ ih =>
    cases b with
    | nil => exact absurd rfl hc.ne_nil
    | cons x r =>
      rw [List.cons_append, List.cons_append, utf8DecodeReplace_cons, List.append_assoc, utf8Step_valid hc]
      simp only [List.drop_left, ih, List.cons_append, Option.getD_some]

theorem utf8Decode_sound : ∀ (n : Nat) (s : Bytes) (u : UStr), s.length ≤ n → utf8Decode s = some u → Utf8 u s := by
  intro n
  induction n with
  | zero =>
    intro s u h hd
    have : s = [] := List.eq_nil_of_length_eq_zero (by omega)
    subst this
    obtain rfl := Option.some.inj hd
    exact .nil
  | succ n ih =>
    intro s u h hd
    cases s with
    | nil =>
      obtain rfl := Option.some.inj hd
      exact .nil
    | cons b t =>
      rw [utf8Decode_cons] at hd
      generalize hp : utf8Step b t = p at hd
      obtain ⟨o, k⟩ := p
      cases o with
      | none => simp at hd
      | some c =>
        obtain ⟨r, t', rfl, hr, hc⟩ := utf8Step_some hp
        simp only [← hr, List.drop_left, Option.map_eq_some_iff] at hd
        obtain ⟨u', hu, rfl⟩ := hd
        simp only [List.length_cons, List.length_append] at h
        exact .cons hc (ih t' u' (by omega) hu)

theorem utf8Decode_iff (s : Bytes) (u : UStr) : utf8Decode s = some u ↔ Utf8 u s := by
  refine ⟨utf8Decode_sound _ s u (Nat.le_refl _), fun h => ?_⟩
  have := utf8Decode_append h []
  simpa [show utf8Decode [] = some [] from rfl] using this

theorem toNat_ofNat {n : Nat} (h : n < 256) : (UInt8.ofNat n).toNat = n := by simp; omega

theorem utf8Char_spec {c : Nat} (h : c < 0x110000) : Utf8Char c (utf8Char c) := by
  unfold utf8Char
  split
  · exact .one (by assumption) (toNat_ofNat (by omega))
  split
  · exact .two (h := c / 64) (v1 := c % 64) (by omega) (by omega) (toNat_ofNat (by omega))
      ⟨by omega, toNat_ofNat (by omega)⟩ (by omega)
  split
  · exact .three (h := c / 4096) (v1 := c / 64 % 64) (v2 := c % 64) (by omega) (by omega) (toNat_ofNat (by omega))
      ⟨by omega, toNat_ofNat (by omega)⟩ ⟨by omega, toNat_ofNat (by omega)⟩ (by omega)
  · exact .four (h := c / 262144) (v1 := c / 4096 % 64) (v2 := c / 64 % 64) (v3 := c % 64) (by omega) h (by omega)
      (toNat_ofNat (by omega)) ⟨by omega, toNat_ofNat (by omega)⟩ ⟨by omega, toNat_ofNat (by omega)⟩
      ⟨by omega, toNat_ofNat (by omega)⟩ (by omega)

theorem utf8Encode_spec : ∀ {u : UStr}, (∀ c ∈ u, Scalar c) → Utf8 u (utf8Encode u)
  | [], _ => .nil
  | [c], h => by
    have := Utf8.cons (utf8Char_spec (h c (by simp)).1) .nil
    simpa [utf8Encode] using this
  | c :: d :: t, h => by
    have hc := h c (by simp)
    rw [utf8Encode, if_neg (by have := hc.2; omega)]
    exact .cons (utf8Char_spec hc.1) (utf8Encode_spec (fun x hx => h x (by simp [List.mem_cons.1 hx])))

/-- A text has one UTF-8 form. -/
theorem Spec.Utf8Char.unique {c : Nat} {a b : Bytes} (ha : Utf8Char c a) (hb : Utf8Char c b) : a = b := by
  have key : ∀ x y : UInt8, x.toNat = y.toNat → x = y := fun x y h => UInt8.toNat_inj.1 h
  cases ha <;> cases hb <;> (try simp only [Cont] at *) <;>
    first
    | (exfalso; omega)
    | (simp only [List.cons.injEq, and_true]; refine ⟨?_, ?_, ?_, ?_⟩ <;> apply key <;> omega)
    | (simp only [List.cons.injEq, and_true]; refine ⟨?_, ?_, ?_⟩ <;> apply key <;> omega)
    | (simp only [List.cons.injEq, and_true]; refine ⟨?_, ?_⟩ <;> apply key <;> omega)
    | (simp only [List.cons.injEq, and_true]; apply key; omega)

theorem Spec.Utf8.unique {u : UStr} {a b : Bytes} (ha : Utf8 u a) (hb : Utf8 u b) : a = b := by
  induction ha generalizing b with
  | nil => cases hb; rfl
  | cons h _ ih =>
    cases hb with
    | cons h' h2 => rw [h.unique h', ih h2]

theorem utf8_ascii {b : Bytes} (h : ∀ c ∈ b, c < 128) : Utf8 (Py.toU b) b := by
  induction b with
  | nil => exact .nil
  | cons c t ih =>
    exact Utf8.cons (.one (UInt8.lt_iff_toNat_lt.1 (h c (by simp))) rfl) (ih fun x hx => h x (by simp [hx]))

theorem utf8DecodeReplace_ascii {b : Bytes} (h : ∀ c ∈ b, c < 128) : utf8DecodeReplace b = Py.toU b := by
  have := utf8DecodeReplace_append (utf8_ascii h) []
  simpa [show utf8DecodeReplace [] = [] from rfl] using this

theorem utf8Encode_ascii {b : Bytes} (h : ∀ c ∈ b, c < 128) : utf8Encode (Py.toU b) = b :=
  Spec.Utf8.unique (utf8Encode_spec (fun c hc => by
    obtain ⟨x, hx, rfl⟩ := List.mem_map.1 hc
    have := UInt8.lt_iff_toNat_lt.1 (h x hx)
    have e : (128 : UInt8).toNat = 128 := rfl
    exact ⟨by omega, by omega⟩)) (utf8_ascii h)

end Verif
