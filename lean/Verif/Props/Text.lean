import Verif.Model.Text
import Verif.Spec.Text
import Verif.Proofs.Quote
/-!
# Character references (C62)
-/

namespace Verif
open Spec

/-! ### Digits and numerals -/

/-- Value of a hexadecimal digit, as in `parseHexInt`. -/
def hexv (c : UInt8) : Nat :=
  if 48 ≤ c ∧ c ≤ 57 then c.toNat - 48 else if 97 ≤ c then c.toNat - 87 else c.toNat - 55

theorem decDigit_iff (c : UInt8) (v : Nat) : DecDigit c v ↔ Py.isDigit c = true ∧ v = c.toNat - 48 := by
  constructor
  · intro h
    have hv : v < 10 := by
      have := (List.getElem?_eq_some_iff.1 h).1
      simpa using this
    have : ∀ v : Fin 10, ∀ c, b!"0123456789"[v.val]? = some c →
        Py.isDigit c = true ∧ v.val = c.toNat - 48 := by
      intro v c h
      have hv : v.val < b!"0123456789".length := v.isLt
      rw [List.getElem?_eq_getElem hv] at h
      cases h
      revert v; decide +kernel
    exact this ⟨v, hv⟩ c h
  · rintro ⟨h, rfl⟩
    have := forall_u8 (fun c => !Py.isDigit c || decide (b!"0123456789"[c.toNat - 48]? = some c))
      (by decide +kernel) c
    simpa [h, DecDigit] using this

theorem hexDigit_iff (c : UInt8) (v : Nat) : HexDigit c v ↔ isHexDigit c = true ∧ v = hexv c := by
  constructor
  · intro h
    have key : ∀ l : Bytes, l = b!"0123456789abcdef" ∨ l = b!"0123456789ABCDEF" →
        ∀ (v : Fin 16) c, l[v.val]? = some c → isHexDigit c = true ∧ v.val = hexv c := by
      rintro l (rfl | rfl) v c h
      · have hv : v.val < b!"0123456789abcdef".length := v.isLt
        rw [List.getElem?_eq_getElem hv] at h
        cases h
        revert v; decide +kernel
      · have hv : v.val < b!"0123456789ABCDEF".length := v.isLt
        rw [List.getElem?_eq_getElem hv] at h
        cases h
        revert v; decide +kernel
    rcases h with h | h
    · exact key _ (.inl rfl) ⟨v, by simpa using (List.getElem?_eq_some_iff.1 h).1⟩ c h
    · exact key _ (.inr rfl) ⟨v, by simpa using (List.getElem?_eq_some_iff.1 h).1⟩ c h
  · rintro ⟨h, rfl⟩
    have := forall_u8 (fun c => !isHexDigit c || (decide (b!"0123456789abcdef"[hexv c]? = some c) ||
      decide (b!"0123456789ABCDEF"[hexv c]? = some c))) (by decide +kernel) c
    simpa [h, HexDigit] using this

theorem numeral_iff {base : Nat} {val : UInt8 → Nat → Prop} {P : UInt8 → Bool} {f : UInt8 → Nat}
    (hv : ∀ c v, val c v ↔ P c = true ∧ v = f c) (s : Bytes) (n : Nat) :
    Numeral base val s n ↔ s ≠ [] ∧ s.all P = true ∧ n = s.foldl (fun a c => a * base + f c) 0 := by
  constructor
  · intro h
    induction h with
    | one h => obtain ⟨h1, h2⟩ := (hv _ _).1 h; simp [h1, h2]
    | more _ h ih =>
      obtain ⟨h1, h2⟩ := (hv _ _).1 h
      obtain ⟨i1, i2, i3⟩ := ih
      refine ⟨by simp, by simp [List.all_append, i2, h1], ?_⟩
      rw [List.foldl_append, ← i3, h2]; rfl
  · rintro ⟨h1, h2, h3⟩
    have : ∀ k : Nat, ∀ s : Bytes, s.length = k + 1 → s.all P = true →
        Numeral base val s (s.foldl (fun a c => a * base + f c) 0) := by
      intro k
      induction k with
      | zero =>
        intro s hs hp
        obtain ⟨c, rfl⟩ := List.length_eq_one_iff.1 hs
        simp only [List.all_cons, List.all_nil, Bool.and_true] at hp
        have := Numeral.one (base := base) ((hv c (f c)).2 ⟨hp, rfl⟩)
        simpa using this
      | succ k ih =>
        intro s hs hp
        have hne : s ≠ [] := by rintro rfl; simp at hs
        obtain ⟨t, c, rfl⟩ : ∃ t c, s = t ++ [c] :=
          ⟨s.dropLast, s.getLast hne, (List.dropLast_append_getLast hne).symm⟩
        rw [List.all_append, Bool.and_eq_true] at hp
        have := (ih t (by simpa using hs) hp.1).more
          ((hv c (f c)).2 ⟨by simpa using hp.2, rfl⟩)
        rw [List.foldl_append]
        exact this
  
    obtain ⟨k, hk⟩ : ∃ k, s.length = k + 1 := by
      cases s with
      | nil => exact absurd rfl h1
      | cons x t => exact ⟨t.length, rfl⟩
    rw [h3]
    exact this k s hk h2

theorem parseDecInt_iff (t : Bytes) (n : Nat) : parseDecInt t = some n ↔ Numeral 10 DecDigit t n := by
  rw [numeral_iff decDigit_iff]
  unfold parseDecInt Py.digitsVal
  split
  · rename_i h
    simp only [Option.some.injEq]
    exact ⟨fun e => ⟨h.1, h.2, e.symm⟩, fun e => e.2.2.symm⟩
  · rename_i h
    constructor
    · intro e; cases e
    · intro e; exact absurd ⟨e.1, e.2.1⟩ h

theorem parseHexInt_iff (t : Bytes) (n : Nat) : parseHexInt t = some n ↔
    ∃ p ds, (p = [] ∨ p = b!"0x" ∨ p = b!"0X") ∧ t = p ++ ds ∧ Numeral 16 HexDigit ds n := by
  have key : ∀ d : Bytes, (if d ≠ [] ∧ d.all isHexDigit = true then
      some (d.foldl (fun a c => a * 16 + (if 48 ≤ c ∧ c ≤ 57 then c.toNat - 48 else if 97 ≤ c then
        c.toNat - 87 else c.toNat - 55)) 0) else none) = some n ↔ Numeral 16 HexDigit d n := by
    intro d
    rw [numeral_iff hexDigit_iff]
    split
    · rename_i h
      simp only [Option.some.injEq]
      exact ⟨fun e => ⟨h.1, h.2, e.symm⟩, fun e => e.2.2.symm⟩
    · rename_i h
      constructor
      · intro e; cases e
      · intro e; exact absurd ⟨e.1, e.2.1⟩ h
  have hx : ∀ (c : UInt8) (r : Bytes), c = 120 ∨ c = 88 → ¬ Numeral 16 HexDigit (48 :: c :: r) n := by
    intro c r hc h
    rw [numeral_iff hexDigit_iff] at h
    have := h.2.1
    simp only [List.all_cons, Bool.and_eq_true] at this
    rcases hc with rfl | rfl
    · exact absurd this.2.1 (by decide)
    · exact absurd this.2.1 (by decide)
  unfold parseHexInt
  simp only
  rw [key]
  constructor
  · intro h
    split at h
    · split at h
      · rename_i c r hc
        rcases hc with rfl | rfl
        · exact ⟨b!"0x", r, .inr (.inl rfl), rfl, h⟩
        · exact ⟨b!"0X", r, .inr (.inr rfl), rfl, h⟩
      · exact ⟨[], _, .inl rfl, rfl, h⟩
    · exact ⟨[], _, .inl rfl, rfl, h⟩
  · rintro ⟨p, ds, rfl | rfl | rfl, rfl, h⟩
    · split
      · split
        · rename_i hc; exact absurd h (hx _ _ hc)
        · exact h
      · exact h
    · exact h
    · exact h

/-- The number in a reference, as `replaceEntity` computes it. -/
def refNumber : Bytes → Option Nat
  | 35 :: r => match r with
    | x :: r' => if x = 120 ∨ x = 88 then parseHexInt r' else parseDecInt r
    | [] => none
  | _ => none

theorem refNumber_iff (b : Bytes) (n : Nat) : refNumber b = some n ↔ RefNum b n := by
  have hdec : ∀ (x : UInt8) r, x = 120 ∨ x = 88 → ¬ Numeral 10 DecDigit (x :: r) n := by
    intro x r hx h
    rw [numeral_iff decDigit_iff] at h
    have := h.2.1
    simp only [List.all_cons, Bool.and_eq_true] at this
    rcases hx with rfl | rfl
    · exact absurd this.1 (by decide)
    · exact absurd this.1 (by decide)
  constructor
  · intro h
    unfold refNumber at h
    split at h
    · rename_i r
      split at h
      · rename_i x r'
        split at h
        · rename_i hx
          obtain ⟨p, ds, hp, rfl, hn⟩ := (parseHexInt_iff _ _).1 h
          exact .inr ⟨x, p, ds, hx, hp, by simp, hn⟩
        · exact .inl ⟨_, rfl, (parseDecInt_iff _ _).1 h⟩
      · cases h
    · cases h
  · rintro (⟨ds, rfl, h⟩ | ⟨x, p, ds, hx, hp, rfl, h⟩)
    · cases ds with
      | nil => rw [numeral_iff decDigit_iff] at h; exact absurd rfl h.1
      | cons x r =>
        show (if x = 120 ∨ x = 88 then parseHexInt r else parseDecInt (x :: r)) = some n
        rw [if_neg (fun hx => hdec x r hx h)]
        exact (parseDecInt_iff _ _).2 h
    · show (if x = 120 ∨ x = 88 then parseHexInt (p ++ ds) else parseDecInt (x :: (p ++ ds))) = some n
      rw [if_pos hx]
      exact (parseHexInt_iff _ _).2 ⟨p, ds, hp, rfl, h⟩

theorem names_no_hash : ∀ p ∈ entityNames, p.1.head? ≠ some 35 := by decide +kernel

theorem names_functional : ∀ p ∈ entityNames, ∀ q ∈ entityNames, p.1 = q.1 → p.2 = q.2 := by
  decide +kernel

theorem replaceEntity_eq (b : Bytes) : replaceEntity b = (match refNumber b with
    | some n => pyChr n
    | none => .ok ((entityNames.find? (fun p => p.1 = b)).map Prod.snd)) := by
  have hn : ∀ r, entityNames.find? (fun p => decide (p.1 = 35 :: r)) = none := by
    intro r
    rw [List.find?_eq_none]
    intro p hp
    simp only [decide_eq_true_eq]
    intro e
    exact names_no_hash p hp (by rw [e]; rfl)
  unfold replaceEntity refNumber
  split
  · rename_i r
    rw [hn r]
    simp only
    cases r with
    | nil => rfl
    | cons x r' =>
      simp only
      generalize (if x = 120 ∨ x = 88 then parseHexInt r' else parseDecInt (x :: r')) = o
      cases o <;> rfl
  · rename_i h
    split
    · rename_i n he
      split at he
      · exact absurd rfl (h _)
      · cases he
    · rfl

/-- What the model does with one reference. -/
theorem replaceEntity_iff (b o : Bytes) :
    (∃ v, replaceEntity b = .ok v ∧ o = (match v with
      | some c => [c]
      | none => [38] ++ b ++ [59])) ↔ RefOut entityNames b o := by
  rw [replaceEntity_eq]
  constructor
  · rintro ⟨v, h, rfl⟩
    cases hr : refNumber b with
    | some n =>
      rw [hr] at h
      have hn := (refNumber_iff b n).1 hr
      simp only [pyChr] at h
      split at h
      · cases h; exact .num hn ‹_›
      · split at h
        · cases h; exact .big hn (by omega) ‹_›
        · cases h
    | none =>
      rw [hr] at h
      cases h
      have hno : ∀ n, ¬ RefNum b n := fun n hn => by
        rw [← refNumber_iff, hr] at hn; cases hn
      cases hf : entityNames.find? (fun p => p.1 = b) with
      | none =>
        refine .other hno fun v hv => ?_
        rw [List.find?_eq_none] at hf
        exact hf _ hv (by simp)
      | some p =>
        have h1 := List.mem_of_find?_eq_some hf
        have h2 := List.find?_some hf
        simp only [decide_eq_true_eq] at h2
        subst h2
        exact .name h1
  · intro h
    cases h with
    | num h1 h2 =>
      rename_i n
      rw [(refNumber_iff b n).2 h1]
      exact ⟨some (UInt8.ofNat n), by simp [pyChr, h2], rfl⟩
    | big h1 h2 h3 =>
      rename_i n
      rw [(refNumber_iff b n).2 h1]
      exact ⟨none, by simp only [pyChr]; rw [if_neg (by omega), if_pos h3], rfl⟩
    | name h1 =>
      rename_i v
      have hr : refNumber b = none := by
        cases b with
        | nil => rfl
        | cons x t =>
          have := names_no_hash _ h1
          simp only [List.head?_cons, ne_eq, Option.some.injEq] at this
          unfold refNumber
          split
          · rename_i h; simp at h; exact absurd h.1 this
          · rfl
      rw [hr]
      refine ⟨some v, ?_, rfl⟩
      cases hf : entityNames.find? (fun p => p.1 = b) with
      | none =>
        rw [List.find?_eq_none] at hf
        exact absurd (by simp) (hf _ h1)
      | some p =>
        have g1 := List.mem_of_find?_eq_some hf
        have g2 := List.find?_some hf
        simp only [decide_eq_true_eq] at g2
        rw [Option.map_some, names_functional p g1 _ h1 g2]
    | other h1 h2 =>
      have hr : refNumber b = none := by
        cases hr : refNumber b with
        | none => rfl
        | some n => exact absurd ((refNumber_iff b n).1 hr) (h1 n)
      rw [hr]
      refine ⟨none, ?_, rfl⟩
      cases hf : entityNames.find? (fun p => p.1 = b) with
      | none => rfl
      | some p =>
        have g1 := List.mem_of_find?_eq_some hf
        have g2 := List.find?_some hf
        simp only [decide_eq_true_eq] at g2
        subst g2
        exact absurd g1 (h2 p.2)

/-! ### Finding references -/

theorem hexDigit_bool (c : UInt8) : isHexDigit c = true ↔ ∃ v, HexDigit c v :=
  ⟨fun h => ⟨_, (hexDigit_iff c _).2 ⟨h, rfl⟩⟩, fun ⟨_, h⟩ => ((hexDigit_iff c _).1 h).1⟩

theorem word_bool (c : UInt8) : isWordChar c = true ↔ Word c := by
  unfold isWordChar Word
  simp only [Bool.or_eq_true, Bool.and_eq_true, decide_eq_true_eq]
  constructor
  · rintro (((h | h) | h) | h)
    · exact .inr (.inr (.inl h))
    · exact .inr (.inl h)
    · exact .inl h
    · exact .inr (.inr (.inr h))
  · rintro (h | h | h | h)
    · exact .inl (.inr h)
    · exact .inl (.inl (.inr h))
    · exact .inl (.inl (.inl h))
    · exact .inr h

theorem entityWord_iff (w : Bytes) : isEntityWord w = true ↔ w ≠ [] ∧
    ((∀ c ∈ w, ∃ v, HexDigit c v) ∨ (w.length ≤ 8 ∧ ∀ c ∈ w, Word c)) := by
  unfold isEntityWord
  simp only [Bool.and_eq_true, Bool.or_eq_true, decide_eq_true_eq, List.all_eq_true, hexDigit_bool,
    word_bool]

theorem entityBody_iff (b : Bytes) : isEntityBody b = true ↔ RefBody b := by
  have hx : ∀ t : Bytes, (isEntityWord t || (match t with
      | c :: r => (decide (c = 120) || decide (c = 88)) && isEntityWord r
      | [] => false)) = true ↔ ∃ x w, (x = [] ∨ x = [120] ∨ x = [88]) ∧ isEntityWord w = true ∧
        t = x ++ w := by
    intro t
    rw [Bool.or_eq_true]
    constructor
    · rintro (h | h)
      · exact ⟨[], t, .inl rfl, h, rfl⟩
      · split at h
        · rename_i c r
          simp only [Bool.and_eq_true, Bool.or_eq_true, decide_eq_true_eq] at h
          rcases h.1 with rfl | rfl
          · exact ⟨[120], r, .inr (.inl rfl), h.2, rfl⟩
          · exact ⟨[88], r, .inr (.inr rfl), h.2, rfl⟩
        · cases h
    · rintro ⟨x, w, rfl | rfl | rfl, h, rfl⟩
      · exact .inl h
      · exact .inr (by simp [h])
      · exact .inr (by simp [h])
  have main : isEntityBody b = true ↔ ∃ h t, (h = [] ∨ h = [35]) ∧ b = h ++ t ∧
      (isEntityWord t || (match t with
      | c :: r => (decide (c = 120) || decide (c = 88)) && isEntityWord r
      | [] => false)) = true := by
    unfold isEntityBody
    simp only
    rw [Bool.or_eq_true]
    constructor
    · rintro (h | h)
      · exact ⟨[], b, .inl rfl, rfl, h⟩
      · split at h
        · exact ⟨[35], _, .inr rfl, rfl, h⟩
        · cases h
    · rintro ⟨h, t, rfl | rfl, rfl, ht⟩
      · exact .inl ht
      · exact .inr ht
  rw [main]
  constructor
  · rintro ⟨h, t, hh, rfl, ht⟩
    obtain ⟨x, w, h1, h2, rfl⟩ := (hx t).1 ht
    obtain ⟨h3, h4⟩ := (entityWord_iff w).1 h2
    exact ⟨h, x, w, hh, h1, h3, h4, by simp⟩
  · rintro ⟨h, x, w, hh, h1, h3, h4, rfl⟩
    exact ⟨h, x ++ w, hh, by simp, (hx _).2 ⟨x, w, h1, (entityWord_iff w).2 ⟨h3, h4⟩, rfl⟩⟩

theorem refBody_no_semi {b : Bytes} (h : RefBody b) : 59 ∉ b := by
  obtain ⟨h, x, w, hh, hx, _, hw, rfl⟩ := h
  have h1 : 59 ∉ h := by rcases hh with rfl | rfl <;> simp
  have h2 : 59 ∉ x := by rcases hx with rfl | rfl | rfl <;> simp
  have h3 : 59 ∉ w := by
    intro hm
    rcases hw with hw | hw
    · exact absurd ((hexDigit_bool 59).2 (hw _ hm)) (by decide)
    · exact absurd ((word_bool 59).2 (hw.2 _ hm)) (by decide)
  simp [h1, h2, h3]

theorem uptoSemi_iff (t b : Bytes) : uptoSemi t = some b ↔ 59 ∉ b ∧ ∃ r, t = b ++ [59] ++ r := by
  induction t generalizing b with
  | nil => simp [uptoSemi]
  | cons c t ih =>
    unfold uptoSemi
    by_cases hc : c = 59
    · rw [if_pos hc]
      subst hc
      constructor
      · intro h; cases h; exact ⟨by simp, t, rfl⟩
      · rintro ⟨h1, r, h2⟩
        cases b with
        | nil => rfl
        | cons x b => simp at h1 h2; exact absurd h2.1 h1.1
    · rw [if_neg hc]
      constructor
      · intro h
        cases hu : uptoSemi t with
        | none => rw [hu] at h; cases h
        | some b' =>
          rw [hu] at h
          cases h
          obtain ⟨h1, r, h2⟩ := (ih b').1 hu
          exact ⟨by simp [h1, Ne.symm hc], r, by rw [h2]; simp⟩
      · rintro ⟨h1, r, h2⟩
        cases b with
        | nil => simp at h2; exact absurd h2.1 hc
        | cons x b =>
          simp only [List.cons_append, List.cons.injEq] at h2
          rw [(ih b).2 ⟨fun h => h1 (by simp [h]), r, h2.2⟩, h2.1]
          rfl

/-- The text starts with a reference exactly if the loop finds one. -/
theorem startsRef_iff (c : UInt8) (t : Bytes) : StartsRef (c :: t) ↔
    c = 38 ∧ ∃ b, uptoSemi t = some b ∧ isEntityBody b = true := by
  constructor
  · rintro ⟨b, r, h1, h2⟩
    simp only [List.singleton_append, List.cons_append, List.cons.injEq] at h2
    exact ⟨h2.1, b, (uptoSemi_iff _ _).2 ⟨refBody_no_semi h1, r, h2.2⟩, (entityBody_iff b).2 h1⟩
  · rintro ⟨rfl, b, h1, h2⟩
    obtain ⟨_, r, rfl⟩ := (uptoSemi_iff _ _).1 h1
    exact ⟨b, r, (entityBody_iff b).1 h2, by simp⟩

theorem unescapeLoop_plain {fuel : Nat} {c : UInt8} {t : Bytes} (h : ¬ StartsRef (c :: t)) :
    unescapeLoop (fuel + 1) (c :: t) = (match unescapeLoop fuel t with
      | .error e => .error e
      | .ok r => .ok (c :: r)) := by
  rw [startsRef_iff] at h
  rw [unescapeLoop]
  by_cases hc : c = 38
  · rw [if_pos hc]
    cases hu : uptoSemi t with
    | none => rfl
    | some b =>
      simp only
      rw [if_neg (fun hb => h ⟨hc, b, hu, hb⟩)]
      rfl
  · rw [if_neg hc]
    rfl

theorem unescapeLoop_ref {fuel : Nat} {b t : Bytes} (h : RefBody b) :
    unescapeLoop (fuel + 1) ([38] ++ b ++ [59] ++ t) = (match replaceEntity b with
      | .error e => .error e
      | .ok o =>
        match unescapeLoop fuel t with
        | .error e => .error e
        | .ok r => .ok ((match o with
          | some b => [b]
          | none => [38] ++ b ++ [59]) ++ r)) := by
  have hu : uptoSemi (b ++ [59] ++ t) = some b :=
    (uptoSemi_iff _ _).2 ⟨refBody_no_semi h, t, rfl⟩
  have hd : (b ++ [59] ++ t).drop (b.length + 1) = t := by
    have : (b ++ [59]).length = b.length + 1 := by simp
    rw [← this, List.drop_left]
  show unescapeLoop (fuel + 1) (38 :: (b ++ [59] ++ t)) = _
  rw [unescapeLoop]
  simp only [if_true, hu, (entityBody_iff b).2 h, hd]
  rfl

theorem unescapeLoop_iff (fuel : Nat) : ∀ (s r : Bytes), s.length < fuel →
    (unescapeLoop fuel s = .ok r ↔ Unescaped entityNames s r) := by
  induction fuel with
  | zero => intro s r h; omega
  | succ fuel ih =>
    intro s r hl
    cases s with
    | nil =>
      simp only [unescapeLoop]
      constructor
      · intro h; cases h; exact .nil
      · intro h
        generalize hs : ([] : Bytes) = s at h
        cases h with
        | nil => rfl
        | plain _ _ => cases hs
        | ref _ _ _ => simp at hs
    | cons c t =>
      by_cases hs : StartsRef (c :: t)
      · obtain ⟨b, t', hb, e⟩ := hs
        rw [e, unescapeLoop_ref hb]
        have hl' : t'.length < fuel := by
          have := congrArg List.length e
          simp only [List.length_append, List.length_cons, List.length_nil] at this hl
          omega
        constructor
        · intro h
          cases hr : replaceEntity b with
          | error e => rw [hr] at h; cases h
          | ok o =>
            rw [hr] at h
            cases hu : unescapeLoop fuel t' with
            | error e => rw [hu] at h; cases h
            | ok r' =>
              rw [hu] at h
              cases h
              exact .ref hb ((replaceEntity_iff b _).1 ⟨o, hr, rfl⟩) ((ih t' r' hl').1 hu)
        · intro h
          generalize hs : [38] ++ b ++ [59] ++ t' = s at h
          cases h with
          | nil => simp at hs
          | plain hn _ => rw [← hs] at hn; exact absurd ⟨b, t', hb, rfl⟩ hn
          | ref hb' ho hu =>
            rename_i b' o t'' r'
            have e1 := (uptoSemi_iff (b ++ [59] ++ t') b).2 ⟨refBody_no_semi hb, t', rfl⟩
            have e2 := (uptoSemi_iff (b' ++ [59] ++ t'') b').2 ⟨refBody_no_semi hb', t'', rfl⟩
            have e3 : b ++ [59] ++ t' = b' ++ [59] ++ t'' := by
              simpa using hs
            rw [e3, e2] at e1
            cases e1
            have e4 : t' = t'' := List.append_cancel_left e3
            subst e4
            obtain ⟨v, hv, rfl⟩ := (replaceEntity_iff _ o).2 ho
            rw [hv, (ih t' r' hl').2 hu]
      · rw [unescapeLoop_plain hs]
        have hl' : t.length < fuel := by simp only [List.length_cons] at hl; omega
        constructor
        · intro h
          cases hu : unescapeLoop fuel t with
          | error e => rw [hu] at h; cases h
          | ok r' => rw [hu] at h; cases h; exact .plain hs ((ih t r' hl').1 hu)
        · intro h
          generalize he : c :: t = s at h
          cases h with
          | nil => cases he
          | plain hn hu =>
            rename_i c' t' r'
            cases he
            rw [(ih t r' hl').2 hu]
          | ref hb _ _ => exact absurd ⟨_, _, hb, he⟩ hs

/-- The names are those of HTML 4. -/
theorem entityNames_html : entityNames = htmlNames := by decide +kernel

/-- **C62**, exactly: the result, if there is one, is the text with its references replaced; a numeric
reference below 256 and the name of a character below 256 become that byte, every other reference
stays. -/
theorem C62_partial (s r : Bytes) : unescapeEntities s = .ok r ↔ Unescaped htmlNames s r := by
  rw [← entityNames_html]
  exact unescapeLoop_iff _ s r (by omega)

/-- Text without a complete reference is returned as it is. -/
theorem C62_unchanged (s : Bytes) (h : ∀ p b q, RefBody b → s ≠ p ++ ([38] ++ b ++ [59]) ++ q) :
    unescapeEntities s = .ok s := by
  rw [C62_partial]
  induction s with
  | nil => exact .nil
  | cons c t ih =>
    refine .plain ?_ (ih fun p b q hb e => h (c :: p) b q hb (by rw [e]; simp))
    rintro ⟨b, r, hb, e⟩
    exact h [] b r hb (by rw [e]; simp)

/-- There is a result unless some reference has a number that does not fit a C `long`. -/
theorem C62_total (s : Bytes)
    (h : ∀ p b q n, RefBody b → s = p ++ ([38] ++ b ++ [59]) ++ q → RefNum b n → n < 2 ^ 63) :
    ∃ r, unescapeEntities s = .ok r := by
  suffices ∀ k s, s.length < k → (∀ p b q n, RefBody b → s = p ++ ([38] ++ b ++ [59]) ++ q →
      RefNum b n → n < 2 ^ 63) → ∃ r, Unescaped htmlNames s r by
    obtain ⟨r, hr⟩ := this _ s (Nat.lt_succ_self _) h
    exact ⟨r, (C62_partial s r).2 hr⟩
  clear h s
  intro k
  induction k with
  | zero => intro s hs; omega
  | succ k ih =>
    intro s hs h
    cases s with
    | nil => exact ⟨[], .nil⟩
    | cons c t =>
      by_cases hr : StartsRef (c :: t)
      · obtain ⟨b, t', hb, e⟩ := hr
        have hl : t'.length < k := by
          have := congrArg List.length e
          simp only [List.length_append, List.length_cons, List.length_nil] at this hs
          omega
        obtain ⟨r, hr⟩ := ih t' hl (fun p b' q n hb' e' hn =>
          h ([38] ++ b ++ [59] ++ p) b' q n hb' (by rw [e, e']; simp) hn)
        rw [← entityNames_html] at *
        have : ∃ o, RefOut entityNames b o := by
          have hchr : ∃ v, replaceEntity b = .ok v := by
            rw [replaceEntity_eq]
            cases hn : refNumber b with
            | none => exact ⟨_, rfl⟩
            | some n =>
              have := h [] b t' n hb (by rw [e]; simp) ((refNumber_iff b n).1 hn)
              simp only [pyChr]
              split
              · exact ⟨_, rfl⟩
              · first
                | exact ⟨_, rfl⟩
                | (rw [if_pos this]; exact ⟨_, rfl⟩)
          obtain ⟨v, hv⟩ := hchr
          exact ⟨_, (replaceEntity_iff b _).1 ⟨v, hv, rfl⟩⟩
        obtain ⟨o, ho⟩ := this
        rw [e]
        exact ⟨_, .ref hb ho hr⟩
      · obtain ⟨r, hr'⟩ := ih t (by simpa using hs) (fun p b' q n hb' e' hn =>
          h (c :: p) b' q n hb' (by rw [e']; simp) hn)
        exact ⟨_, .plain hr hr'⟩

/-- **C62** is false of the code: a reference with a huge number raises `OverflowError` (only
`ValueError` is caught). -/
theorem C62_refuted : unescapeEntities b!"&#9223372036854775808;" = .error .overflowError := by
  rfl

/-- **C62** is false of the code for named references too: those for a character below 256 are replaced. -/
theorem C62_named_refuted : unescapeEntities b!"&amp;" = .ok b!"&" ∧ unescapeEntities b!"&eacute;" = .ok [0xE9] := by
  constructor <;> rfl

example : (unescapeEntities b!"a&amp;b&#65;&#x42;&#300;&Omega;&x;&;&#x0x43;&&lt;").toOption =
    some b!"a&bAB&#300;&Omega;&x;&;C&<" := by decide +kernel

end Verif
