import Mathlib.Tactic.IntervalCases
import Verif.Props.WrittenType
import Verif.Props.Base64
/-!
# Which texts are numbers (C32) and what every base64 text decodes to (C121)
-/

namespace Verif
open Spec

/-! ### Numbers -/

namespace Spec

/-- White space in a byte string. -/
def Blank (s : Bytes) : Prop := ∀ c ∈ s, c ∈ b!" \t\n\r" ∨ c = 11 ∨ c = 12

/-- `s` is the integer `n` as `int()` reads it: digits, perhaps with a sign, and white space on both sides of
either. -/
inductive IntText : Bytes → Int → Prop where
  | bare {l ds r n} : Blank l → Numeral 10 DecDigit ds n → Blank r → IntText (l ++ ds ++ r) n
  | plus {l k ds r n} : Blank l → Blank k → Numeral 10 DecDigit ds n → Blank r → IntText (l ++ 43 :: k ++ ds ++ r) n
  | minus {l k ds r n} : Blank l → Blank k → Numeral 10 DecDigit ds n → Blank r → IntText (l ++ 45 :: k ++ ds ++ r) (-n)

end Spec

theorem blank_iff {s : Bytes} : Blank s ↔ ∀ c ∈ s, Py.isSpace c = true := by
  simp only [Blank, isSpace_iff]

theorem numeral_digits {s : Bytes} {n : Nat} (h : Numeral 10 DecDigit s n) :
    s ≠ [] ∧ (∀ c ∈ s, Py.isDigit c = true) ∧ Py.digitsVal s = n := by
  have h1 := (parseDecInt_iff s n).2 h
  unfold parseDecInt at h1
  split at h1
  case isFalse => cases h1
  rename_i hs
  simp only [Option.some.injEq] at h1
  exact ⟨hs.1, by simpa [List.all_eq_true] using hs.2, h1⟩

theorem digits_numeral {s : Bytes} (h : s ≠ []) (hd : ∀ c ∈ s, Py.isDigit c = true) :
    Numeral 10 DecDigit s (Py.digitsVal s) := by
  refine (parseDecInt_iff s _).1 ?_
  unfold parseDecInt
  rw [if_pos ⟨h, by simpa [List.all_eq_true] using hd⟩]

theorem digit_plain {c : UInt8} (h : Py.isDigit c = true) : Py.isSpace c = false ∧ c ≠ 45 ∧ c ≠ 43 := by
  have := forall_u8 (fun c => !Py.isDigit c || (!Py.isSpace c && decide (c ≠ 45) && decide (c ≠ 43))) (by decide +kernel) c
  simp only [h, Bool.not_true, Bool.false_or, Bool.and_eq_true, Bool.not_eq_true', decide_eq_true_eq] at this
  exact ⟨this.1.1, this.1.2, this.2⟩

theorem takeWhile_holds {α : Type} {p : α → Bool} {s : List α} {c : α} (h : c ∈ s.takeWhile p) : p c = true := by
  induction s with
  | nil => simp at h
  | cons x t ih =>
    rw [List.takeWhile_cons] at h
    split at h
    · rcases List.mem_cons.1 h with rfl | h
      · assumption
      · exact ih h
    · simp at h

/-- A text with its outer white space. -/
theorem strip_split (s : Bytes) : ∃ l r, s = l ++ Py.strip s ++ r ∧ Blank l ∧ Blank r := by
  refine ⟨s.takeWhile Py.isSpace, ((s.dropWhile Py.isSpace).reverse.takeWhile Py.isSpace).reverse, ?_,
    blank_iff.2 fun c hc => takeWhile_holds hc,
    blank_iff.2 fun c hc => takeWhile_holds (s := (s.dropWhile Py.isSpace).reverse) (by simpa using hc)⟩
  unfold Py.strip Py.stripBy
  rw [List.append_assoc, ← List.reverse_append, List.takeWhile_append_dropWhile, List.reverse_reverse,
    List.takeWhile_append_dropWhile]

/-- **C32.**  `int()` gives a number for exactly the texts that are one. -/
theorem C32_number (s : Bytes) (n : Int) : Py.parseInt s = some n ↔ IntText s n := by
  constructor
  · intro h
    obtain ⟨l, r, e, hl, hr⟩ := strip_split s
    unfold Py.parseInt at h
    generalize Py.strip s = t at h e
    subst e
    have key : ∀ {d : Bytes} {neg : Bool}, (if d ≠ [] ∧ d.all Py.isDigit = true then
        some (if neg = true then -(Py.digitsVal d : Int) else Py.digitsVal d) else none) = some n →
        ∃ k, Numeral 10 DecDigit d k ∧ n = if neg = true then -(k : Int) else k := by
      intro d neg h
      split at h
      · rename_i hd
        exact ⟨_, digits_numeral hd.1 (by simpa [List.all_eq_true] using hd.2), (Option.some.inj h).symm⟩
      · cases h
    have split : ∀ u : Bytes, ∃ k, u = k ++ u.dropWhile Py.isSpace ∧ Blank k := fun u =>
      ⟨u.takeWhile Py.isSpace, (List.takeWhile_append_dropWhile).symm, blank_iff.2 fun c hc => takeWhile_holds hc⟩
    simp only at h
    split at h
    · rename_i u
      obtain ⟨k, h1, h2⟩ := key h
      obtain ⟨g, e, hg⟩ := split u
      have := IntText.minus hl hg h1 hr
      simp only [if_true] at h2
      rw [h2]
      have e' : l ++ 45 :: u ++ r = l ++ 45 :: g ++ u.dropWhile Py.isSpace ++ r := by
        conv_lhs => rw [e]
        simp
      rw [e']
      exact this
    · rename_i u
      obtain ⟨k, h1, h2⟩ := key h
      obtain ⟨g, e, hg⟩ := split u
      have := IntText.plus hl hg h1 hr
      simp only [Bool.false_eq_true, if_false] at h2
      rw [h2]
      have e' : l ++ 43 :: u ++ r = l ++ 43 :: g ++ u.dropWhile Py.isSpace ++ r := by
        conv_lhs => rw [e]
        simp
      rw [e']
      exact this
    · obtain ⟨k, h1, h2⟩ := key h
      simp only [Bool.false_eq_true, if_false] at h2
      rw [h2]
      exact .bare hl h1 hr
  · intro h
    have last : ∀ {ds : Bytes} {a : Bytes} {c : UInt8}, ds ≠ [] → (∀ c ∈ ds, Py.isDigit c = true) →
        (a ++ ds).getLast? = some c → Py.isSpace c = false := by
      intro ds a c hne hd hc
      rw [List.getLast?_append_of_ne_nil _ hne] at hc
      exact (digit_plain (hd c (List.mem_of_getLast? hc))).1
    have drop : ∀ {k ds : Bytes}, Blank k → (∀ c ∈ ds, Py.isDigit c = true) → (k ++ ds).dropWhile Py.isSpace = ds := by
      intro k ds hk hd
      exact dropWhile_app (blank_iff.1 hk) (fun c hc => (digit_plain (hd c (List.mem_of_head? hc))).1)
    unfold Py.parseInt
    cases h with
    | @bare l ds r n hl hn hr =>
      obtain ⟨h1, h2, h3⟩ := numeral_digits hn
      rw [strip_pad (fun c hc => by
        rcases List.mem_append.1 hc with hc | hc
        · exact blank_iff.1 hl c hc
        · exact blank_iff.1 hr c hc) (by
        rintro c (hc | hc)
        · exact (digit_plain (h2 c (List.mem_of_head? hc))).1
        · exact (digit_plain (h2 c (List.mem_of_getLast? hc))).1)]
      simp only
      split
      · exact absurd rfl (digit_plain (h2 45 (by simp))).2.1
      · exact absurd rfl (digit_plain (h2 43 (by simp))).2.2
      · rw [if_pos ⟨h1, by simpa [List.all_eq_true] using h2⟩, h3]
        rfl
    | @plus l k ds r n hl hk hn hr =>
      obtain ⟨h1, h2, h3⟩ := numeral_digits hn
      rw [show l ++ 43 :: k ++ ds ++ r = l ++ (43 :: (k ++ ds)) ++ r by simp, strip_pad (fun c hc => by
        rcases List.mem_append.1 hc with hc | hc
        · exact blank_iff.1 hl c hc
        · exact blank_iff.1 hr c hc) (by
        rintro c (hc | hc)
        · cases hc; decide
        · exact last (a := 43 :: k) h1 h2 hc)]
      simp only [drop hk h2]
      rw [if_pos ⟨h1, by simpa [List.all_eq_true] using h2⟩, h3]
      rfl
    | @minus l k ds r n hl hk hn hr =>
      obtain ⟨h1, h2, h3⟩ := numeral_digits hn
      rw [show l ++ 45 :: k ++ ds ++ r = l ++ (45 :: (k ++ ds)) ++ r by simp, strip_pad (fun c hc => by
        rcases List.mem_append.1 hc with hc | hc
        · exact blank_iff.1 hl c hc
        · exact blank_iff.1 hr c hc) (by
        rintro c (hc | hc)
        · cases hc; decide
        · exact last (a := 45 :: k) h1 h2 hc)]
      simp only [drop hk h2]
      rw [if_pos ⟨h1, by simpa [List.all_eq_true] using h2⟩, h3]
      rfl

/-- **C32** with the content length as it is written: a negative number is a `MultiPartParserError`; without a content
length, and with one that is no number, the length is 0. -/
theorem C32_length_partial {ρ σ F : Type} (C : Codecs) (H : HandlerOps ρ σ F) {type ct : Bytes} {ps : List (Bytes × Bytes)}
    (ht : b!"multipart/" <+: type) (hv : ∀ c ∈ type, Visible c ∧ c ∉ b!";\"") (h : MediaText type ps ct)
    (ha : ∀ c ∈ ct, c < 128) (cl : Option Bytes) {b : Bytes} (hb : param ps b!"boundary" = some b) :
    (∀ l n, cl = some l → IntText l n → n < 0 → MultiPart.create C H (some ct) cl = .error .multiPartParserError) ∧
    (BoundaryOk (Py.toU b) →
      (∀ l (n : Nat), cl = some l → IntText l n →
        ∃ m, MultiPart.create C H (some ct) cl = .ok m ∧ m.boundary = b ∧ m.contentLength = n) ∧
      ((∀ l n, cl = some l → ¬ IntText l n) →
        ∃ m, MultiPart.create C H (some ct) cl = .ok m ∧ m.boundary = b ∧ m.contentLength = 0)) := by
  obtain ⟨h1, h2⟩ := (C32_written_partial C H ht hv h ha cl).2 b hb
  refine ⟨fun l n e hn hneg => h1 (.inr ⟨l, n, e, (C32_number l n).2 hn, hneg⟩), fun hk => ⟨fun l n e hn => ?_, fun hno => ?_⟩⟩
  · exact h2 hk n (.inr (.inr ⟨l, e, (C32_number l n).2 hn⟩))
  · refine h2 hk 0 ?_
    cases cl with
    | none => exact .inl ⟨rfl, rfl⟩
    | some l =>
      refine .inr (.inl ⟨l, rfl, ?_, rfl⟩)
      cases hp : Py.parseInt l with
      | none => rfl
      | some n => exact absurd ((C32_number l n).1 hp) (hno l n rfl)

/-- ` - 12 ` is the number -12; `1 2` is none. -/
example : IntText b!" - 12 " (-12) ∧ ∀ n, ¬ IntText b!"1 2" n := by
  refine ⟨(C32_number _ _).1 (by decide +kernel), fun n hn => ?_⟩
  have := (C32_number _ _).2 hn
  have h : Py.parseInt b!"1 2" = none := by decide +kernel
  rw [h] at this
  cases this

/-! ### Base64 -/

namespace Spec

/-- The alphabet. -/
def b64alphabet : Bytes := b!"ABCDEFGHIJKLMNOPQRSTUVWXYZabcdefghijklmnopqrstuvwxyz0123456789+/"

/-- A byte that has no meaning in base64. -/
def B64Junk (c : UInt8) : Prop := c ∉ b64alphabet ∧ c ≠ 61

/-- The characters that count: those of the alphabet, as numbers, up to the padding.  `q` is how many have come before
in the group of four.  A `=` is padding in the fourth place, and in the third if the next character with a meaning is
another `=`; elsewhere it counts for nothing.  Without padding, the last group must be full. -/
inductive B64Counts : Nat → Bytes → List Nat → Prop where
  | full : B64Counts 0 [] []
  | junk {q c t vs} : B64Junk c → B64Counts q t vs → B64Counts q (c :: t) vs
  | char {q c t v vs} : b64alphabet[v]? = some c → B64Counts ((q + 1) % 4) t vs → B64Counts q (c :: t) (v :: vs)
  | stray {q t vs} : q = 0 ∨ q = 1 → B64Counts q t vs → B64Counts q (61 :: t) vs
  | stray2 {t vs} : ¬ (∃ j r, t = j ++ 61 :: r ∧ ∀ c ∈ j, B64Junk c) → B64Counts 2 t vs → B64Counts 2 (61 :: t) vs
  | pad2 {j r} : (∀ c ∈ j, B64Junk c) → B64Counts 2 (61 :: j ++ 61 :: r) []
  | pad3 {t} : B64Counts 3 (61 :: t) []

/-- A number in `n` binary digits, most significant first. -/
def bitsOf (v : Nat) : Nat → List Bool
  | 0 => []
  | n + 1 => v.testBit n :: bitsOf v n

/-- The bytes: the digits of the characters, six each, in groups of eight; a rest of less than eight is left out. -/
def B64Bytes (vs : List Nat) (d : Bytes) : Prop :=
  ∃ rest, vs.flatMap (bitsOf · 6) = d.flatMap (fun c => bitsOf c.toNat 8) ++ rest ∧ rest.length < 8

end Spec

theorem b64val_iff (c : UInt8) (v : Nat) : Py.b64val c = some v ↔ b64alphabet[v]? = some c := by
  constructor
  · intro h
    have := forall_u8 (fun c => match Py.b64val c with | none => true | some v => decide (b64alphabet[v]? = some c)) (by decide +kernel) c
    rw [h] at this
    exact of_decide_eq_true this
  · intro h
    have hv : v < 64 := by
      have := (List.getElem?_eq_some_iff.1 h).1
      exact lt_of_lt_of_eq this (by decide)
    have : ∀ v : Fin 64, (b64alphabet[v.val]?).bind Py.b64val = some v.val := by decide +kernel
    have := this ⟨v, hv⟩
    rw [h] at this
    exact this

theorem b64val_none (c : UInt8) : Py.b64val c = none ↔ c ∉ b64alphabet := by
  have := forall_u8 (fun c => decide (Py.b64val c = none ↔ c ∉ b64alphabet)) (by decide +kernel) c
  exact of_decide_eq_true this

theorem b64nextValid_iff (t : Bytes) :
    Py.b64nextValid t = some 61 ↔ ∃ j r, t = j ++ 61 :: r ∧ ∀ c ∈ j, B64Junk c := by
  induction t with
  | nil => simp [Py.b64nextValid]
  | cons c t ih =>
    unfold Py.b64nextValid
    by_cases hc : c = 61
    · subst hc
      simp only [true_or, if_true, true_iff]
      exact ⟨[], t, rfl, by simp⟩
    · cases hv : Py.b64val c with
      | none =>
        rw [if_neg (by simp [hc]), ih]
        have hj : B64Junk c := ⟨(b64val_none c).1 hv, hc⟩
        constructor
        · rintro ⟨j, r, rfl, h⟩
          exact ⟨c :: j, r, rfl, by simpa [hj] using h⟩
        · rintro ⟨j, r, e, h⟩
          cases j with
          | nil => simp only [List.nil_append, List.cons.injEq] at e; exact absurd e.1 hc
          | cons x j =>
            simp only [List.cons_append, List.cons.injEq] at e
            exact ⟨j, r, e.2, fun c hc => h c (by simp [hc])⟩
      | some v =>
        rw [if_pos (by simp)]
        constructor
        · intro h; exact absurd (Option.some.inj h) hc
        · rintro ⟨j, r, e, h⟩
          cases j with
          | nil => simp only [List.nil_append, List.cons.injEq] at e; exact absurd e.1 hc
          | cons x j =>
            simp only [List.cons_append, List.cons.injEq] at e
            have := (h x (by simp)).1
            rw [← e.1, ← b64val_none, hv] at this
            cases this

theorem bitsOf_mod (x b : Nat) : ∀ n, n ≤ b → bitsOf (x % 2 ^ b) n = bitsOf x n
  | 0, _ => rfl
  | n + 1, h => by
    unfold bitsOf
    rw [bitsOf_mod x b n (by omega), Nat.testBit_mod_two_pow]
    simp [show n < b by omega]

theorem bitsOf_add (x b : Nat) : ∀ a, bitsOf x (a + b) = bitsOf (x / 2 ^ b) a ++ bitsOf (x % 2 ^ b) b
  | 0 => by rw [Nat.zero_add, bitsOf_mod x b b le_rfl]; rfl
  | a + 1 => by
    rw [show a + 1 + b = (a + b) + 1 by omega]
    simp only [bitsOf, List.cons_append]
    rw [bitsOf_add x b a, Nat.testBit_div_two_pow, Nat.add_comm]

theorem bitsOf_length (x : Nat) : ∀ n, (bitsOf x n).length = n
  | 0 => rfl
  | n + 1 => by simp [bitsOf, bitsOf_length x n]

theorem bits8_inj {a b : UInt8} (h : bitsOf a.toNat 8 = bitsOf b.toNat 8) : a = b := by
  have : ∀ i, a.toNat.testBit i = b.toNat.testBit i := by
    intro i
    by_cases hi : i < 8
    · simp only [bitsOf, List.cons.injEq, and_true] at h
      obtain ⟨h7, h6, h5, h4, h3, h2, h1, h0⟩ := h
      interval_cases i <;> assumption
    · have hp : 2 ^ 8 ≤ 2 ^ i := Nat.pow_le_pow_right (by omega) (by omega)
      have ha := a.toNat_lt
      have hb := b.toNat_lt
      rw [Nat.testBit_lt_two_pow (by omega), Nat.testBit_lt_two_pow (by omega)]
  exact UInt8.toNat_inj.1 (Nat.eq_of_testBit_eq this)

theorem bytes_unique : ∀ {d d' : Bytes} {r r' : List Bool}, r.length < 8 → r'.length < 8 →
    d.flatMap (fun c => bitsOf c.toNat 8) ++ r = d'.flatMap (fun c => bitsOf c.toNat 8) ++ r' → d = d'
  | [], [], _, _, _, _, _ => rfl
  | [], c :: t, r, r', h1, h2, h => by
    have := congrArg List.length h
    simp only [List.flatMap_cons, List.flatMap_nil, List.length_append, bitsOf_length, List.length_nil] at this
    omega
  | c :: t, [], r, r', h1, h2, h => by
    have := congrArg List.length h
    simp only [List.flatMap_cons, List.flatMap_nil, List.length_append, bitsOf_length, List.length_nil] at this
    omega
  | c :: t, c' :: t', r, r', h1, h2, h => by
    simp only [List.flatMap_cons, List.append_assoc] at h
    have := List.append_inj h (by simp [bitsOf_length])
    rw [bits8_inj this.1, bytes_unique h1 h2 this.2]

/-- The digits that wait for the rest of their byte. -/
def b64left : Nat → Nat
  | 0 => 0
  | 1 => 6
  | 2 => 4
  | _ => 2

theorem a2bLoop_counts : ∀ {s : Bytes} {q char : Nat} {out res : Bytes}, q < 4 →
    Py.a2bLoop s q char (b64left q) out = some res → ∃ vs, B64Counts q s vs := by
  intro s
  induction s with
  | nil =>
    intro q char out res hq h
    unfold Py.a2bLoop at h
    split at h
    · rename_i hb
      have : q = 0 := by interval_cases q <;> simp_all [b64left]
      subst this
      exact ⟨[], .full⟩
    · cases h
  | cons c t ih =>
    intro q char out res hq h
    unfold Py.a2bLoop at h
    split at h
    · rename_i hc
      subst hc
      split at h
      · rename_i hs
        obtain ⟨vs, h1⟩ := ih hq h
        rcases hs with hs | ⟨rfl, hs⟩
        · exact ⟨vs, .stray (by omega) h1⟩
        · exact ⟨vs, .stray2 (fun hn => hs ((b64nextValid_iff t).2 hn)) h1⟩
      · rename_i hs
        have : q = 3 ∨ (q = 2 ∧ Py.b64nextValid t = some 61) := by
          rcases Nat.lt_or_ge q 3 with h3 | h3
          · refine .inr ⟨?_, ?_⟩
            · by_contra hne; exact hs (.inl (by omega))
            · by_contra hne; exact hs (by by_cases h2 : q < 2; exact .inl h2; exact .inr ⟨by omega, hne⟩)
          · exact .inl (by omega)
        rcases this with rfl | ⟨rfl, hn⟩
        · exact ⟨[], .pad3⟩
        · obtain ⟨j, r, rfl, hj⟩ := (b64nextValid_iff t).1 hn
          exact ⟨[], .pad2 hj⟩
    · rename_i hc
      split at h
      · rename_i hv
        obtain ⟨vs, h1⟩ := ih hq h
        exact ⟨vs, .junk ⟨(b64val_none c).1 hv, hc⟩ h1⟩
      · rename_i v hv
        have hl : (if b64left q + 6 ≥ 8 then b64left q + 6 - 8 else b64left q + 6) = b64left ((q + 1) % 4) := by
          interval_cases q <;> rfl
        simp only at h
        have : ∃ char' out', Py.a2bLoop t ((q + 1) % 4) char' (b64left ((q + 1) % 4)) out' = some res := by
          rw [← hl]
          split at h
          · rename_i h8; rw [if_pos h8]; exact ⟨_, _, h⟩
          · rename_i h8; rw [if_neg h8]; exact ⟨_, _, h⟩
        obtain ⟨char', out', h⟩ := this
        obtain ⟨vs, h1⟩ := ih (Nat.mod_lt _ (by omega)) h
        exact ⟨v :: vs, .char ((b64val_iff c v).1 hv) h1⟩

theorem counts_decode {q : Nat} {s : Bytes} {vs : List Nat} (h : B64Counts q s vs) : ∀ {char : Nat} (out : Bytes), q < 4 →
    char < 2 ^ b64left q → ∃ d rest, Py.a2bLoop s q char (b64left q) out = some (out ++ d) ∧
      bitsOf char (b64left q) ++ vs.flatMap (bitsOf · 6) = d.flatMap (fun c => bitsOf c.toNat 8) ++ rest ∧ rest.length < 8 := by
  induction h with
  | full => intro char out _ _; exact ⟨[], [], by simp [Py.a2bLoop, b64left], by simp [b64left, bitsOf], by simp⟩
  | @junk q c t vs hj _ ih =>
    intro char out hq hch
    obtain ⟨d, rest, h1, h2⟩ := ih out hq hch
    refine ⟨d, rest, ?_, h2⟩
    unfold Py.a2bLoop
    rw [if_neg hj.2, (b64val_none c).2 hj.1]
    exact h1
  | @stray q t vs hq' _ ih =>
    intro char out hq hch
    obtain ⟨d, rest, h1, h2⟩ := ih out hq hch
    refine ⟨d, rest, ?_, h2⟩
    unfold Py.a2bLoop
    rw [if_pos rfl, if_pos (.inl (by omega))]
    exact h1
  | @stray2 t vs hn _ ih =>
    intro char out hq hch
    obtain ⟨d, rest, h1, h2⟩ := ih out hq hch
    refine ⟨d, rest, ?_, h2⟩
    unfold Py.a2bLoop
    rw [if_pos rfl, if_pos (.inr ⟨rfl, fun h => hn ((b64nextValid_iff t).1 h)⟩)]
    exact h1
  | @pad2 j r hj =>
    intro char out hq hch
    refine ⟨[], bitsOf char (b64left 2), ?_, by simp, by simp [bitsOf_length, b64left]⟩
    rw [List.cons_append]
    unfold Py.a2bLoop
    rw [if_pos rfl, if_neg (by
      rintro (h | ⟨-, h⟩)
      · omega
      · exact h ((b64nextValid_iff _).2 ⟨j, r, rfl, hj⟩))]
    simp
  | @pad3 t =>
    intro char out hq hch
    refine ⟨[], bitsOf char (b64left 3), ?_, by simp, by simp [bitsOf_length, b64left]⟩
    unfold Py.a2bLoop
    rw [if_pos rfl, if_neg (by rintro (h | ⟨h, -⟩) <;> omega)]
    simp
  | @char q c t v vs hv _ ih =>
    intro char out hq hch
    have hv' := (b64val_iff c v).2 hv
    have hv64 : v < 64 := lt_of_lt_of_eq (List.getElem?_eq_some_iff.1 hv).1 (by decide)
    have hc : c ≠ 61 := by rintro rfl; rw [show Py.b64val 61 = none by decide] at hv'; cases hv'
    have hcat : bitsOf char (b64left q) ++ bitsOf v 6 = bitsOf (char * 64 + v) (b64left q + 6) := by
      rw [bitsOf_add (char * 64 + v) 6 (b64left q)]
      rw [show (char * 64 + v) / 2 ^ 6 = char by omega, show (char * 64 + v) % 2 ^ 6 = v by omega]
    have hlt : char * 64 + v < 2 ^ (b64left q + 6) := by
      rw [pow_add]
      omega
    unfold Py.a2bLoop
    rw [if_neg hc, hv']
    simp only [List.flatMap_cons, ← List.append_assoc, hcat]
    by_cases h8 : b64left q + 6 ≥ 8
    · have hl : b64left q + 6 - 8 = b64left ((q + 1) % 4) := by interval_cases q <;> first | rfl | (simp [b64left] at h8)
      rw [if_pos h8, hl]
      obtain ⟨d, rest, h1, h2, h3⟩ := ih (char := (char * 64 + v) % 2 ^ b64left ((q + 1) % 4))
        (out ++ [UInt8.ofNat ((char * 64 + v) / 2 ^ b64left ((q + 1) % 4))]) (Nat.mod_lt _ (by omega))
        (Nat.mod_lt _ (Nat.two_pow_pos _))
      refine ⟨UInt8.ofNat ((char * 64 + v) / 2 ^ b64left ((q + 1) % 4)) :: d, rest, by rw [h1]; simp, ?_, h3⟩
      have h256 : (char * 64 + v) / 2 ^ b64left ((q + 1) % 4) < 256 := by
        rw [Nat.div_lt_iff_lt_mul (Nat.two_pow_pos _), ← hl, show 256 = 2 ^ 8 from rfl, ← pow_add]
        rw [show 8 + (b64left q + 6 - 8) = b64left q + 6 by omega]
        exact hlt
      rw [List.flatMap_cons, List.append_assoc, ← h2, show b64left q + 6 = 8 + b64left ((q + 1) % 4) by omega, bitsOf_add]
      rw [List.append_assoc, UInt8.toNat_ofNat_of_lt' h256]
    · have hl : b64left q + 6 = b64left ((q + 1) % 4) := by
        interval_cases q <;> first | rfl | (simp [b64left] at h8)
      rw [if_neg h8]
      rw [hl] at hlt ⊢
      exact ih out (Nat.mod_lt _ (by omega)) hlt

/-- **C121.**  What every base64 text decodes to.  Only the characters of the alphabet and the padding count; a `=` in
the wrong place is passed over, as is everything after the padding.  The bytes are the digits of the characters in groups
of eight, whatever is left over at the padding is dropped, and a last group that is neither full nor padded is an
error. -/
theorem C121_exact (s d : Bytes) : Py.b64decode s = some d ↔ ∃ vs, B64Counts 0 s vs ∧ B64Bytes vs d := by
  unfold Py.b64decode
  constructor
  · intro h
    obtain ⟨vs, h1⟩ := a2bLoop_counts (q := 0) (by omega) h
    obtain ⟨d', rest, e1, e2, e3⟩ := counts_decode h1 (char := 0) [] (by omega) (by simp [b64left])
    have : some d = some d' := by
      rw [← h]; simpa [b64left] using e1
    cases this
    exact ⟨vs, h1, rest, by simpa [b64left, bitsOf] using e2, e3⟩
  · rintro ⟨vs, h1, rest', e4, e5⟩
    obtain ⟨d', rest, e1, e2, e3⟩ := counts_decode h1 (char := 0) [] (by omega) (by simp [b64left])
    have e2 : vs.flatMap (bitsOf · 6) = d'.flatMap (fun c => bitsOf c.toNat 8) ++ rest := by
      simpa [b64left, bitsOf] using e2
    have : d = d' := bytes_unique e5 e3 (e4.symm.trans e2)
    subst this
    simpa [b64left] using e1

/-- A `=` in the third place and a space that count for nothing: `YQ=B j` is read like `YQBj`. -/
example : B64Counts 0 b!"YQ=B j" [24, 16, 1, 35] ∧ B64Bytes [24, 16, 1, 35] [97, 0, 99] := by
  refine ⟨.char (by decide) (.char (by decide) (.stray2 ?_ (.char (by decide) (.junk (by unfold B64Junk; decide)
    (.char (by decide) .full))))), [], by decide, by decide⟩
  rw [← b64nextValid_iff]; decide

end Verif
