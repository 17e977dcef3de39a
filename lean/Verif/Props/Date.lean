import Verif.Model.Date
import Verif.Spec.Date
import Verif.Proofs.Quote
/-!
# HTTP dates (C61, C72)
-/

namespace Verif
open Spec

/-! ### The calendar -/

theorem isLeap_iff (y : Nat) : isLeap y = true ↔ Leap y := by
  unfold isLeap Leap
  simp only [Bool.and_eq_true, Bool.or_eq_true, decide_eq_true_eq]
  constructor
  · rintro ⟨h1, h2⟩; exact ⟨h1, fun h => h2.resolve_left (fun g => g h)⟩
  · rintro ⟨h1, h2⟩
    refine ⟨h1, ?_⟩
    by_cases h : y % 100 = 0
    · exact .inr (h2 h)
    · exact .inl h

theorem daysInMonth_eq (y m : Nat) (h1 : 1 ≤ m) (h2 : m ≤ 12) : daysInMonth y m = monthLen y m := by
  unfold daysInMonth monthLen
  have : m = 1 ∨ m = 2 ∨ m = 3 ∨ m = 4 ∨ m = 5 ∨ m = 6 ∨ m = 7 ∨ m = 8 ∨ m = 9 ∨ m = 10 ∨ m = 11 ∨ m = 12 := by
    omega
  by_cases hl : Leap y
  · have hb := (isLeap_iff y).2 hl
    rcases ‹_ ∨ _› with rfl | rfl | rfl | rfl | rfl | rfl | rfl | rfl | rfl | rfl | rfl | rfl <;> simp [hl, hb]
  · have hb : isLeap y = false := by
      cases hc : isLeap y with
      | false => rfl
      | true => exact absurd ((isLeap_iff y).1 hc) hl
    rcases ‹_ ∨ _› with rfl | rfl | rfl | rfl | rfl | rfl | rfl | rfl | rfl | rfl | rfl | rfl <;> simp [hl, hb]

/-- Days in a year. -/
def yearLen (y : Nat) : Nat := if isLeap y then 366 else 365

theorem daysBeforeYear_succ (y : Nat) (h : 1 ≤ y) : daysBeforeYear (y + 1) = daysBeforeYear y + yearLen y := by
  unfold daysBeforeYear yearLen
  obtain ⟨k, rfl⟩ : ∃ k, y = k + 1 := ⟨y - 1, by omega⟩
  by_cases hl : isLeap (k + 1) = true
  · rw [if_pos hl]
    rw [isLeap_iff] at hl
    unfold Leap at hl
    obtain ⟨h1, h2⟩ := hl
    simp only [Nat.add_sub_cancel]
    by_cases h3 : (k + 1) % 100 = 0
    · have := h2 h3; omega
    · omega
  · rw [if_neg hl]
    rw [isLeap_iff] at hl
    unfold Leap at hl
    simp only [Nat.add_sub_cancel]
    by_cases h1 : (k + 1) % 4 = 0
    · have h3 : (k + 1) % 100 = 0 := by
        apply Classical.byContradiction
        intro h3; exact hl ⟨h1, fun h => absurd h h3⟩
      have h4 : (k + 1) % 400 ≠ 0 := fun h4 => hl ⟨h1, fun _ => h4⟩
      omega
    · omega

theorem month_cases {m : Nat} (h1 : 1 ≤ m) (h2 : m ≤ 12) : m = 1 ∨ m = 2 ∨ m = 3 ∨ m = 4 ∨ m = 5 ∨ m = 6 ∨
    m = 7 ∨ m = 8 ∨ m = 9 ∨ m = 10 ∨ m = 11 ∨ m = 12 := by omega

theorem daysBeforeMonth_succ (y m : Nat) (h1 : 1 ≤ m) (h2 : m < 12) :
    daysBeforeMonth y (m + 1) = daysBeforeMonth y m + daysInMonth y m := by
  unfold daysBeforeMonth daysInMonth
  cases hl : isLeap y <;>
    rcases month_cases h1 (Nat.le_of_lt h2) with
      rfl | rfl | rfl | rfl | rfl | rfl | rfl | rfl | rfl | rfl | rfl | rfl <;> simp_all

theorem daysBeforeMonth_twelve (y : Nat) : daysBeforeMonth y 12 + daysInMonth y 12 = yearLen y := by
  unfold daysBeforeMonth daysInMonth yearLen
  cases isLeap y <;> simp

theorem daysBeforeMonth_one (y : Nat) : daysBeforeMonth y 1 = 0 := by simp [daysBeforeMonth]

theorem dayOf_real (n : Nat) : 1970 ≤ (dayOf n).year ∧ RealDate (dayOf n).year (dayOf n).month (dayOf n).day ∧
    (dayOf n).wday = (n + 3) % 7 ∧
    toOrdinal (dayOf n).year (dayOf n).month (dayOf n).day = 719163 + n := by
  induction n with
  | zero => exact ⟨by decide, by unfold RealDate; decide, rfl, by decide +kernel⟩
  | succ n ih =>
    rw [dayOf]
    generalize dayOf n = d at ih
    obtain ⟨y, m, d, w⟩ := d
    simp only [RealDate] at ih ⊢
    obtain ⟨h0, ⟨h1, h2, h3, h4, h5⟩, h6, h7⟩ := ih
    have hm := daysInMonth_eq y m h2 h3
    have pos : ∀ m, 1 ≤ monthLen y m ∧ 1 ≤ monthLen (y + 1) m := by
      intro m; unfold monthLen; constructor <;> split <;> (try split) <;> omega
    unfold Day.next
    simp only
    unfold toOrdinal at h7 ⊢
    split
    · simp only
      refine ⟨h0, ⟨h1, h2, h3, by omega, by omega⟩, by omega, by omega⟩
    · split
      · simp only
        have := daysBeforeMonth_succ y m h2 (by omega)
        refine ⟨h0, ⟨h1, by omega, by omega, by omega, (pos _).1⟩, by omega, by omega⟩
      · simp only
        have hm12 : m = 12 := by omega
        subst hm12
        have a := daysBeforeMonth_twelve y
        have b := daysBeforeYear_succ y h1
        have c := daysBeforeMonth_one (y + 1)
        refine ⟨by omega, ⟨by omega, by omega, by omega, by omega, (pos _).2⟩, by omega, by omega⟩

theorem daysBeforeYear_mono {y y' : Nat} (h1 : 1 ≤ y) (h : y < y') :
    daysBeforeYear y + yearLen y ≤ daysBeforeYear y' := by
  induction y' with
  | zero => omega
  | succ k ih =>
    by_cases hk : y < k
    · have := ih hk
      have := daysBeforeYear_succ k (by omega)
      omega
    · have : y = k := by omega
      subst this
      rw [daysBeforeYear_succ y h1]

theorem daysBeforeMonth_mono {y m m' : Nat} (h1 : 1 ≤ m) (h : m < m') (h2 : m' ≤ 12) :
    daysBeforeMonth y m + daysInMonth y m ≤ daysBeforeMonth y m' := by
  induction m' with
  | zero => omega
  | succ k ih =>
    by_cases hk : m < k
    · have := ih hk (by omega)
      have := daysBeforeMonth_succ y k (by omega) (by omega)
      omega
    · have : m = k := by omega
      subst this
      rw [daysBeforeMonth_succ y m h1 (by omega)]

theorem monthDay_le {y m d : Nat} (h : RealDate y m d) : daysBeforeMonth y m + d ≤ yearLen y := by
  obtain ⟨_, h1, h2, _, h3⟩ := h
  rw [← daysInMonth_eq y m h1 h2] at h3
  by_cases hm : m = 12
  · subst hm; rw [← daysBeforeMonth_twelve y]; omega
  · have := daysBeforeMonth_mono (y := y) h1 (show m < 12 by omega) (Nat.le_refl _)
    rw [← daysBeforeMonth_twelve y]; omega

/-- A date is determined by its ordinal. -/
theorem ordinal_inj {y m d y' m' d' : Nat} (h : RealDate y m d) (h' : RealDate y' m' d')
    (e : toOrdinal y m d = toOrdinal y' m' d') : y = y' ∧ m = m' ∧ d = d' := by
  have l := monthDay_le h
  have l' := monthDay_le h'
  obtain ⟨a0, a1, a2, a3, a4⟩ := h
  obtain ⟨b0, b1, b2, b3, b4⟩ := h'
  unfold toOrdinal at e
  have hy : y = y' := by
    rcases Nat.lt_trichotomy y y' with hlt | heq | hgt
    · have := daysBeforeYear_mono a0 hlt; omega
    · exact heq
    · have := daysBeforeYear_mono b0 hgt; omega
  subst hy
  rw [← daysInMonth_eq y m a1 a2] at a4
  rw [← daysInMonth_eq y m' b1 b2] at b4
  have hm : m = m' := by
    rcases Nat.lt_trichotomy m m' with hlt | heq | hgt
    · have := daysBeforeMonth_mono (y := y) a1 hlt b2; omega
    · exact heq
    · have := daysBeforeMonth_mono (y := y) b1 hgt a2; omega
  subst hm
  exact ⟨rfl, rfl, by omega⟩

theorem gmYear_spec (fuel : Nat) : ∀ y d, 1 ≤ y → d ≤ fuel →
    y ≤ (gmYear fuel y d).1 ∧ (gmYear fuel y d).2 < yearLen (gmYear fuel y d).1 ∧
    daysBeforeYear (gmYear fuel y d).1 + (gmYear fuel y d).2 = daysBeforeYear y + d := by
  have pos : ∀ y, 365 ≤ yearLen y := by intro y; unfold yearLen; split <;> omega
  induction fuel with
  | zero =>
    intro y d h1 h2
    have := pos y
    simp only [gmYear]
    exact ⟨by omega, by omega, trivial⟩
  | succ fuel ih =>
    intro y d h1 h2
    have := pos y
    have e := daysBeforeYear_succ y h1
    have eq : gmYear (fuel + 1) y d =
        if d < yearLen y then (y, d) else gmYear fuel (y + 1) (d - yearLen y) := rfl
    rw [eq]
    split
    · exact ⟨by simp, by simpa, rfl⟩
    · obtain ⟨i1, i2, i3⟩ := ih (y + 1) (d - yearLen y) (by omega) (by omega)
      exact ⟨by omega, i2, by omega⟩

theorem gmMonth_spec (y : Nat) (fuel : Nat) : ∀ m d, 1 ≤ m → m + fuel = 12 →
    daysBeforeMonth y m + d < yearLen y →
    1 ≤ (gmMonth fuel y m d).1 ∧ (gmMonth fuel y m d).1 ≤ 12 ∧
    (gmMonth fuel y m d).2 < daysInMonth y (gmMonth fuel y m d).1 ∧
    daysBeforeMonth y (gmMonth fuel y m d).1 + (gmMonth fuel y m d).2 = daysBeforeMonth y m + d := by
  induction fuel with
  | zero =>
    intro m d h1 h2 h3
    have : m = 12 := by omega
    subst this
    have := daysBeforeMonth_twelve y
    simp only [gmMonth]
    exact ⟨by omega, by omega, by omega, trivial⟩
  | succ fuel ih =>
    intro m d h1 h2 h3
    unfold gmMonth
    split
    · exact ⟨h1, by simp only; omega, by simpa, rfl⟩
    · have e := daysBeforeMonth_succ y m h1 (by omega)
      obtain ⟨i1, i2, i3, i4⟩ := ih (m + 1) (d - daysInMonth y m) (by omega) (by omega) (by omega)
      exact ⟨i1, i2, i3, by omega⟩

/-- `time.gmtime` agrees with counting the days one by one. -/
theorem gmDate_eq (n : Nat) : gmDate n = ((dayOf n).year, (dayOf n).month, (dayOf n).day) := by
  obtain ⟨a1, a2, a3, a4⟩ := dayOf_real n
  obtain ⟨y1, y2, y3⟩ := gmYear_spec n 1970 n (by omega) (Nat.le_refl _)
  unfold gmDate
  simp only
  generalize gmYear n 1970 n = p at y1 y2 y3
  obtain ⟨y, r⟩ := p
  simp only at y1 y2 y3 ⊢
  obtain ⟨m1, m2, m3, m4⟩ := gmMonth_spec y 11 1 r (by omega) (by omega)
    (by rw [daysBeforeMonth_one]; omega)
  generalize gmMonth 11 y 1 r = q at m1 m2 m3 m4
  obtain ⟨m, d⟩ := q
  simp only at m1 m2 m3 m4 ⊢
  rw [daysInMonth_eq y m m1 m2] at m3
  have e0 : daysBeforeYear 1970 = 719162 := by decide +kernel
  rw [daysBeforeMonth_one] at m4
  have := ordinal_inj (y := y) (m := m) (d := d + 1) ⟨by omega, m1, m2, by omega, by omega⟩ a2
    (by rw [a4]; unfold toOrdinal; omega)
  obtain ⟨e1, e2, e3⟩ := this
  rw [e1, e2, e3]

/-! ### Digits -/

theorem digit_spec (n : Nat) : digit n = UInt8.ofNat (48 + n % 10) ∧ Py.isDigit (digit n) = true ∧
    (digit n).toNat - 48 = n % 10 ∧ isWordChar (digit n) = true ∧ digit n ≠ 32 ∧ Py.isSpace (digit n) = false := by
  have : ∀ k : Fin 10, b!"0123456789".getD k.val 0 = UInt8.ofNat (48 + k.val) ∧
      Py.isDigit (b!"0123456789".getD k.val 0) = true ∧ (b!"0123456789".getD k.val 0).toNat - 48 = k.val ∧
      isWordChar (b!"0123456789".getD k.val 0) = true ∧ b!"0123456789".getD k.val 0 ≠ 32 ∧
      Py.isSpace (b!"0123456789".getD k.val 0) = false := by decide +kernel
  exact this ⟨n % 10, Nat.mod_lt _ (by omega)⟩

theorem fmt02_eq (n : Nat) : fmt02 n = two n := by
  unfold fmt02 two
  rw [(digit_spec n).1, (digit_spec (n / 10)).1]

theorem fmt04_eq (n : Nat) : fmt04 n = four n := by
  unfold fmt04
  rw [fmt02_eq, fmt02_eq]
  unfold two four
  have h1 : n / 100 / 10 = n / 1000 := by omega
  have e : ∀ a b, a % 10 = b % 10 → digit a = digit b := by intro a b h; unfold digit; rw [h]
  rw [h1, e (n % 100 / 10) (n / 10) (by omega), e (n % 100) n (by omega)]
  rfl

theorem strip_digits {s : Bytes} (h : ∀ c ∈ s, Py.isSpace c = false) : Py.strip s = s := by
  have dw : ∀ l : Bytes, (∀ c ∈ l, Py.isSpace c = false) → l.dropWhile Py.isSpace = l := by
    intro l hl
    cases l with
    | nil => rfl
    | cons x t => rw [List.dropWhile_cons_of_neg (by rw [hl x (by simp)]; simp)]
  unfold Py.strip Py.stripBy
  rw [dw s h, dw s.reverse (by simpa using h), List.reverse_reverse]

theorem groupInt_two (n : Nat) (h : n < 100) : groupInt (two n) = n := by
  unfold groupInt
  rw [strip_digits (by simp [two, (digit_spec _).2.2.2.2.2])]
  simp only [two, Py.digitsVal, List.foldl_cons, List.foldl_nil, (digit_spec _).2.2.1]
  omega

theorem groupInt_four (n : Nat) (h : n < 10000) : groupInt (four n) = n := by
  unfold groupInt
  rw [strip_digits (by simp [four, (digit_spec _).2.2.2.2.2])]
  simp only [four, Py.digitsVal, List.foldl_cons, List.foldl_nil, (digit_spec _).2.2.1]
  omega

theorem groupInt_space (n : Nat) (h : n < 10) : groupInt [32, digit n] = n := by
  have h1 := digit_spec n
  have hs : Py.isSpace 32 = true := by decide
  have : Py.strip [32, digit n] = [digit n] := by
    unfold Py.strip Py.stripBy
    simp [hs, h1.2.2.2.2.2]
  unfold groupInt
  rw [this]
  simp only [Py.digitsVal, List.foldl_cons, List.foldl_nil, h1.2.2.1]
  omega

/-! ### Matching -/

theorem takeN_append {p : UInt8 → Bool} {n : Nat} {a b : Bytes} (hl : a.length = n) (hp : a.all p = true) :
    takeN p n (a ++ b) = some (a, b) := by
  unfold takeN
  subst hl
  rw [List.take_left, List.drop_left, if_pos ⟨by simp, hp⟩]

theorem takeLit_append (l s : Bytes) : takeLit l (l ++ s) = some s := by
  unfold takeLit Py.startsWith
  rw [if_pos (by simp), List.drop_left]

theorem two_ok (n : Nat) : (two n).length = 2 ∧ (two n).all Py.isDigit = true := by
  simp [two, (digit_spec _).2.1]

theorem four_ok (n : Nat) : (four n).length = 4 ∧ (four n).all Py.isDigit = true := by
  simp [four, (digit_spec _).2.1]

theorem matchTime_clock (s : Nat) (r : Bytes) : matchTime (clock s ++ r) =
    some ((two (s / 3600), two (s / 60 % 60), two (s % 60)), r) := by
  unfold matchTime clock
  simp only [List.append_assoc, takeN_append (two_ok _).1 (two_ok _).2, takeLit_append, Option.bind_some]

theorem monthName_ok (m : Nat) (h1 : 1 ≤ m) (h2 : m ≤ 12) :
    (monthNames.getD (m - 1) []).length = 3 ∧ (monthNames.getD (m - 1) []).all isWordChar = true ∧
    monthNumber (Py.lower (monthNames.getD (m - 1) [])) = some m := by
  rcases month_cases h1 h2 with rfl | rfl | rfl | rfl | rfl | rfl | rfl | rfl | rfl | rfl | rfl | rfl <;>
    decide +kernel

theorem dayName_ok (w : Nat) (h : w < 7) :
    ((dayNames.getD w []).take 3).length = 3 ∧ ((dayNames.getD w []).take 3).all isWordChar = true ∧
    6 ≤ (dayNames.getD w []).length ∧ (dayNames.getD w []).length ≤ 9 ∧
    (dayNames.getD w []).all isWordChar = true ∧ fmtDays.getD w [] = (dayNames.getD w []).take 3 := by
  have : ∀ w : Fin 7, ((dayNames.getD w.val []).take 3).length = 3 ∧
      ((dayNames.getD w.val []).take 3).all isWordChar = true ∧
      6 ≤ (dayNames.getD w.val []).length ∧ (dayNames.getD w.val []).length ≤ 9 ∧
      (dayNames.getD w.val []).all isWordChar = true ∧
      fmtDays.getD w.val [] = (dayNames.getD w.val []).take 3 := by decide +kernel
  exact this ⟨w, h⟩

theorem match_imf (d : Day) (s : Nat) (hw : d.wday < 7) (h1 : 1 ≤ d.month) (h2 : d.month ≤ 12) :
    matchDate (imfFixdate d s) = some ⟨four d.year, d.monthName, two d.day, two (s / 3600),
      two (s / 60 % 60), two (s % 60)⟩ := by
  obtain ⟨w1, w2, _⟩ := dayName_ok d.wday hw
  obtain ⟨m1, m2, _⟩ := monthName_ok d.month h1 h2
  have e := takeLit_append b!" GMT" []
  rw [List.append_nil] at e
  unfold matchDate matchRfc1123 imfFixdate
  simp only [Day.dayName, Day.monthName, takeN_append w1 w2, takeN_append m1 m2,
    takeN_append (two_ok _).1 (two_ok _).2, takeN_append (four_ok _).1 (four_ok _).2, takeLit_append,
    Option.bind_some, matchTime_clock, e]
  rfl

/-- A text whose first four characters are word characters is not in the first or third form. -/
theorem no_1123_long {s : Bytes} (h : 4 ≤ (s.takeWhile isWordChar).length) : matchRfc1123 s = none := by
  unfold matchRfc1123
  by_cases h3 : 3 ≤ s.length ∧ (s.take 3).all isWordChar = true
  · have ht : takeN isWordChar 3 s = some (s.take 3, s.drop 3) := by unfold takeN; rw [if_pos h3]
    rw [ht, Option.bind_some]
    have : takeLit b!", " (s.drop 3) = none := by
      unfold takeLit
      rw [if_neg]
      intro hs
      have hp := List.takeWhile_prefix isWordChar (l := s)
      obtain ⟨r, hr⟩ := hp
      have hall := List.all_takeWhile (p := isWordChar) (l := s)
      generalize s.takeWhile isWordChar = w at h hr hall
      subst hr
      match w, h with
      | a :: b :: c :: x :: t, _ =>
        simp only [List.all_cons, Bool.and_eq_true] at hall
        simp [Py.startsWith, List.isPrefixOf] at hs
        rw [← hs.1] at hall
        exact absurd hall.2.2.2.1 (by decide)
    simp only [this]
    rfl
  · have ht : takeN isWordChar 3 s = none := by unfold takeN; rw [if_neg h3]
    rw [ht]; rfl

theorem takeWhile_word {a b : Bytes} (ha : a.all isWordChar = true)
    (hb : ∀ c, b.head? = some c → isWordChar c = false) : (a ++ b).takeWhile isWordChar = a := by
  rw [List.takeWhile_append_of_pos (by simpa using ha)]
  cases b with
  | nil => simp
  | cons x t => rw [List.takeWhile_cons_of_neg (by rw [hb x rfl]; simp)]; simp

theorem match_850 (d : Day) (s : Nat) (hw : d.wday < 7) (h1 : 1 ≤ d.month) (h2 : d.month ≤ 12) :
    matchDate (rfc850 d s) = some ⟨two d.year, d.monthName, two d.day, two (s / 3600),
      two (s / 60 % 60), two (s % 60)⟩ := by
  obtain ⟨_, _, w3, w4, w5, _⟩ := dayName_ok d.wday hw
  obtain ⟨m1, m2, _⟩ := monthName_ok d.month h1 h2
  have e := takeLit_append b!" GMT" []
  rw [List.append_nil] at e
  have tw : (rfc850 d s).takeWhile isWordChar = d.dayName := by
    unfold rfc850
    apply takeWhile_word w5
    intro c hc
    simp only [List.cons_append, List.head?_cons, Option.some.injEq] at hc
    subst hc; decide
  unfold matchDate
  rw [no_1123_long (by rw [tw]; unfold Day.dayName; omega)]
  rw [Option.none_or]
  unfold matchRfc850
  simp only [tw]
  rw [if_pos ⟨w3, w4⟩]
  unfold rfc850
  rw [List.drop_left]
  simp only [Day.monthName, takeN_append m1 m2,
    takeN_append (two_ok _).1 (two_ok _).2, takeLit_append,
    Option.bind_some, matchTime_clock, e]
  rfl

theorem match_asctime (d : Day) (s : Nat) (hw : d.wday < 7) (h1 : 1 ≤ d.month) (h2 : d.month ≤ 12)
    (hd : d.day < 100) :
    matchDate (asctime d s) = some ⟨four d.year, d.monthName,
      if d.day < 10 then [32, digit d.day] else two d.day, two (s / 3600),
      two (s / 60 % 60), two (s % 60)⟩ := by
  obtain ⟨w1, w2, _⟩ := dayName_ok d.wday hw
  obtain ⟨m1, m2, _⟩ := monthName_ok d.month h1 h2
  have n1 : matchRfc1123 (asctime d s) = none := by
    unfold matchRfc1123 asctime
    simp only [Day.dayName, takeN_append w1 w2, Option.bind_some]
    rfl
  have n2 : matchRfc850 (asctime d s) = none := by
    have tw : (asctime d s).takeWhile isWordChar = d.dayName.take 3 := by
      unfold asctime
      apply takeWhile_word w2
      intro c hc
      simp only [List.cons_append, List.head?_cons, Option.some.injEq] at hc
      subst hc; decide
    unfold matchRfc850
    simp only [tw]
    rw [if_neg (by unfold Day.dayName; omega)]
  unfold matchDate
  rw [n1, n2, Option.none_or, Option.none_or]
  have e := takeN_append (p := Py.isDigit) (b := []) (four_ok d.year).1 (four_ok d.year).2
  rw [List.append_nil] at e
  have hday : ∀ r : Bytes, ∃ x y, (if d.day < 10 then [32, digit d.day] else two d.day) ++ r =
      [x] ++ ([y] ++ r) ∧ [x, y] = (if d.day < 10 then [32, digit d.day] else two d.day) ∧
      (decide (x = 32) || Py.isDigit x) = true ∧ Py.isDigit y = true := by
    intro r
    split
    · exact ⟨32, digit d.day, rfl, rfl, rfl, (digit_spec _).2.1⟩
    · exact ⟨digit (d.day / 10), digit d.day, rfl, rfl, by simp [(digit_spec _).2.1], (digit_spec _).2.1⟩
  unfold matchAsctime asctime
  simp only [Day.dayName, Day.monthName, takeN_append w1 w2, takeN_append m1 m2, takeLit_append,
    Option.bind_some]
  obtain ⟨x, y, e1, e2, e3, e4⟩ := hday (b!" " ++ (clock s ++ (b!" " ++ four d.year)))
  rw [e1]
  have t1 := takeN_append (p := fun c => decide (c = 32) || Py.isDigit c) (n := 1) (a := [x])
    (b := [y] ++ (b!" " ++ (clock s ++ (b!" " ++ four d.year)))) rfl (by simpa using e3)
  have t2 := takeN_append (p := Py.isDigit) (n := 1) (a := [y])
    (b := b!" " ++ (clock s ++ (b!" " ++ four d.year))) rfl (by simpa using e4)
  simp only [t1, t2, takeLit_append, Option.bind_some, matchTime_clock, e]
  rw [← e2]
  rfl

/-! ### The theorems -/

theorem timegm_dayOf (n s : Nat) (hs : s < 86400) :
    timegm (dayOf n).year (dayOf n).month (dayOf n).day (s / 3600) (s / 60 % 60) (s % 60) =
      (n * 86400 + s : Nat) := by
  obtain ⟨_, ⟨_, _, _, h4, _⟩, _, h7⟩ := dayOf_real n
  unfold timegm
  unfold toOrdinal at h7 ⊢
  omega

theorem parse_of_match {text : Bytes} {n s : Nat} {y : Bytes} {dd : Bytes} (hs : s < 86400)
    (hy : (dayOf n).year ≤ 9999)
    (hm : matchDate text = some ⟨y, (dayOf n).monthName, dd, two (s / 3600), two (s / 60 % 60), two (s % 60)⟩)
    (h1 : fullYear (groupInt y) = (dayOf n).year) (h2 : groupInt dd = (dayOf n).day) :
    parseHttpDate text = .ok (n * 86400 + s : Nat) := by
  obtain ⟨a0, ⟨a1, a2, a3, a4, a5⟩, _, _⟩ := dayOf_real n
  unfold parseHttpDate
  rw [hm]
  simp only
  have : monthNumber (Py.lower (dayOf n).monthName) = some (dayOf n).month := (monthName_ok _ a2 a3).2.2
  rw [this]
  simp only
  rw [h1, h2, groupInt_two _ (by omega), groupInt_two _ (by omega), groupInt_two _ (by omega)]
  rw [if_pos]
  · rw [timegm_dayOf n s hs]
  · unfold validDateTime
    rw [decide_eq_true_eq, daysInMonth_eq _ _ a2 a3]
    exact ⟨a1, hy, a2, a3, a4, a5, by omega, by omega, by omega⟩

/-- **C61**: `http_date` writes the date reached by counting days from 1 January 1970. -/
theorem C61_format (n s : Nat) (hs : s < 86400) :
    httpDate (n * 86400 + s) = imfFixdate (dayOf n) s := by
  obtain ⟨_, _, hw, _⟩ := dayOf_real n
  have e1 : (n * 86400 + s) / 86400 = n := by omega
  have e2 : (n * 86400 + s) % 86400 = s := by omega
  unfold httpDate imfFixdate clock Day.dayName Day.monthName
  simp only [e1, e2, gmDate_eq, fmt02_eq, fmt04_eq]
  rw [(dayName_ok ((n + 3) % 7) (by omega)).2.2.2.2.2, hw]
  simp only [List.append_assoc]
  rfl

theorem month_day_lt (n : Nat) : (dayOf n).day < 100 := by
  obtain ⟨_, ⟨_, _, _, _, h⟩, _⟩ := dayOf_real n
  have : monthLen (dayOf n).year (dayOf n).month ≤ 31 := by
    unfold monthLen; split <;> (try split) <;> omega
  omega

/-- **C61**: reading what `http_date` wrote gives back the number, for every second of the years 1970
to 9999. -/
theorem C61_roundtrip (t : Nat) (hy : (dayOf (t / 86400)).year ≤ 9999) :
    parseHttpDate (httpDate t) = .ok t := by
  have e : t = t / 86400 * 86400 + t % 86400 := by omega
  obtain ⟨a0, ⟨a1, a2, a3, a4, a5⟩, hw, _⟩ := dayOf_real (t / 86400)
  have hs : t % 86400 < 86400 := by omega
  rw [show httpDate t = httpDate (t / 86400 * 86400 + t % 86400) by rw [← e], C61_format _ _ hs,
    parse_of_match hs hy (match_imf _ _ (by omega) a2 a3) ?_ (groupInt_two _ (month_day_lt _)), ← e]
  rw [groupInt_four _ (by omega)]
  unfold fullYear
  rw [if_neg (by omega)]

/-- **C61**, RFC 850 form, years 1970 to 2069 (two digits). -/
theorem C61_rfc850 (n s : Nat) (hs : s < 86400) (hy : (dayOf n).year ≤ 2069) :
    parseHttpDate (rfc850 (dayOf n) s) = .ok (n * 86400 + s : Nat) := by
  obtain ⟨a0, ⟨a1, a2, a3, a4, a5⟩, hw, _⟩ := dayOf_real n
  refine parse_of_match hs (by omega) (match_850 _ _ (by omega) a2 a3) ?_ (groupInt_two _ (month_day_lt _))
  have : two (dayOf n).year = two ((dayOf n).year % 100) := by
    have e : ∀ a b, a % 10 = b % 10 → digit a = digit b := by intro a b h; unfold digit; rw [h]
    unfold two
    rw [e _ ((dayOf n).year % 100 / 10) (by omega), e (dayOf n).year ((dayOf n).year % 100) (by omega)]
  rw [this, groupInt_two _ (by omega)]
  unfold fullYear
  split <;> (try split) <;> omega

/-- **C61**, `asctime` form. -/
theorem C61_asctime (n s : Nat) (hs : s < 86400) (hy : (dayOf n).year ≤ 9999) :
    parseHttpDate (asctime (dayOf n) s) = .ok (n * 86400 + s : Nat) := by
  obtain ⟨a0, ⟨a1, a2, a3, a4, a5⟩, hw, _⟩ := dayOf_real n
  refine parse_of_match hs hy (match_asctime _ _ (by omega) a2 a3 (month_day_lt n)) ?_ ?_
  · rw [groupInt_four _ (by omega)]
    unfold fullYear
    rw [if_neg (by omega)]
  · split
    · exact groupInt_space _ ‹_›
    · exact groupInt_two _ (month_day_lt n)

/-- Every real date from 1970 on is reached. -/
theorem dayOf_reaches {y m d : Nat} (h : RealDate y m d) (hy : 1970 ≤ y) :
    (dayOf (toOrdinal y m d - 719163)).year = y ∧ (dayOf (toOrdinal y m d - 719163)).month = m ∧
      (dayOf (toOrdinal y m d - 719163)).day = d ∧ 719163 ≤ toOrdinal y m d := by
  have e0 : daysBeforeYear 1970 = 719162 := by decide +kernel
  have hle : daysBeforeYear 1970 ≤ daysBeforeYear y := by
    by_cases he : y = 1970
    · rw [he]
    · have := daysBeforeYear_mono (y := 1970) (by omega) (show 1970 < y by omega)
      omega
  have h719 : 719163 ≤ toOrdinal y m d := by
    have := h.2.2.2.1
    unfold toOrdinal; omega
  obtain ⟨_, a2, _, a4⟩ := dayOf_real (toOrdinal y m d - 719163)
  obtain ⟨h1, h2, h3⟩ := ordinal_inj a2 h (by rw [a4]; omega)
  exact ⟨h1, h2, h3, h719⟩

/-- Only real dates are accepted: the result is the number of seconds of a date of the calendar (of a
negative number before 1970). -/
theorem C61_sound (text : Bytes) (t : Int) (h : parseHttpDate text = .ok t) :
    ∃ y m d h mi s : Nat, RealDate y m d ∧ y ≤ 9999 ∧ h < 24 ∧ mi < 60 ∧ s < 60 ∧
      (1970 ≤ y → ∃ n, (dayOf n).year = y ∧ (dayOf n).month = m ∧ (dayOf n).day = d ∧
        t = n * 86400 + h * 3600 + mi * 60 + s) ∧
      (y < 1970 → t < 0) := by
  unfold parseHttpDate at h
  split at h
  · cases h
  · rename_i g _
    split at h
    · cases h
    · rename_i mo _
      simp only at h
      split at h
      · rename_i hv
        cases h
        simp only [validDateTime, decide_eq_true_eq] at hv
        obtain ⟨v1, v2, v3, v4, v5, v6, v7, v8, v9⟩ := hv
        rw [daysInMonth_eq _ _ v3 v4] at v6
        generalize fullYear (groupInt g.year) = y at *
        generalize groupInt g.day = d at *
        generalize groupInt g.hour = h at *
        generalize groupInt g.min = mi at *
        generalize groupInt g.sec = c at *
        have real : RealDate y mo d := ⟨v1, v3, v4, v5, v6⟩
        refine ⟨y, mo, d, h, mi, c, real, v2, v7, v8, v9, fun hy => ?_, fun hy => ?_⟩
        · obtain ⟨h1, h2, h3, h4⟩ := dayOf_reaches real hy
          refine ⟨_, h1, h2, h3, ?_⟩
          unfold timegm
          unfold toOrdinal at h4 ⊢
          omega
        · have l := monthDay_le real
          have e0 : daysBeforeYear 1970 = 719162 := by decide +kernel
          have := daysBeforeYear_mono v1 hy
          unfold timegm toOrdinal
          omega
      · cases h

/-- **C72** is false of the code: a date that is well formed but does not exist raises `TypeError`. -/
theorem C72_refuted : parseHttpDate b!"Mon, 30 Feb 2026 00:00:00 GMT" = .error .typeError := by rfl

/-- **C72**, what can happen: `ValueError` exactly if the text has none of the three forms, `TypeError` if
it has one but names no real date; `parse_http_date_safe` returns `None` in both cases. -/
theorem C72_partial (s : Bytes) :
    ((∃ t, parseHttpDate s = .ok t ∧ parseHttpDateSafe s = some t) ∨
      (parseHttpDate s = .error .valueError ∧ parseHttpDateSafe s = none) ∨
      (parseHttpDate s = .error .typeError ∧ parseHttpDateSafe s = none)) ∧
    (parseHttpDate s = .error .valueError ↔ matchDate s = none) := by
  unfold parseHttpDateSafe parseHttpDate
  split
  · rename_i h
    exact ⟨.inr (.inl ⟨rfl, rfl⟩), by simp [h]⟩
  · rename_i g h
    split
    · exact ⟨.inr (.inr ⟨rfl, rfl⟩), by simp [h]⟩
    · simp only
      split
      · exact ⟨.inl ⟨_, rfl, rfl⟩, by simp [h]⟩
      · exact ⟨.inr (.inr ⟨rfl, rfl⟩), by simp [h]⟩

example : imfFixdate ⟨1994, 11, 6, 6⟩ 31777 = b!"Sun, 06 Nov 1994 08:49:37 GMT" ∧
    rfc850 ⟨1994, 11, 6, 6⟩ 31777 = b!"Sunday, 06-Nov-94 08:49:37 GMT" ∧
    asctime ⟨1994, 11, 6, 6⟩ 31777 = b!"Sun Nov  6 08:49:37 1994" ∧
    dayOf 60 = ⟨1970, 3, 2, 0⟩ ∧
    (parseHttpDate b!"Sun Nov  6 08:49:37 1994").toOption = some 784111777 := by decide +kernel

end Verif
