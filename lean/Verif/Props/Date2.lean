import Verif.Props.Date
/-!
# Exactly which texts are HTTP dates (C61, C72)
-/

namespace Verif
open Spec

theorem takeN_some {p : UInt8 → Bool} {n : Nat} {s a b : Bytes} :
    takeN p n s = some (a, b) ↔ s = a ++ b ∧ a.length = n ∧ a.all p = true := by
  constructor
  · intro h
    unfold takeN at h
    split at h
    · rename_i hc
      simp only [Option.some.injEq, Prod.mk.injEq] at h
      obtain ⟨rfl, rfl⟩ := h
      exact ⟨(List.take_append_drop n s).symm, by simp; omega, hc.2⟩
    · cases h
  · rintro ⟨rfl, h1, h2⟩
    exact takeN_append h1 h2

theorem takeLit_some {l s b : Bytes} : takeLit l s = some b ↔ s = l ++ b := by
  constructor
  · intro h
    unfold takeLit Py.startsWith at h
    split at h
    · rename_i hc
      obtain ⟨t, rfl⟩ := List.isPrefixOf_iff_prefix.1 hc
      simp only [List.drop_left, Option.some.injEq] at h
      rw [h]
    · cases h
  · rintro rfl
    exact takeLit_append l b

theorem isDigit_digit {c : UInt8} (h : Py.isDigit c = true) : c = digit (c.toNat - 48) ∧ c.toNat - 48 < 10 := by
  have := forall_u8 (fun c => !Py.isDigit c || (c == digit (c.toNat - 48) && decide (c.toNat - 48 < 10)))
    (by decide +kernel) c
  simpa [h] using this

theorem digit_congr {a b : Nat} (h : a % 10 = b % 10) : digit a = digit b := by unfold digit; rw [h]

theorem two_of {a : Bytes} (hl : a.length = 2) (hd : a.all Py.isDigit = true) : ∃ n, n < 100 ∧ a = two n := by
  match a, hl with
  | [x, y], _ =>
    simp only [List.all_cons, List.all_nil, Bool.and_true, Bool.and_eq_true] at hd
    obtain ⟨e1, l1⟩ := isDigit_digit hd.1
    obtain ⟨e2, l2⟩ := isDigit_digit hd.2
    generalize x.toNat - 48 = i at e1 l1
    generalize y.toNat - 48 = j at e2 l2
    subst e1 e2
    refine ⟨i * 10 + j, by omega, ?_⟩
    unfold two
    rw [digit_congr (show (i * 10 + j) / 10 % 10 = i % 10 by omega), digit_congr (show (i * 10 + j) % 10 = j % 10 by omega)]

theorem four_of {a : Bytes} (hl : a.length = 4) (hd : a.all Py.isDigit = true) : ∃ n, n < 10000 ∧ a = four n := by
  match a, hl with
  | [x, y, z, w], _ =>
    simp only [List.all_cons, List.all_nil, Bool.and_true, Bool.and_eq_true] at hd
    obtain ⟨e1, l1⟩ := isDigit_digit hd.1
    obtain ⟨e2, l2⟩ := isDigit_digit hd.2.1
    obtain ⟨e3, l3⟩ := isDigit_digit hd.2.2.1
    obtain ⟨e4, l4⟩ := isDigit_digit hd.2.2.2
    generalize x.toNat - 48 = i at e1 l1
    generalize y.toNat - 48 = j at e2 l2
    generalize z.toNat - 48 = k at e3 l3
    generalize w.toNat - 48 = l at e4 l4
    subst e1 e2 e3 e4
    refine ⟨i * 1000 + j * 100 + k * 10 + l, by omega, ?_⟩
    unfold four
    rw [digit_congr (show (i * 1000 + j * 100 + k * 10 + l) / 1000 % 10 = i % 10 by omega),
      digit_congr (show (i * 1000 + j * 100 + k * 10 + l) / 100 % 10 = j % 10 by omega),
      digit_congr (show (i * 1000 + j * 100 + k * 10 + l) / 10 % 10 = k % 10 by omega),
      digit_congr (show (i * 1000 + j * 100 + k * 10 + l) % 10 = l % 10 by omega)]

theorem isWordChar_iff (c : UInt8) : isWordChar c = true ↔
    (65 ≤ c ∧ c ≤ 90) ∨ (97 ≤ c ∧ c ≤ 122) ∨ (48 ≤ c ∧ c ≤ 57) ∨ c = 95 := by
  simp only [isWordChar, Bool.or_eq_true, Bool.and_eq_true, decide_eq_true_eq]
  tauto

theorem word_iff (n : Nat) (w : Bytes) : DateWord n w ↔ w.length = n ∧ w.all isWordChar = true := by
  unfold DateWord
  rw [List.all_eq_true]
  simp only [isWordChar_iff]

theorem matchTime_some {s r h mi c : Bytes} : matchTime s = some ((h, mi, c), r) ↔
    s = h ++ (b!":" ++ (mi ++ (b!":" ++ (c ++ r)))) ∧ (h.length = 2 ∧ h.all Py.isDigit = true) ∧
      (mi.length = 2 ∧ mi.all Py.isDigit = true) ∧ (c.length = 2 ∧ c.all Py.isDigit = true) := by
  constructor
  · intro hm
    unfold matchTime at hm
    simp only [Option.bind_eq_some_iff, Prod.exists, takeN_some, takeLit_some] at hm
    obtain ⟨a, s1, ⟨rfl, a1⟩, s2, rfl, b, s3, ⟨rfl, b1⟩, s4, rfl, d, s5, ⟨rfl, d1⟩, e⟩ := hm
    simp only [Option.some.injEq, Prod.mk.injEq] at e
    obtain ⟨⟨rfl, rfl, rfl⟩, rfl⟩ := e
    exact ⟨rfl, a1, b1, d1⟩
  · rintro ⟨rfl, h1, h2, h3⟩
    unfold matchTime
    simp only [takeN_append h1.1 h1.2, takeN_append h2.1 h2.2, takeN_append h3.1 h3.2, takeLit_append,
      Option.bind_some]

theorem atEnd_iff (e : Bytes) : atEnd e = true ↔ TextEnd e := by
  unfold atEnd TextEnd
  simp only [Bool.or_eq_true, decide_eq_true_eq]

/-- What the groups say. -/
def GroupsAre (g : DateText) (y : Nat) (mon : Bytes) (d h mi s : Nat) : Prop :=
  g.mon = mon ∧ groupInt g.year = y ∧ groupInt g.day = d ∧ groupInt g.hour = h ∧ groupInt g.min = mi ∧ groupInt g.sec = s

theorem rfc1123_sound {s : Bytes} {g : DateText} (hm : matchRfc1123 s = some g) :
    s[3]? = some 44 ∧ ∃ y d h mi c, DateForm s y g.mon d h mi c ∧ GroupsAre g y g.mon d h mi c := by
  unfold matchRfc1123 at hm
  simp only [Option.bind_eq_some_iff, Prod.exists, takeN_some, takeLit_some, matchTime_some] at hm
  obtain ⟨w, s1, ⟨rfl, w1⟩, s2, rfl, d, s3, ⟨rfl, d1⟩, s4, rfl, mo, s5, ⟨rfl, m1⟩, s6, rfl, y, s7, ⟨rfl, y1⟩,
    s8, rfl, th, tm, tc, s9, ⟨rfl, t1, t2, t3⟩, e, rfl, he⟩ := hm
  split at he
  · rename_i hend
    cases he
    obtain ⟨d, dl, rfl⟩ := two_of d1.1 d1.2
    obtain ⟨y, yl, rfl⟩ := four_of y1.1 y1.2
    obtain ⟨th, hl, rfl⟩ := two_of t1.1 t1.2
    obtain ⟨tm, ml, rfl⟩ := two_of t2.1 t2.2
    obtain ⟨tc, cl, rfl⟩ := two_of t3.1 t3.2
    refine ⟨?_, y, d, th, tm, tc, ?_, rfl, groupInt_four y yl, groupInt_two d dl, groupInt_two th hl, groupInt_two tm ml,
      groupInt_two tc cl⟩
    · rw [List.getElem?_append_right (by omega), w1.1]; rfl
    · have := DateForm.imf ((word_iff 3 w).2 w1) ((word_iff 3 mo).2 m1) yl ((atEnd_iff e).1 hend) ⟨dl, hl, ml, cl⟩
      simpa only [time, List.append_assoc] using this
  · cases he

theorem drop_takeWhile_length : ∀ s : Bytes, s.drop (s.takeWhile isWordChar).length = s.dropWhile isWordChar
  | [] => rfl
  | c :: t => by
    by_cases h : isWordChar c = true
    · simp only [List.takeWhile_cons_of_pos h, List.dropWhile_cons_of_pos h, List.length_cons, List.drop_succ_cons,
        drop_takeWhile_length t]
    · simp [List.takeWhile_cons_of_neg h, List.dropWhile_cons_of_neg h]

theorem rfc850_sound {s : Bytes} {g : DateText} (hm : matchRfc850 s = some g) :
    (∃ c, s[3]? = some c ∧ isWordChar c = true) ∧
      ∃ y d h mi c, DateForm s y g.mon d h mi c ∧ GroupsAre g y g.mon d h mi c := by
  unfold matchRfc850 at hm
  simp only at hm
  split at hm
  · rename_i hw
    have hsplit : s = s.takeWhile isWordChar ++ s.drop (s.takeWhile isWordChar).length := by
      have e := List.takeWhile_append_dropWhile (p := isWordChar) (l := s)
      have e2 : s.drop (s.takeWhile isWordChar).length = s.dropWhile isWordChar := by
        exact drop_takeWhile_length s
      rw [e2, e]
    have hall : (s.takeWhile isWordChar).all isWordChar = true := List.all_takeWhile
    generalize s.takeWhile isWordChar = w at *
    generalize s.drop w.length = s0 at *
    subst hsplit
    simp only [Option.bind_eq_some_iff, Prod.exists, takeN_some, takeLit_some, matchTime_some] at hm
    obtain ⟨s2, rfl, d, s3, ⟨rfl, d1⟩, s4, rfl, mo, s5, ⟨rfl, m1⟩, s6, rfl, y, s7, ⟨rfl, y1⟩,
      s8, rfl, th, tm, tc, s9, ⟨rfl, t1, t2, t3⟩, e, rfl, he⟩ := hm
    split at he
    · rename_i hend
      cases he
      obtain ⟨d, dl, rfl⟩ := two_of d1.1 d1.2
      obtain ⟨y, yl, rfl⟩ := two_of y1.1 y1.2
      obtain ⟨th, hl, rfl⟩ := two_of t1.1 t1.2
      obtain ⟨tm, ml, rfl⟩ := two_of t2.1 t2.2
      obtain ⟨tc, cl, rfl⟩ := two_of t3.1 t3.2
      refine ⟨?_, y, d, th, tm, tc, ?_, rfl, groupInt_two y yl, groupInt_two d dl, groupInt_two th hl, groupInt_two tm ml,
        groupInt_two tc cl⟩
      · rw [List.getElem?_append_left (by omega)]
        refine ⟨w[3]'(by omega), List.getElem?_eq_getElem _, List.all_eq_true.1 hall _ (List.getElem_mem _)⟩
      · have := DateForm.rfc850 hw.1 hw.2 ((word_iff _ w).2 ⟨rfl, hall⟩) ((word_iff 3 mo).2 m1) yl ((atEnd_iff e).1 hend) ⟨dl, hl, ml, cl⟩
        simpa only [time, List.append_assoc] using this
    · cases he
  · cases hm

theorem asctime_sound {s : Bytes} {g : DateText} (hm : matchAsctime s = some g) :
    s[3]? = some 32 ∧ ∃ y d h mi c, DateForm s y g.mon d h mi c ∧ GroupsAre g y g.mon d h mi c := by
  unfold matchAsctime at hm
  simp only [Option.bind_eq_some_iff, Prod.exists, takeN_some, takeLit_some, matchTime_some] at hm
  obtain ⟨w, s1, ⟨rfl, w1⟩, s2, rfl, mo, s5, ⟨rfl, m1⟩, s6, rfl, d, s3, ⟨rfl, d1⟩, d', s4, ⟨rfl, d2⟩, s7, rfl,
    th, tm, tc, s9, ⟨rfl, t1, t2, t3⟩, s8, rfl, y, e, ⟨rfl, y1⟩, he⟩ := hm
  split at he
  · rename_i hend
    cases he
    obtain ⟨y, yl, rfl⟩ := four_of y1.1 y1.2
    obtain ⟨th, hl, rfl⟩ := two_of t1.1 t1.2
    obtain ⟨tm, ml, rfl⟩ := two_of t2.1 t2.2
    obtain ⟨tc, cl, rfl⟩ := two_of t3.1 t3.2
    have hd : ∃ n, n < 100 ∧ (d ++ d' = two n ∨ n < 10 ∧ d ++ d' = [32, digit n]) ∧ groupInt (d ++ d') = n := by
      match d, d', d1, d2 with
      | [x], [x'], d1, d2 =>
        by_cases hx : x = 32
        · subst hx
          have := isDigit_digit (c := x') (by simpa using d2.2)
          refine ⟨x'.toNat - 48, by omega, .inr ⟨this.2, by rw [← this.1]; rfl⟩, ?_⟩
          have e := groupInt_space _ this.2
          rw [← this.1] at e
          exact e
        · obtain ⟨n, hn, e⟩ := two_of (a := [x, x']) rfl (by
            have a1 := d1.2; have a2 := d2.2
            simp only [List.all_cons, List.all_nil, Bool.and_true, Bool.or_eq_true, decide_eq_true_eq, Bool.and_eq_true] at a1 a2 ⊢
            exact ⟨a1.resolve_left hx, a2⟩)
          exact ⟨n, hn, .inl e, by rw [show [x] ++ [x'] = [x, x'] from rfl, e, groupInt_two n hn]⟩
    obtain ⟨n, hn, hdd, hg⟩ := hd
    refine ⟨?_, y, n, th, tm, tc, ?_, rfl, groupInt_four y yl, hg, groupInt_two th hl, groupInt_two tm ml,
      groupInt_two tc cl⟩
    · rw [List.getElem?_append_right (by omega), w1.1]; rfl
    · have := DateForm.asctime ((word_iff 3 w).2 w1) ((word_iff 3 mo).2 m1) hdd yl ((atEnd_iff e).1 hend) ⟨hn, hl, ml, cl⟩
      simpa only [time, List.append_assoc] using this
  · cases he

theorem matchDate_sound {s : Bytes} {g : DateText} (hm : matchDate s = some g) :
    ∃ y d h mi c, DateForm s y g.mon d h mi c ∧ GroupsAre g y g.mon d h mi c := by
  unfold matchDate at hm
  simp only [Option.or_eq_some_iff] at hm
  rcases hm with h | ⟨_, h | ⟨_, h⟩⟩
  · exact (rfc1123_sound h).2
  · exact (rfc850_sound h).2
  · exact (asctime_sound h).2

theorem no_comma {s : Bytes} {c : UInt8} (h : s[3]? = some c) (hc : c ≠ 44) : matchRfc1123 s = none := by
  cases hm : matchRfc1123 s with
  | none => rfl
  | some g =>
    have := (rfc1123_sound hm).1
    rw [h] at this
    exact absurd (Option.some.inj this) hc

theorem no_word {s : Bytes} {c : UInt8} (h : s[3]? = some c) (hc : isWordChar c = false) : matchRfc850 s = none := by
  cases hm : matchRfc850 s with
  | none => rfl
  | some g =>
    obtain ⟨c', h', w⟩ := (rfc850_sound hm).1
    rw [h] at h'
    rw [Option.some.inj h', w] at hc
    cases hc

theorem matchTime_time (h mi c : Nat) (r : Bytes) : matchTime (time h mi c ++ r) = some ((two h, two mi, two c), r) := by
  rw [matchTime_some]
  simp only [time, List.append_assoc]
  exact ⟨trivial, two_ok h, two_ok mi, two_ok c⟩

theorem matchDate_complete {s : Bytes} {y d h mi c : Nat} {mon : Bytes} (hf : DateForm s y mon d h mi c) :
    ∃ g, matchDate s = some g ∧ GroupsAre g y mon d h mi c := by
  cases hf with
  | @imf w _ e _ _ _ _ _ w1 m1 hy he h2 =>
    obtain ⟨b1, b2, b3, b4⟩ := h2
    rw [word_iff] at w1 m1
    refine ⟨⟨four y, mon, two d, two h, two mi, two c⟩, ?_, rfl, groupInt_four y hy, groupInt_two d b1, groupInt_two h b2,
      groupInt_two mi b3, groupInt_two c b4⟩
    unfold matchDate
    have : matchRfc1123 (w ++ (b!", " ++ (two d ++ (b!" " ++ (mon ++ (b!" " ++ (four y ++ (b!" " ++
        (time h mi c ++ (b!" GMT" ++ e)))))))))) = some ⟨four y, mon, two d, two h, two mi, two c⟩ := by
      unfold matchRfc1123
      simp only [takeN_append w1.1 w1.2, takeN_append m1.1 m1.2, takeN_append (two_ok _).1 (two_ok _).2,
        takeN_append (four_ok _).1 (four_ok _).2, takeLit_append, Option.bind_some, matchTime_time]
      rw [if_pos ((atEnd_iff e).2 he)]
    rw [this, Option.some_or]
  | @rfc850 n w _ e _ _ _ _ _ n1 n2 w1 m1 hy he h2 =>
    obtain ⟨b1, b2, b3, b4⟩ := h2
    rw [word_iff] at w1 m1
    refine ⟨⟨two y, mon, two d, two h, two mi, two c⟩, ?_, rfl, groupInt_two y hy, groupInt_two d b1, groupInt_two h b2,
      groupInt_two mi b3, groupInt_two c b4⟩
    unfold matchDate
    have tw : (w ++ (b!", " ++ (two d ++ (b!"-" ++ (mon ++ (b!"-" ++ (two y ++ (b!" " ++
        (time h mi c ++ (b!" GMT" ++ e)))))))))).takeWhile isWordChar = w := by
      apply takeWhile_word w1.2
      intro c hc
      simp only [List.cons_append, List.head?_cons, Option.some.injEq] at hc
      subst hc; decide
    have : matchRfc850 (w ++ (b!", " ++ (two d ++ (b!"-" ++ (mon ++ (b!"-" ++ (two y ++ (b!" " ++
        (time h mi c ++ (b!" GMT" ++ e)))))))))) = some ⟨two y, mon, two d, two h, two mi, two c⟩ := by
      unfold matchRfc850
      simp only [tw]
      rw [if_pos (by omega), List.drop_left]
      simp only [takeN_append m1.1 m1.2, takeN_append (two_ok _).1 (two_ok _).2, takeLit_append, Option.bind_some,
        matchTime_time]
      rw [if_pos ((atEnd_iff e).2 he)]
    rw [this, Option.some_or, no_1123_long (by rw [tw]; omega), Option.none_or]
  | @asctime w _ dd e _ _ _ _ _ w1 m1 hd hy he h2 =>
    obtain ⟨b1, b2, b3, b4⟩ := h2
    rw [word_iff] at w1 m1
    have g3 : (w ++ (b!" " ++ (mon ++ (b!" " ++ (dd ++ (b!" " ++ (time h mi c ++ (b!" " ++ (four y ++ e)))))))))[3]? =
        some 32 := by
      rw [List.getElem?_append_right (by omega), w1.1]; rfl
    have hday : ∃ x x', dd = [x, x'] ∧ (decide (x = 32) || Py.isDigit x) = true ∧ Py.isDigit x' = true ∧ groupInt dd = d := by
      rcases hd with rfl | ⟨hd, rfl⟩
      · exact ⟨_, _, rfl, by simp [(digit_spec _).2.1], (digit_spec _).2.1, groupInt_two d b1⟩
      · exact ⟨_, _, rfl, by simp, (digit_spec _).2.1, groupInt_space d hd⟩
    obtain ⟨x, x', rfl, x1, x2, hg⟩ := hday
    refine ⟨⟨four y, mon, [x] ++ [x'], two h, two mi, two c⟩, ?_, rfl, groupInt_four y hy, hg, groupInt_two h b2,
      groupInt_two mi b3, groupInt_two c b4⟩
    unfold matchDate
    rw [no_comma g3 (by decide), no_word g3 (by decide), Option.none_or, Option.none_or]
    have t1 : ∀ r, takeN (fun c => decide (c = 32) || Py.isDigit c) 1 (x :: x' :: r) = some ([x], x' :: r) :=
      fun r => takeN_append (a := [x]) rfl (by simpa using x1)
    have t2 : ∀ r, takeN Py.isDigit 1 (x' :: r) = some ([x'], r) := fun r => takeN_append (a := [x']) rfl (by simpa using x2)
    unfold matchAsctime
    simp only [takeN_append w1.1 w1.2, takeN_append m1.1 m1.2, takeLit_append, Option.bind_some]
    rw [show ∀ r, [x, x'] ++ r = x :: x' :: r from fun _ => rfl]
    simp only [t1, t2, takeLit_append, Option.bind_some, matchTime_time, takeN_append (four_ok _).1 (four_ok _).2]
    rw [if_pos ((atEnd_iff e).2 he)]

/-! ### The calendar before 1970 -/

theorem next_real {D : Day} (h : RealDate D.year D.month D.day) : RealDate D.next.year D.next.month D.next.day ∧
    toOrdinal D.next.year D.next.month D.next.day = toOrdinal D.year D.month D.day + 1 := by
  obtain ⟨y, m, d, w⟩ := D
  simp only [RealDate] at h ⊢
  obtain ⟨h1, h2, h3, h4, h5⟩ := h
  have hm := daysInMonth_eq y m h2 h3
  have pos : ∀ m, 1 ≤ monthLen y m ∧ 1 ≤ monthLen (y + 1) m := by
    intro m; unfold monthLen; constructor <;> split <;> (try split) <;> omega
  unfold Day.next
  simp only
  unfold toOrdinal
  split
  · simp only
    exact ⟨⟨h1, h2, h3, by omega, by omega⟩, by omega⟩
  · split
    · simp only
      have := daysBeforeMonth_succ y m h2 (by omega)
      exact ⟨⟨h1, by omega, by omega, by omega, (pos _).1⟩, by omega⟩
    · simp only
      have hm12 : m = 12 := by omega
      subst hm12
      have a := daysBeforeMonth_twelve y
      have b := daysBeforeYear_succ y h1
      have c := daysBeforeMonth_one (y + 1)
      exact ⟨⟨by omega, by omega, by omega, by omega, (pos _).2⟩, by omega⟩

theorem after_real (k : Nat) {D : Day} (h : RealDate D.year D.month D.day) :
    RealDate (D.after k).year (D.after k).month (D.after k).day ∧
    toOrdinal (D.after k).year (D.after k).month (D.after k).day = toOrdinal D.year D.month D.day + k := by
  induction k with
  | zero => exact ⟨h, rfl⟩
  | succ k ih =>
    have := next_real ih.1
    rw [ih.2] at this
    exact this

theorem next_wday (D : Day) : D.next.wday = (D.wday + 1) % 7 := by
  unfold Day.next
  split
  · rfl
  · split <;> rfl

theorem after_wday (k : Nat) (D : Day) (h : D.wday < 7) : (D.after k).wday = (D.wday + k) % 7 := by
  induction k with
  | zero => simp [Day.after, Nat.mod_eq_of_lt h]
  | succ k ih =>
    rw [Day.after, next_wday, ih]
    omega

theorem dayNumber_iff {y m d : Nat} (h : RealDate y m d) (n : Int) :
    DayNumber y m d n ↔ n = (toOrdinal y m d : Int) - 719163 := by
  constructor
  · rintro (⟨k, rfl, rfl, rfl, rfl⟩ | ⟨k, w, rfl, e⟩)
    · have := (dayOf_real k).2.2.2
      omega
    · have := (after_real k (D := ⟨y, m, d, w⟩) h).2
      rw [e] at this
      simp only at this
      have h0 := (dayOf_real 0).2.2.2
      omega
  · intro e
    by_cases hn : 0 ≤ n
    · left
      obtain ⟨a0, a2, _, a4⟩ := dayOf_real n.toNat
      obtain ⟨h1, h2, h3⟩ := ordinal_inj a2 h (by rw [a4]; omega)
      exact ⟨n.toNat, by omega, h1, h2, h3⟩
    · right
      obtain ⟨k, hk⟩ : ∃ k : Nat, n = -k := ⟨(-n).toNat, by omega⟩
      have hw : (k * 6 + 3) % 7 < 7 := Nat.mod_lt _ (by omega)
      have a := after_real k (D := ⟨y, m, d, (k * 6 + 3) % 7⟩) h
      have b := after_wday k ⟨y, m, d, (k * 6 + 3) % 7⟩ hw
      obtain ⟨_, c2, c3, c4⟩ := dayOf_real 0
      obtain ⟨h1, h2, h3⟩ := ordinal_inj a.1 c2 (by rw [a.2, c4]; simp only; omega)
      refine ⟨k, (k * 6 + 3) % 7, hk, ?_⟩
      generalize Day.after k ⟨y, m, d, (k * 6 + 3) % 7⟩ = D at *
      obtain ⟨Dy, Dm, Dd, Dw⟩ := D
      simp only at h1 h2 h3 b
      rw [h1, h2, h3, b]
      have : ((k * 6 + 3) % 7 + k) % 7 = 3 := by omega
      rw [this]
      rfl

/-! ### The theorems -/

theorem month_iff (mon : Bytes) (m : Nat) : monthNumber (Py.lower mon) = some m ↔ IsMonth mon m := by
  unfold IsMonth
  constructor
  · intro h
    unfold monthNumber at h
    simp only [Option.map_eq_some_iff, List.findIdx?_eq_some_iff_getElem] at h
    obtain ⟨i, ⟨hi, hp, _⟩, rfl⟩ := h
    have hi' : i < 12 := hi
    refine ⟨by omega, by omega, ?_⟩
    simp only [decide_eq_true_eq] at hp
    rw [← hp]
    clear hp
    have : ∀ i : Fin 12, months[i.val]'i.isLt = Py.lower (monthNames.getD (i.val + 1 - 1) []) := by decide +kernel
    exact this ⟨i, hi'⟩
  · rintro ⟨h1, h2, e⟩
    rw [e]
    exact (monthName_ok m h1 h2).2.2

/-- **C61**, exactly: the accepted texts are those of the three forms that name a month and a real date
and time, and the result is the number of seconds from the beginning of 1970 to then. -/
theorem C61_exact (text : Bytes) (t : Int) : parseHttpDate text = .ok t ↔
    ∃ y mon m d h mi s n, DateForm text y mon d h mi s ∧ IsMonth mon m ∧ RealDate (window y) m d ∧
      h < 24 ∧ mi < 60 ∧ s < 60 ∧ DayNumber (window y) m d n ∧ t = n * 86400 + h * 3600 + mi * 60 + s := by
  have fy : ∀ y, fullYear y = window y := by
    intro y; unfold fullYear window; split <;> split <;> (try split) <;> omega
  have tg : ∀ {y m d}, RealDate y m d → ∀ h mi s : Nat, timegm y m d h mi s =
      ((toOrdinal y m d : Int) - 719163) * 86400 + h * 3600 + mi * 60 + s := by
    intro y m d hr h mi s
    have := hr.2.2.2.1
    unfold timegm toOrdinal
    omega
  constructor
  · intro h
    unfold parseHttpDate at h
    cases hm : matchDate text with
    | none => rw [hm] at h; cases h
    | some g =>
      rw [hm] at h
      simp only at h
      obtain ⟨y, d, hh, mi, c, hf, _, e1, e2, e3, e4, e5⟩ := matchDate_sound hm
      cases hmo : monthNumber (Py.lower g.mon) with
      | none => rw [hmo] at h; cases h
      | some m =>
        rw [hmo] at h
        simp only [e1, e2, e3, e4, e5, fy] at h
        split at h
        · rename_i hv
          simp only [validDateTime, decide_eq_true_eq] at hv
          obtain ⟨v1, v2, v3, v4, v5, v6, v7, v8, v9⟩ := hv
          rw [daysInMonth_eq _ _ v3 v4] at v6
          have real : RealDate (window y) m d := ⟨v1, v3, v4, v5, v6⟩
          refine ⟨y, g.mon, m, d, hh, mi, c, _, hf, (month_iff _ _).1 hmo, real, v7, v8, v9, (dayNumber_iff real _).2 rfl, ?_⟩
          rw [← tg real]
          exact (Except.ok.inj h).symm
        · cases h
  · rintro ⟨y, mon, m, d, hh, mi, c, n, hf, hmo, real, v7, v8, v9, hn, rfl⟩
    obtain ⟨g, hm, rfl, e1, e2, e3, e4, e5⟩ := matchDate_complete hf
    rw [dayNumber_iff real] at hn
    subst hn
    rw [← tg real]
    unfold parseHttpDate
    rw [hm]
    simp only [(month_iff _ _).2 hmo, e1, e2, e3, e4, e5, fy]
    rw [if_pos]
    unfold validDateTime
    rw [decide_eq_true_eq, daysInMonth_eq _ _ real.2.1 real.2.2.1]
    have hy : window y ≤ 9999 := by
      have : y < 10000 := by cases hf <;> omega
      unfold window; split <;> (try split) <;> omega
    exact ⟨real.1, hy, real.2.1, real.2.2.1, real.2.2.2.1, real.2.2.2.2, v7, v8, v9⟩

/-- **C72**, exactly: `ValueError` exactly if the text has none of the three forms; a text of one of the
forms that names no real date raises `TypeError`. -/
theorem C72_exact (text : Bytes) : parseHttpDate text = .error .valueError ↔ ¬ ∃ y mon d h mi s, DateForm text y mon d h mi s := by
  have key : parseHttpDate text = .error .valueError ↔ matchDate text = none := (C72_partial text).2
  rw [key]
  constructor
  · rintro h ⟨y, mon, d, hh, mi, s, hf⟩
    obtain ⟨g, hm, _⟩ := matchDate_complete hf
    rw [h] at hm; cases hm
  · intro h
    cases hm : matchDate text with
    | none => rfl
    | some g =>
      obtain ⟨y, d, hh, mi, c, hf, _⟩ := matchDate_sound hm
      exact absurd ⟨_, _, _, _, _, _, hf⟩ h

/-- A date before 1970, one with any word for the day of the week and a line feed at the end, one with a
four-digit year in the window; and text after the date. -/
example : (parseHttpDate b!"Wed, 31 Dec 1969 23:59:59 GMT").toOption = some (-1) ∧
    (parseHttpDate b!"x_1, 06 nOV 1994 08:49:37 GMT\n").toOption = some 784111777 ∧
    (parseHttpDate b!"Sun, 06 Nov 0050 08:49:37 GMT").toOption = (parseHttpDate b!"Sunday, 06-Nov-50 08:49:37 GMT").toOption ∧
    (parseHttpDate b!"Sun, 06 Nov 1994 08:49:37 GMT+1").toOption = none := by decide +kernel

example : DateForm b!"Sun Nov  6 08:49:37 1994" 1994 b!"Nov" 6 8 49 37 ∧ IsMonth b!"Nov" 11 ∧ RealDate (window 1994) 11 6 :=
  ⟨.asctime (w := b!"Sun") (mon := b!"Nov") (dd := b!" 6") (e := []) (y := 1994) (d := 6) (h := 8) (mi := 49) (s := 37) (by unfold DateWord; decide) (by unfold DateWord; decide)
    (.inr ⟨by decide, rfl⟩) (by decide) (.inl rfl) (by unfold Two; decide), by unfold IsMonth; decide,
    by unfold RealDate; decide⟩

end Verif
