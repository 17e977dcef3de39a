import Verif.Py.Bytes
/-! The Gregorian calendar, day by day from 1 January 1970, and the date formats of RFC 7231. -/

namespace Verif.Spec

/-- A day: year, month and day of the month from 1, day of the week from 0 (Monday). -/
structure Day where
  year : Nat
  month : Nat
  day : Nat
  wday : Nat
deriving DecidableEq, Repr

/-- The leap years. -/
def Leap (y : Nat) : Prop := y % 4 = 0 ∧ (y % 100 = 0 → y % 400 = 0)

instance (y : Nat) : Decidable (Leap y) := by unfold Leap; infer_instance

/-- The number of days of a month. -/
def monthLen (y m : Nat) : Nat :=
  if m = 2 then (if Leap y then 29 else 28)
  else if m = 4 ∨ m = 6 ∨ m = 9 ∨ m = 11 then 30 else 31

/-- The day after. -/
def Day.next (d : Day) : Day :=
  if d.day < monthLen d.year d.month then ⟨d.year, d.month, d.day + 1, (d.wday + 1) % 7⟩
  else if d.month < 12 then ⟨d.year, d.month + 1, 1, (d.wday + 1) % 7⟩
  else ⟨d.year + 1, 1, 1, (d.wday + 1) % 7⟩

/-- The day `n` days after Thursday, 1 January 1970. -/
def dayOf : Nat → Day
  | 0 => ⟨1970, 1, 1, 3⟩
  | n + 1 => (dayOf n).next

/-- One decimal digit. -/
def digit (n : Nat) : UInt8 := b!"0123456789".getD (n % 10) 0

/-- Two decimal digits. -/
def two (n : Nat) : Bytes := [digit (n / 10), digit n]

/-- Four decimal digits. -/
def four (n : Nat) : Bytes := [digit (n / 1000), digit (n / 100), digit (n / 10), digit n]

/-- Names of the days. -/
def dayNames : List Bytes := [b!"Monday", b!"Tuesday", b!"Wednesday", b!"Thursday", b!"Friday",
  b!"Saturday", b!"Sunday"]

/-- Names of the months. -/
def monthNames : List Bytes := [b!"Jan", b!"Feb", b!"Mar", b!"Apr", b!"May", b!"Jun", b!"Jul", b!"Aug",
  b!"Sep", b!"Oct", b!"Nov", b!"Dec"]

/-- The name of the month. -/
def Day.monthName (d : Day) : Bytes := monthNames.getD (d.month - 1) []

/-- The name of the day of the week. -/
def Day.dayName (d : Day) : Bytes := dayNames.getD d.wday []

/-- Hours, minutes and seconds. -/
def clock (s : Nat) : Bytes := two (s / 3600) ++ (b!":" ++ (two (s / 60 % 60) ++ (b!":" ++ two (s % 60))))

/-- `Sun, 06 Nov 1994 08:49:37 GMT`. -/
def imfFixdate (d : Day) (s : Nat) : Bytes :=
  d.dayName.take 3 ++ (b!", " ++ (two d.day ++ (b!" " ++ (d.monthName ++ (b!" " ++ (four d.year ++
    (b!" " ++ (clock s ++ b!" GMT"))))))))

/-- `Sunday, 06-Nov-94 08:49:37 GMT`. -/
def rfc850 (d : Day) (s : Nat) : Bytes :=
  d.dayName ++ (b!", " ++ (two d.day ++ (b!"-" ++ (d.monthName ++ (b!"-" ++ (two d.year ++
    (b!" " ++ (clock s ++ b!" GMT"))))))))

/-- `Sun Nov  6 08:49:37 1994`. -/
def asctime (d : Day) (s : Nat) : Bytes :=
  d.dayName.take 3 ++ (b!" " ++ (d.monthName ++ (b!" " ++
    ((if d.day < 10 then [32, digit d.day] else two d.day) ++ (b!" " ++ (clock s ++ (b!" " ++
      four d.year)))))))

/-! ### The accepted texts -/

/-- `w` consists of `n` letters, digits or underscores. -/
def DateWord (n : Nat) (w : Bytes) : Prop :=
  w.length = n ∧ ∀ c ∈ w, (65 ≤ c ∧ c ≤ 90) ∨ (97 ≤ c ∧ c ≤ 122) ∨ (48 ≤ c ∧ c ≤ 57) ∨ c = 95

/-- Hours, minutes and seconds, any two digits each. -/
def time (h mi s : Nat) : Bytes := two h ++ (b!":" ++ (two mi ++ (b!":" ++ two s)))

/-- Two digits are enough for each. -/
def Two (d h mi s : Nat) : Prop := d < 100 ∧ h < 100 ∧ mi < 100 ∧ s < 100

/-- The end of the text: nothing, or a line feed (Python's `$`). -/
def TextEnd (e : Bytes) : Prop := e = [] ∨ e = b!"\n"

/-- `text` has one of the three forms, with these numbers and this name of the month.  Any word may stand for the day of the
week and the month. -/
inductive DateForm : Bytes → (y : Nat) → (mon : Bytes) → (d h mi s : Nat) → Prop where
  | imf {w mon e y d h mi s} : DateWord 3 w → DateWord 3 mon → y < 10000 → TextEnd e → Two d h mi s →
      DateForm (w ++ (b!", " ++ (two d ++ (b!" " ++ (mon ++ (b!" " ++ (four y ++ (b!" " ++
        (time h mi s ++ (b!" GMT" ++ e)))))))))) y mon d h mi s
  | rfc850 {n w mon e y d h mi s} : 6 ≤ n → n ≤ 9 → DateWord n w → DateWord 3 mon → y < 100 → TextEnd e → Two d h mi s →
      DateForm (w ++ (b!", " ++ (two d ++ (b!"-" ++ (mon ++ (b!"-" ++ (two y ++ (b!" " ++
        (time h mi s ++ (b!" GMT" ++ e)))))))))) y mon d h mi s
  | asctime {w mon dd e y d h mi s} : DateWord 3 w → DateWord 3 mon → (dd = two d ∨ d < 10 ∧ dd = [32, digit d]) →
      y < 10000 → TextEnd e → Two d h mi s →
      DateForm (w ++ (b!" " ++ (mon ++ (b!" " ++ (dd ++ (b!" " ++ (time h mi s ++ (b!" " ++ (four y ++ e)))))))))
        y mon d h mi s

/-- Years below 100 are in the window 1970 to 2069. -/
def window (y : Nat) : Nat := if y < 70 then 2000 + y else if y < 100 then 1900 + y else y

/-- `mon` is the name of month `m`, in any case. -/
def IsMonth (mon : Bytes) (m : Nat) : Prop := 1 ≤ m ∧ m ≤ 12 ∧ Py.lower mon = Py.lower (monthNames.getD (m - 1) [])

/-- A real date. -/
def RealDate (y m d : Nat) : Prop := 1 ≤ y ∧ 1 ≤ m ∧ m ≤ 12 ∧ 1 ≤ d ∧ d ≤ monthLen y m

/-- The day `k` days later. -/
def Day.after : Nat → Day → Day
  | 0, d => d
  | k + 1, d => (d.after k).next

/-- `y-m-d` is day number `n`, counting from 1 January 1970, forwards or backwards. -/
def DayNumber (y m d : Nat) (n : Int) : Prop :=
  (∃ k : Nat, n = k ∧ (dayOf k).year = y ∧ (dayOf k).month = m ∧ (dayOf k).day = d) ∨
  (∃ (k : Nat) (w : Nat), n = -k ∧ Day.after k ⟨y, m, d, w⟩ = dayOf 0)

end Verif.Spec
