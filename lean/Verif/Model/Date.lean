import Verif.Model.Text
/-!
# HTTP dates (`utils/http.py:31-40, 124-182`)

Byte strings only.  The calendar functions of Python's library (`time.gmtime`, `datetime`,
`calendar.timegm`) are modelled here too.
-/

namespace Verif

/-! ### The library's calendar -/

/-- `datetime._is_leap` (library). -/
def isLeap (y : Nat) : Bool := decide (y % 4 = 0) && (decide (y % 100 ≠ 0) || decide (y % 400 = 0))

/-- `datetime._days_in_month` (library). -/
def daysInMonth (y m : Nat) : Nat :=
  if m = 2 ∧ isLeap y then 29 else [0, 31, 28, 31, 30, 31, 30, 31, 31, 30, 31, 30, 31].getD m 0

/-- `datetime._days_before_year` (library). -/
def daysBeforeYear (y : Nat) : Nat := (y - 1) * 365 + (y - 1) / 4 - (y - 1) / 100 + (y - 1) / 400

/-- `datetime._days_before_month` (library). -/
def daysBeforeMonth (y m : Nat) : Nat :=
  [0, 0, 31, 59, 90, 120, 151, 181, 212, 243, 273, 304, 334].getD m 0 +
    (if 2 < m ∧ isLeap y then 1 else 0)

/-- `datetime.date(y, m, d).toordinal()` (library). -/
def toOrdinal (y m d : Nat) : Nat := daysBeforeYear y + daysBeforeMonth y m + d

/-- Does `datetime.datetime(y, mo, d, h, mi, s)` exist (library; `ValueError` otherwise)? -/
def validDateTime (y mo d h mi s : Nat) : Bool :=
  decide (1 ≤ y ∧ y ≤ 9999 ∧ 1 ≤ mo ∧ mo ≤ 12 ∧ 1 ≤ d ∧ d ≤ daysInMonth y mo ∧ h < 24 ∧ mi < 60 ∧ s < 60)

/-- `calendar.timegm` (library): 719163 is the ordinal of 1 January 1970. -/
def timegm (y mo d h mi s : Nat) : Int :=
  ((((toOrdinal y mo 1 : Int) - 719163 + d - 1) * 24 + h) * 60 + mi) * 60 + s

/-- The year part of `time.gmtime` (library): the year and the day of the year (from 0) that is `d` days
after the beginning of year `y`. -/
def gmYear : (fuel : Nat) → (y d : Nat) → Nat × Nat
  | 0, y, d => (y, d)
  | fuel + 1, y, d =>
    let n := if isLeap y then 366 else 365
    if d < n then (y, d) else gmYear fuel (y + 1) (d - n)

/-- The month part of `time.gmtime` (library): month and day of the month (from 0). -/
def gmMonth : (fuel : Nat) → (y m d : Nat) → Nat × Nat
  | 0, _, m, d => (m, d)
  | fuel + 1, y, m, d =>
    if d < daysInMonth y m then (m, d) else gmMonth fuel y (m + 1) (d - daysInMonth y m)

/-- Year, month and day that `time.gmtime` gives `n` days after 1 January 1970 (library). -/
def gmDate (n : Nat) : Nat × Nat × Nat :=
  let p := gmYear n 1970 n
  let q := gmMonth 11 p.1 1 p.2
  (p.1, q.1, q.2 + 1)

/-- `'%02d' % n` for `n` below 100. -/
def fmt02 (n : Nat) : Bytes := [UInt8.ofNat (48 + n / 10 % 10), UInt8.ofNat (48 + n % 10)]

/-- `'%04d' % n` for `n` below 10000. -/
def fmt04 (n : Nat) : Bytes := fmt02 (n / 100) ++ fmt02 (n % 100)

/-- The names in `email.utils.formatdate` (library). -/
def fmtDays : List Bytes := [b!"Mon", b!"Tue", b!"Wed", b!"Thu", b!"Fri", b!"Sat", b!"Sun"]

/-- The names in `email.utils.formatdate` (library). -/
def fmtMonths : List Bytes := [b!"Jan", b!"Feb", b!"Mar", b!"Apr", b!"May", b!"Jun", b!"Jul", b!"Aug",
  b!"Sep", b!"Oct", b!"Nov", b!"Dec"]

/-- `http_date(t)` (`utils/http.py:124-135`), that is `email.utils.formatdate(t, usegmt=True)`, for an
integer `t` not below zero and years up to 9999. -/
def httpDate (t : Nat) : Bytes :=
  let g := gmDate (t / 86400)
  let s := t % 86400
  fmtDays.getD ((t / 86400 + 3) % 7) [] ++ b!", " ++ fmt02 g.2.2 ++ b!" " ++
    fmtMonths.getD (g.2.1 - 1) [] ++ b!" " ++ fmt04 g.1 ++ b!" " ++ fmt02 (s / 3600) ++ b!":" ++
    fmt02 (s / 60 % 60) ++ b!":" ++ fmt02 (s % 60) ++ b!" GMT"

/-! ### Reading -/

/-- `MONTHS` (`utils/http.py:31`). -/
def months : List Bytes := [b!"jan", b!"feb", b!"mar", b!"apr", b!"may", b!"jun", b!"jul", b!"aug",
  b!"sep", b!"oct", b!"nov", b!"dec"]

/-- `n` characters of a class at the start of the text. -/
def takeN (p : UInt8 → Bool) (n : Nat) (s : Bytes) : Option (Bytes × Bytes) :=
  if n ≤ s.length ∧ (s.take n).all p then some (s.take n, s.drop n) else none

/-- A literal at the start of the text. -/
def takeLit (l s : Bytes) : Option Bytes :=
  if Py.startsWith l s then some (s.drop l.length) else none

/-- The groups of the three expressions. -/
structure DateText where
  year : Bytes
  mon : Bytes
  day : Bytes
  hour : Bytes
  min : Bytes
  sec : Bytes
deriving DecidableEq, Repr

/-- `__T` (`utils/http.py:37`). -/
def matchTime (s : Bytes) : Option ((Bytes × Bytes × Bytes) × Bytes) :=
  (takeN Py.isDigit 2 s).bind fun (h, s) => (takeLit b!":" s).bind fun s =>
  (takeN Py.isDigit 2 s).bind fun (m, s) => (takeLit b!":" s).bind fun s =>
  (takeN Py.isDigit 2 s).bind fun (c, s) => some ((h, m, c), s)

/-- `$`: the end of the text, or a line feed at the end. -/
def atEnd (s : Bytes) : Bool := s = [] || s = [10]

/-- `RFC1123_DATE.match` (`utils/http.py:38`). -/
def matchRfc1123 (s : Bytes) : Option DateText :=
  (takeN isWordChar 3 s).bind fun (_, s) => (takeLit b!", " s).bind fun s =>
  (takeN Py.isDigit 2 s).bind fun (d, s) => (takeLit b!" " s).bind fun s =>
  (takeN isWordChar 3 s).bind fun (mo, s) => (takeLit b!" " s).bind fun s =>
  (takeN Py.isDigit 4 s).bind fun (y, s) => (takeLit b!" " s).bind fun s =>
  (matchTime s).bind fun (t, s) => (takeLit b!" GMT" s).bind fun s =>
  if atEnd s then some ⟨y, mo, d, t.1, t.2.1, t.2.2⟩ else none

/-- `RFC850_DATE.match` (`utils/http.py:39`).  The comma after `\w{6,9}` is not a word character, so the
repetition takes all word characters. -/
def matchRfc850 (s : Bytes) : Option DateText :=
  let w := s.takeWhile isWordChar
  if 6 ≤ w.length ∧ w.length ≤ 9 then
    (takeLit b!", " (s.drop w.length)).bind fun s =>
    (takeN Py.isDigit 2 s).bind fun (d, s) => (takeLit b!"-" s).bind fun s =>
    (takeN isWordChar 3 s).bind fun (mo, s) => (takeLit b!"-" s).bind fun s =>
    (takeN Py.isDigit 2 s).bind fun (y, s) => (takeLit b!" " s).bind fun s =>
    (matchTime s).bind fun (t, s) => (takeLit b!" GMT" s).bind fun s =>
    if atEnd s then some ⟨y, mo, d, t.1, t.2.1, t.2.2⟩ else none
  else none

/-- `ASCTIME_DATE.match` (`utils/http.py:40`). -/
def matchAsctime (s : Bytes) : Option DateText :=
  (takeN isWordChar 3 s).bind fun (_, s) => (takeLit b!" " s).bind fun s =>
  (takeN isWordChar 3 s).bind fun (mo, s) => (takeLit b!" " s).bind fun s =>
  (takeN (fun c => c = 32 || Py.isDigit c) 1 s).bind fun (d1, s) =>
  (takeN Py.isDigit 1 s).bind fun (d2, s) => (takeLit b!" " s).bind fun s =>
  (matchTime s).bind fun (t, s) => (takeLit b!" " s).bind fun s =>
  (takeN Py.isDigit 4 s).bind fun (y, s) =>
  if atEnd s then some ⟨y, mo, d1 ++ d2, t.1, t.2.1, t.2.2⟩ else none

/-- The loop over the expressions (`utils/http.py:150-155`). -/
def matchDate (s : Bytes) : Option DateText :=
  (matchRfc1123 s).or ((matchRfc850 s).or (matchAsctime s))

/-- `MONTHS.index(name) + 1`; `none` is `ValueError`. -/
def monthNumber (mon : Bytes) : Option Nat :=
  (months.findIdx? (· = mon)).map (· + 1)

/-- `int` of a group of digits, perhaps after a space. -/
def groupInt (s : Bytes) : Nat := Py.digitsVal (Py.strip s)

/-- The year (`utils/http.py:157-162`). -/
def fullYear (y : Nat) : Nat :=
  if y < 100 then (if y < 70 then y + 2000 else y + 1900) else y

/-- `parse_http_date` (`utils/http.py:138-172`).  A date that does not exist raises `TypeError`: the
`except` clause calls `six.reraise` with an exception object and another one as its value, which
Python 2's `raise` statement rejects. -/
def parseHttpDate (s : Bytes) : Except Exc Int :=
  match matchDate s with
  | none => .error .valueError
  | some g =>
    match monthNumber (Py.lower g.mon) with
    | none => .error .typeError
    | some mo =>
      let y := fullYear (groupInt g.year)
      let d := groupInt g.day
      let h := groupInt g.hour
      let mi := groupInt g.min
      let c := groupInt g.sec
      if validDateTime y mo d h mi c then .ok (timegm y mo d h mi c) else .error .typeError

/-- `parse_http_date_safe` (`utils/http.py:175-182`). -/
def parseHttpDateSafe (s : Bytes) : Option Int := (parseHttpDate s).toOption

end Verif
