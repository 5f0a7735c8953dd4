import Verif.Config
import Mathlib.Data.Int.Log
import Mathlib.Data.Rat.Floor
import Mathlib.Tactic.Ring
import Mathlib.Tactic.Linarith
import Mathlib.Tactic.NormNum
/-
How sync times are stored in the profile info file (zielen/profile.py:143-175).
-/
namespace Verif

/-! ### The calendar of `datetime` (CPython Lib/datetime.py) -/

def isLeap (y : Nat) : Bool := y % 4 == 0 && (y % 100 != 0 || y % 400 == 0)

/-- `_days_before_year`. -/
def daysBeforeYear (y : Nat) : Nat := (y - 1) * 365 + (y - 1) / 4 - (y - 1) / 100 + (y - 1) / 400

/-- `_DAYS_BEFORE_MONTH` for a year that is not a leap year. -/
def monthStart : Nat → Nat
  | 1 => 0 | 2 => 31 | 3 => 59 | 4 => 90 | 5 => 120 | 6 => 151 | 7 => 181 | 8 => 212
  | 9 => 243 | 10 => 273 | 11 => 304 | 12 => 334 | _ => 365

/-- `_days_before_month`. -/
def daysBeforeMonth (leap : Bool) (m : Nat) : Nat :=
  monthStart m + (if m > 2 ∧ leap then 1 else 0)

/-- `_days_in_month`. -/
def daysInMonth (leap : Bool) (m : Nat) : Nat :=
  if m = 2 ∧ leap then 29 else monthStart (m + 1) - monthStart m

/-- `_ymd2ord`. -/
def ymd2ord (y m d : Nat) : Nat := daysBeforeYear y + daysBeforeMonth (isLeap y) m + d

/-- The second half of `_ord2ymd`: month and day of the `n`-th day of a year,
counted from 0. -/
def monthDay (leap : Bool) (n : Nat) : Nat × Nat :=
  let month := (n + 50) / 32
  let preceding := daysBeforeMonth leap month
  if preceding > n then (month - 1, n - (preceding - daysInMonth leap (month - 1)) + 1)
  else (month, n - preceding + 1)

/-- `_ord2ymd`. -/
def ord2ymd (ord : Nat) : Nat × Nat × Nat :=
  let n := ord - 1
  let n400 := n / 146097
  let n := n % 146097
  let n100 := n / 36524
  let n := n % 36524
  let n4 := n / 1461
  let n := n % 1461
  let n1 := n / 365
  let n := n % 365
  let year := n400 * 400 + 1 + n100 * 100 + n4 * 4 + n1
  if n1 = 4 ∨ n100 = 4 then (year - 1, 12, 31)
  else
    let leap := n1 == 3 && (n4 != 24 || n100 == 3)
    let md := monthDay leap n
    (year, md.1, md.2)

structure DateTime where
  year : Nat
  month : Nat
  day : Nat
  hour : Nat
  minute : Nat
  second : Nat
  micro : Nat
deriving DecidableEq, Repr

/-- The ordinal of 1970-01-01. -/
def epochOrd : Nat := 719163

/-- The fields of an instant in microseconds from 0001-01-01 (`gmtime`, the C
function behind `utcfromtimestamp`, uses the same calendar). -/
def toFields (t : Nat) : DateTime :=
  let us := t % 1000000
  let s := t / 1000000
  let d := ord2ymd (s / 86400 + 1)
  let s := s % 86400
  { year := d.1, month := d.2.1, day := d.2.2, hour := s / 3600, minute := s / 60 % 60,
    second := s % 60, micro := us }

/-- The instant of some fields, in microseconds from 0001-01-01. -/
def fromFields (d : DateTime) : Nat :=
  (((ymd2ord d.year d.month d.day - 1) * 24 + d.hour) * 60 + d.minute) * 60 * 1000000 +
    d.second * 1000000 + d.micro

/-! ### Formatting -/

def digitChar (n : Nat) : Char := Char.ofNat (48 + n)

/-- The last `w` decimal digits of a number. -/
def pad : Nat → Nat → Str
  | 0, _ => []
  | w + 1, n => pad w (n / 10) ++ [digitChar (n % 10)]

/-- `%Y`: the C library does not pad years below 1000. -/
def yearStr (y : Nat) : Str := (pad 4 y).dropWhile (· == '0')

/-- `strftime("%Y-%m-%dT%H:%M:%S.%f")` (zielen/profile.py:156-157). -/
def strftime (d : DateTime) : Str :=
  yearStr d.year ++ '-' :: pad 2 d.month ++ '-' :: pad 2 d.day ++ 'T' :: pad 2 d.hour ++
    ':' :: pad 2 d.minute ++ ':' :: pad 2 d.second ++ '.' :: pad 6 d.micro

/-- A run of `lo` to `hi` digits and the separator after it. -/
def field (lo hi : Nat) (sep : Option Char) (s : Str) : Option (Str × Str) :=
  let ds := s.takeWhile isDigit
  let rest := s.dropWhile isDigit
  if lo ≤ ds.length ∧ ds.length ≤ hi then
    match sep, rest with
    | some c, d :: rest => if c = d then some (ds, rest) else none
    | none, [] => some (ds, [])
    | _, _ => none
  else none

/-- `strptime` with the same format: four digits for `%Y`, up to two for the
others, up to six for `%f`, which is padded on the right; then the ranges that
`datetime` checks. Other digits than ASCII ones and the ` 1` form of `%d` are not
modelled. -/
def strptime (s : Str) : Option DateTime := do
  let (y, s) ← field 4 4 (some '-') s
  let (mo, s) ← field 1 2 (some '-') s
  let (d, s) ← field 1 2 (some 'T') s
  let (h, s) ← field 1 2 (some ':') s
  let (mi, s) ← field 1 2 (some ':') s
  let (sec, s) ← field 1 2 (some '.') s
  let (us, _) ← field 1 6 none s
  let r : DateTime := ⟨decimal y, decimal mo, decimal d, decimal h, decimal mi,
    decimal sec, decimal us * 10 ^ (6 - us.length)⟩
  if 1 ≤ r.year ∧ 1 ≤ r.month ∧ r.month ≤ 12 ∧ 1 ≤ r.day ∧
      r.day ≤ daysInMonth (isLeap r.year) r.month ∧ r.hour ≤ 23 ∧ r.minute ≤ 59 ∧ r.second ≤ 59 then
    some r
  else none

/-! ### Floating point -/

/-- Round to the nearest integer, ties to even. -/
def roundEven (q : ℚ) : ℤ :=
  if q - ⌊q⌋ < 1 / 2 then ⌊q⌋
  else if 1 / 2 < q - ⌊q⌋ then ⌊q⌋ + 1
  else if ⌊q⌋ % 2 = 0 then ⌊q⌋ else ⌊q⌋ + 1

/-- The nearest number with a significand of 53 bits. The bounds of the exponent
are not modelled. -/
def toFloat (x : ℚ) : ℚ :=
  roundEven (x * 2 ^ (52 - Int.log 2 |x|)) * 2 ^ (Int.log 2 |x| - 52)

/-- The integral part, towards zero (`modf`). -/
def truncQ (q : ℚ) : ℤ := if 0 ≤ q then ⌊q⌋ else ⌈q⌉

/-- The microseconds that `utcfromtimestamp` makes of a float: the fractional part
times a million, rounded, ties to even. -/
def floatMicros (x : ℚ) : ℤ :=
  truncQ x * 1000000 + roundEven (toFloat ((x - truncQ x) * 1000000))

/-- Microseconds from 0001-01-01 to the epoch. -/
def epochMicros : Nat := (epochOrd - 1) * 86400 * 1000000

/-- `_convert_timestamp` (zielen/profile.py:150-157). `none` is `ValueError`: the year
is not between 1 and 9999. -/
def convertTimestamp (epoch : ℚ) : Option Str :=
  let t := floatMicros epoch + epochMicros
  if 0 ≤ t ∧ t < (daysBeforeYear 10000 * 86400 * 1000000 : Nat) then
    some (strftime (toFields t.toNat)) else none

/-- `_convert_epoch` (zielen/profile.py:143-148). -/
def convertEpoch (s : Str) : Option ℚ :=
  (strptime s).map (fun d => toFloat (((fromFields d : ℤ) - epochMicros : ℤ) / 1000000))

end Verif
