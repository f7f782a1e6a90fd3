import Verif.Basic

/-!
# Calendar dates, include/gul14/date.h

The fields of the classes have their C++ types: `short` is `Int16`, `unsigned char` is `UInt8`.
Values of type `int`, `unsigned` and `long long` are mathematical integers; the result of every `int`
operation that can leave the range of `int` is checked (overflow is undefined behaviour), unsigned
arithmetic is reduced modulo 2^32.  `days`, `months` and `years` are durations with an `int` count
(date.h:131-142); sys_days and local_days are represented by the number of days since 1970-01-01.
-/
namespace Gul14.Date

/-- The result of an operation on `int`. C++ semantics (overflow is undefined); no code in /repo. -/
def int (x : Int) : Res Int := if -2147483648 ≤ x ∧ x ≤ 2147483647 then .ok x else .ub

/-- The result of an operation on `unsigned`, and the conversion to `unsigned`. C++ semantics; no code
in /repo. -/
def uns (x : Int) : Int := x % 4294967296

/-- Conversion from `unsigned` to `int`. C++ semantics; no code in /repo. -/
def asInt (x : Int) : Int := if x < 2147483648 then x else x - 4294967296

/-- Conversion from `unsigned` to `unsigned char`. C++ semantics; no code in /repo. -/
def asUchar (x : Int) : UInt8 := UInt8.ofNat (x % 256).toNat

/-- The value of an `unsigned char`. C++ semantics; no code in /repo. -/
def val (x : UInt8) : Int := x.toNat

/-! ### day, month, year -/

/-- day::ok, date.h:1357. -/
def dayOk (d : UInt8) : Bool := 1 ≤ d && d ≤ 31

/-- month::ok, date.h:1471. -/
def monthOk (m : UInt8) : Bool := 1 ≤ m && m ≤ 12

/-- year::year(int), date.h:1568: conversion to short. -/
def year (y : Int) : Int16 := Int16.ofInt y

/-- year::is_leap, date.h:1578-1582. -/
def isLeap (y : Int16) : Bool :=
  y.toInt.tmod 4 == 0 && (y.toInt.tmod 100 != 0 || y.toInt.tmod 400 == 0)

/-- year::ok, date.h:1586-1590. -/
def yearOk (y : Int16) : Bool := y.toInt != -32768

/-- The quotient of the code's `(x >= 0 ? x : x - (n-1)) / n`, with `int` arithmetic. Used in
date.h:2081, 2677 and 2775. -/
def intDiv (x n : Int) : Res Int := do
  let a ← if x ≥ 0 then pure x else int (x - (n - 1))
  pure (a.tdiv n)

/-- The same with `long long`, which is wide enough for the values that occur. Used in date.h:1519-1520,
1687 and 1760-1761. -/
def longDiv (x n : Int) : Int := (if x ≥ 0 then x else x - (n - 1)).tdiv n

/-- operator+(day, days), date.h:1402-1406. -/
def dayPlus (x : UInt8) (n : Int) : UInt8 := asUchar (uns (val x + uns n))

/-- operator-(day, day), date.h:1395-1400. -/
def dayMinus (x y : UInt8) : Int := asInt (uns (val x - val y))

/-- operator+(month, months), date.h:1516-1522. -/
def monthPlus (x : UInt8) (n : Int) : UInt8 :=
  let mu := val x + n - 1
  let yr := longDiv mu 12
  asUchar (uns (mu - yr * 12 + 1))

/-- operator-(month, months), date.h:1530-1534, with the negation of a duration. -/
def monthMinusMonths (x : UInt8) (n : Int) : Res UInt8 := do
  let n ← int (-n)
  pure (monthPlus x n)

/-- operator-(month, month), date.h:1509-1514. -/
def monthMinus (x y : UInt8) : Int :=
  let d := uns (val x - val y)
  asInt (if d ≤ 11 then d else uns (d + 12))

/-- operator+(year, years), date.h:1634-1638. -/
def yearPlus (y : Int16) (n : Int) : Res Int16 := do
  let r ← int (y.toInt + n)
  pure (year r)

/-! ### weekday -/

/-- weekday::weekday(unsigned), date.h:1691-1694. -/
def weekdayOf (wd : Int) : UInt8 := asUchar (if wd ≠ 7 then wd else 0)

/-- weekday::weekday_from_days and the constructors from sys_days and local_days, date.h:1682-1704. -/
def weekday (z : Int) : UInt8 :=
  let u := uns z
  asUchar (if z ≥ -4 then (uns (u + 4)) % 7 else u % 7)

/-- weekday::ok, date.h:1725. -/
def weekdayOk (w : UInt8) : Bool := w ≤ 6

/-- weekday::c_encoding and iso_encoding, date.h:1727-1735. -/
def cEncoding (w : UInt8) : Int := val w
/-- weekday::iso_encoding, date.h:1730-1735. -/
def isoEncoding (w : UInt8) : Int := if w = 0 then 7 else val w

/-- operator-(weekday, weekday), date.h:1749-1755. -/
def weekdayMinus (x y : UInt8) : Int :=
  let wdu := val x - val y
  let wk := longDiv wdu 7
  wdu - wk * 7

/-- operator+(weekday, days), date.h:1757-1763. -/
def weekdayPlus (x : UInt8) (n : Int) : UInt8 :=
  let wdu := val x + n
  let wk := longDiv wdu 7
  weekdayOf (uns (wdu - wk * 7))

/-- operator-(weekday, days), date.h:1771-1775. -/
def weekdayMinusDays (x : UInt8) (n : Int) : Res UInt8 := do
  let n ← int (-n)
  pure (weekdayPlus x n)

/-! ### year_month -/

/-- The members of year_month, date.h:488-492. -/
structure YM where
  y : Int16
  m : UInt8
  deriving DecidableEq, Repr

/-- year_month::ok, date.h:2003. -/
def YM.ok (x : YM) : Bool := yearOk x.y && monthOk x.m

/-- operator<(year_month, year_month), date.h:2049-2055. -/
def YM.lt (x y : YM) : Bool :=
  if x.y.toInt < y.y.toInt then true
  else if x.y.toInt > y.y.toInt then false
  else decide (val x.m < val y.m)

/-- operator+(year_month, months), date.h:2075-2083. -/
def YM.plus (x : YM) (n : Int) : Res YM := do
  let dmi ← int (val x.m - 1)
  let dmi ← int (dmi + n)
  let dy ← intDiv dmi 12
  let dmi ← int (dmi - dy * 12)
  let dmi ← int (dmi + 1)
  let y ← yearPlus x.y dy
  pure ⟨y, asUchar (uns dmi)⟩

/-- operator-(year_month, months), date.h:2092-2097. -/
def YM.minusMonths (x : YM) (n : Int) : Res YM := do
  let n ← int (-n)
  x.plus n

/-- operator-(year_month, year_month), date.h:2099-2104: the years are converted to months. -/
def YM.minus (x y : YM) : Res Int := do
  let dy ← int (x.y.toInt - y.y.toInt)
  let dm ← int (dy * 12)
  int (dm + asInt (uns (val x.m - val y.m)))

/-- operator+(year_month, years), date.h:2106-2110. -/
def YM.plusYears (x : YM) (n : Int) : Res YM := do
  let y ← yearPlus x.y n
  pure ⟨y, x.m⟩

/-! ### year_month_day_last and year_month_day -/

/-- month_day::ok, date.h:2158-2169. -/
def monthDayOk (m d : UInt8) : Bool :=
  monthOk m && 1 ≤ d &&
    d ≤ ([31, 29, 31, 30, 31, 30, 31, 31, 30, 31, 30, 31] : List UInt8).getD (m.toNat - 1) 0

/-- year_month_day_last::day, date.h:2464-2476. -/
def lastDay (y : Int16) (m : UInt8) : UInt8 :=
  if (m ≠ 2 ∨ isLeap y = false) ∧ monthOk m = true then
    ([31, 28, 31, 30, 31, 30, 31, 31, 30, 31, 30, 31] : List UInt8).getD (m.toNat - 1) 0
  else 29

/-- The members of year_month_day, date.h:636-641. -/
structure YMD where
  y : Int16
  m : UInt8
  d : UInt8
  deriving DecidableEq, Repr

/-- year_month_day::ok, date.h:2700-2706. -/
def YMD.ok (x : YMD) : Bool :=
  if !(yearOk x.y && monthOk x.m) then false
  else 1 ≤ x.d && x.d ≤ lastDay x.y x.m

/-- operator<(year_month_day, year_month_day), date.h:2720-2728. -/
def YMD.lt (x y : YMD) : Bool :=
  if x.y.toInt < y.y.toInt then true
  else if x.y.toInt > y.y.toInt then false
  else if val x.m < val y.m then true
  else if val x.m > val y.m then false
  else decide (val x.d < val y.d)

/-- year_month_day::to_days, date.h:2670-2686. -/
def YMD.toDays (x : YMD) : Res Int := do
  let y ← int (x.y.toInt - (if x.m ≤ 2 then 1 else 0))
  let m := val x.m
  let d := val x.d
  let era ← intDiv y 400
  let yoe := uns (y - era * 400)
  let doy := uns (uns (153 * (if m > 2 then m - 3 else m + 9) + 2) / 5 + d - 1)
  let doe := uns (yoe * 365 + yoe / 4 - yoe / 100 + doy)
  let a ← int (era * 146097)
  let b ← int (a + asInt doe)
  int (b - 719468)

/-- year_month_day::from_days, date.h:2766-2784. -/
def fromDays (n : Int) : Res YMD := do
  let z ← int (n + 719468)
  let era ← intDiv z 146097
  let doe := uns (z - era * 146097)
  let yoe := uns (doe - doe / 1460 + doe / 36524 - doe / 146096) / 365
  let y ← int (yoe + era * 400)
  let doy := uns (doe - (365 * yoe + yoe / 4 - yoe / 100))
  let mp := uns (5 * doy + 2) / 153
  let d := uns (doy - uns (153 * mp + 2) / 5 + 1)
  let m := if mp < 10 then mp + 3 else mp - 9
  let y ← int (y + (if m ≤ 2 then 1 else 0))
  pure ⟨year y, asUchar m, asUchar d⟩

/-- operator+(year_month_day, months), date.h:2787-2793. -/
def YMD.plusMonths (x : YMD) (n : Int) : Res YMD := do
  let ym ← (YM.mk x.y x.m).plus n
  pure ⟨ym.y, ym.m, x.d⟩

/-- operator+(year_month_day, years), date.h:2811-2815. -/
def YMD.plusYears (x : YMD) (n : Int) : Res YMD := do
  let y ← yearPlus x.y n
  pure ⟨y, x.m, x.d⟩

/-- year_month_day(year_month_day_last), date.h:2615-2620, and the conversion of
year_month_day_last to sys_days, 2478-2482. -/
def ymdLast (y : Int16) (m : UInt8) : YMD := ⟨y, m, lastDay y m⟩

/-! ### year_month_weekday and year_month_weekday_last -/

/-- year_month_weekday: year, month, weekday and index (both are bit-fields of four bits,
date.h:440-441). -/
structure YMWD where
  y : Int16
  m : UInt8
  wd : UInt8
  idx : UInt8
  deriving DecidableEq, Repr

/-- weekday_indexed::weekday_indexed, date.h:1897-1901: the low four bits. -/
def weekdayIndexed (y : Int16) (m : UInt8) (wd : UInt8) (index : Int) : YMWD :=
  ⟨y, m, asUchar (val wd % 16), asUchar (index % 16)⟩

/-- weekday_indexed::weekday, date.h:1876-1880. -/
def YMWD.weekday (x : YMWD) : UInt8 := weekdayOf (val x.wd)

/-- year_month_weekday::from_days, date.h:2935-2943. -/
def ymwdFromDays (n : Int) : Res YMWD := do
  let wd := weekday n
  let ymd ← fromDays n
  pure (weekdayIndexed ymd.y ymd.m wd (uns (val ymd.d - 1) / 7 + 1))

/-- year_month_weekday::to_days, date.h:2945-2952. -/
def YMWD.toDays (x : YMWD) : Res Int := do
  let d ← (YMD.mk x.y x.m 1).toDays
  let k ← int (weekdayMinus x.weekday (Date.weekday d) + asInt (uns (uns (val x.idx - 1) * 7)))
  int (d + k)

/-- year_month_weekday::ok, date.h:2923-2933. -/
def YMWD.ok (x : YMWD) : Res Bool :=
  if !yearOk x.y || !monthOk x.m || !weekdayOk x.weekday || decide (val x.idx < 1) then pure false
  else if val x.idx ≤ 4 then pure true
  else do
    let d ← (YMD.mk x.y x.m 1).toDays
    let d2 ← int (weekdayMinus x.weekday (Date.weekday d) + asInt (uns (uns (val x.idx - 1) * 7 + 1)))
    pure (decide (uns d2 ≤ val (lastDay x.y x.m)))

/-- year_month_weekday_last::to_days, date.h:3105-3111. -/
def ymwdLastToDays (y : Int16) (m : UInt8) (wd : UInt8) : Res Int := do
  let d ← (ymdLast y m).toDays
  int (d - weekdayMinus (Date.weekday d) wd)

/-- year_month_weekday_last::ok, date.h:3099-3103. -/
def ymwdLastOk (y : Int16) (m : UInt8) (wd : UInt8) : Bool := yearOk y && monthOk m && weekdayOk wd

end Gul14.Date
