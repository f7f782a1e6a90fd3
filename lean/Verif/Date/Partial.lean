import Verif.Date.Model

/-!
# Partial dates and the division syntax

The calendar classes of `include/gul14/date.h` that stand for a part of a date or for a date given by
"last" or by a weekday, the operator `/` that puts them together, their comparisons, increments and
arithmetic.
-/
namespace Gul14.Date

/-- day::day(unsigned) of a `static_cast<unsigned>(int)`, date.h:1349 and e.g. 3220. -/
def dayInt (n : Int) : UInt8 := asUchar (uns n)

/-- month::month(unsigned) of a `static_cast<unsigned>(int)`, date.h:1450 and e.g. 3197. -/
def monthInt (n : Int) : UInt8 := asUchar (uns n)

/-- weekday_indexed: two bit-fields of four bits each, date.h:440-441. -/
structure WI where
  wd : UInt8
  idx : UInt8
  deriving DecidableEq, Repr

/-- weekday::operator[](unsigned), date.h:1929-1933, with the constructor 1896-1900: the low four
bits of both numbers. -/
def WI.of (wd : UInt8) (index : Int) : WI := ⟨asUchar (val wd % 16), asUchar (index % 16)⟩

/-- weekday_indexed::weekday, date.h:1876-1881. -/
def WI.weekday (x : WI) : UInt8 := weekdayOf (val x.wd)

/-- weekday_indexed::ok, date.h:1885-1889. -/
def WI.ok (x : WI) : Bool := weekdayOk x.weekday && decide (1 ≤ val x.idx) && decide (val x.idx ≤ 5)

/-- month_weekday::ok, date.h:2316-2320. -/
def monthWeekdayOk (m : UInt8) (x : WI) : Bool := monthOk m && x.ok

/-- month_weekday_last::ok, date.h:2375-2379, with weekday_last::ok, 1950. -/
def monthWeekdayLastOk (m wd : UInt8) : Bool := monthOk m && weekdayOk wd

/-- The operands and results of the operator `/`. date.h:3185-3475. -/
inductive Obj where
  /-- an `int` -/
  | int (n : Int)
  | day (d : UInt8)
  | month (m : UInt8)
  | year (y : Int16)
  /-- the constant `last` -/
  | last
  /-- weekday_indexed -/
  | wi (x : WI)
  /-- weekday_last -/
  | wl (wd : UInt8)
  /-- year_month -/
  | ym (y : Int16) (m : UInt8)
  /-- month_day -/
  | md (m d : UInt8)
  /-- month_day_last -/
  | ml (m : UInt8)
  /-- month_weekday -/
  | mw (m : UInt8) (x : WI)
  /-- month_weekday_last -/
  | mwl (m wd : UInt8)
  /-- year_month_day -/
  | ymd (y : Int16) (m d : UInt8)
  /-- year_month_day_last -/
  | yml (y : Int16) (m : UInt8)
  /-- year_month_weekday -/
  | ymw (y : Int16) (m : UInt8) (x : WI)
  /-- year_month_weekday_last -/
  | ymwl (y : Int16) (m wd : UInt8)
  deriving DecidableEq, Repr

/-- The overloads of `operator/`, date.h:3184-3475, and the built-in division of two `int`s.  `none`: no
overload fits, the expression does not compile (or, for two `int`s, the quotient is undefined).
Overloads that only call another one are written with the result of that call. -/
def slash : Obj → Obj → Option Obj
  | .int a, .int b =>                                  -- built-in
    if b = 0 ∨ (a = -2147483648 ∧ b = -1) then none else some (.int (a.tdiv b))
  | .year y, .month m => some (.ym y m)                -- 3186-3191
  | .year y, .int m => some (.ym y (monthInt m))       -- 3193-3198
  | .month m, .day d => some (.md m d)                 -- 3202-3207
  | .day d, .month m => some (.md m d)                 -- 3209-3214
  | .month m, .int d => some (.md m (dayInt d))        -- 3216-3221
  | .int m, .day d => some (.md (monthInt m) d)        -- 3223-3228
  | .day d, .int m => some (.md (monthInt m) d)        -- 3230
  | .month m, .last => some (.ml m)                    -- 3234-3239
  | .last, .month m => some (.ml m)                    -- 3241-3246
  | .int m, .last => some (.ml (monthInt m))           -- 3248-3253
  | .last, .int m => some (.ml (monthInt m))           -- 3255-3260
  | .month m, .wi x => some (.mw m x)                  -- 3264-3269
  | .wi x, .month m => some (.mw m x)                  -- 3271-3276
  | .int m, .wi x => some (.mw (monthInt m) x)         -- 3278-3283
  | .wi x, .int m => some (.mw (monthInt m) x)         -- 3285-3290
  | .month m, .wl w => some (.mwl m w)                 -- 3294-3299
  | .wl w, .month m => some (.mwl m w)                 -- 3301-3306
  | .int m, .wl w => some (.mwl (monthInt m) w)        -- 3308-3313
  | .wl w, .int m => some (.mwl (monthInt m) w)        -- 3315-3320
  | .ym y m, .day d => some (.ymd y m d)               -- 3324-3329
  | .ym y m, .int d => some (.ymd y m (dayInt d))      -- 3331-3336
  | .year y, .md m d => some (.ymd y m d)              -- 3338-3343
  | .int y, .md m d => some (.ymd (year y) m d)        -- 3345-3350
  | .md m d, .year y => some (.ymd y m d)              -- 3352-3357
  | .md m d, .int y => some (.ymd (year y) m d)        -- 3359-3364
  | .ym y m, .last => some (.yml y m)                  -- 3368-3373
  | .year y, .ml m => some (.yml y m)                  -- 3375-3380
  | .int y, .ml m => some (.yml (year y) m)            -- 3382-3387
  | .ml m, .year y => some (.yml y m)                  -- 3389-3394
  | .ml m, .int y => some (.yml (year y) m)            -- 3396-3401
  | .ym y m, .wi x => some (.ymw y m x)                -- 3405-3410
  | .year y, .mw m x => some (.ymw y m x)              -- 3412-3417
  | .int y, .mw m x => some (.ymw (year y) m x)        -- 3419-3424
  | .mw m x, .year y => some (.ymw y m x)              -- 3426-3431
  | .mw m x, .int y => some (.ymw (year y) m x)        -- 3433-3438
  | .ym y m, .wl w => some (.ymwl y m w)               -- 3442-3447
  | .year y, .mwl m w => some (.ymwl y m w)            -- 3449-3454
  | .int y, .mwl m w => some (.ymwl (year y) m w)      -- 3456-3461
  | .mwl m w, .year y => some (.ymwl y m w)            -- 3463-3468
  | .mwl m w, .int y => some (.ymwl (year y) m w)      -- 3470-3475
  | _, _ => none

/-! ### Comparisons -/

/-- A class with `operator==` and `operator<`; the other four operators are written with them in the
same way in every class: `!=` is `!(x == y)`, `>` is `y < x`, `<=` is `!(y < x)`, `>=` is `!(x < y)`.
Used for the comparisons from day (date.h:1359-1393) to year_month_weekday_last (3113-3124). -/
structure Cmp (α : Type) where
  eq : α → α → Bool
  lt : α → α → Bool

/-- operator!=, date.h:1365-1369, 1479-1483, 1598-1602, 2043-2047, 2178-2182, 2246-2250, 2504-2508,
2714-2718. -/
def Cmp.ne {α : Type} (c : Cmp α) (x y : α) : Bool := !(c.eq x y)

/-- operator>, date.h:1377-1381, 1491-1495, 1610-1614, 2057-2061, 2192-2196, 2258-2262, 2518-2522,
2730-2734. -/
def Cmp.gt {α : Type} (c : Cmp α) (x y : α) : Bool := c.lt y x

/-- operator<=, date.h:1383-1387, 1497-1501, 1616-1620, 2063-2067, 2198-2202, 2264-2268, 2524-2528,
2736-2740. -/
def Cmp.le {α : Type} (c : Cmp α) (x y : α) : Bool := !(c.lt y x)

/-- operator>=, date.h:1389-1393, 1503-1507, 1622-1626, 2069-2073, 2204-2208, 2270-2274, 2530-2534,
2742-2746. -/
def Cmp.ge {α : Type} (c : Cmp α) (x y : α) : Bool := !(c.lt x y)

/-- day, date.h:1359-1363 and 1371-1375. -/
def dayCmp : Cmp UInt8 := ⟨fun x y => decide (val x = val y), fun x y => decide (val x < val y)⟩

/-- month, date.h:1473-1477 and 1485-1489; month_day_last, 2240-2244 and 2252-2256. -/
def monthCmp : Cmp UInt8 := ⟨fun x y => decide (val x = val y), fun x y => decide (val x < val y)⟩

/-- year, date.h:1592-1596 and 1604-1608. -/
def yearCmp : Cmp Int16 :=
  ⟨fun x y => decide (x.toInt = y.toInt), fun x y => decide (x.toInt < y.toInt)⟩

/-- year_month, date.h:2037-2041 and 2049-2055. -/
def ymCmp : Cmp YM := ⟨fun x y => yearCmp.eq x.y y.y && monthCmp.eq x.m y.m, YM.lt⟩

/-- month_day. date.h:535-539. -/
structure MD where
  m : UInt8
  d : UInt8
  deriving DecidableEq, Repr

/-- month_day, date.h:2172-2176 and 2184-2190. -/
def mdCmp : Cmp MD :=
  ⟨fun x y => monthCmp.eq x.m y.m && dayCmp.eq x.d y.d,
   fun x y => if monthCmp.lt x.m y.m then true else if monthCmp.gt x.m y.m then false
     else dayCmp.lt x.d y.d⟩

/-- year_month_day_last, date.h:2498-2502 and 2510-2516: the year and the month of the
month_day_last. -/
def ymlCmp : Cmp YM :=
  ⟨fun x y => yearCmp.eq x.y y.y && monthCmp.eq x.m y.m,
   fun x y => if yearCmp.lt x.y y.y then true else if yearCmp.gt x.y y.y then false
     else monthCmp.lt x.m y.m⟩

/-- year_month_day, date.h:2708-2712 and 2720-2728. -/
def ymdCmp : Cmp YMD :=
  ⟨fun x y => yearCmp.eq x.y y.y && monthCmp.eq x.m y.m && dayCmp.eq x.d y.d, YMD.lt⟩

/-- operator==(weekday, weekday), date.h:1737-1741. -/
def weekdayEq (x y : UInt8) : Bool := x == y

/-- operator==(weekday_indexed, weekday_indexed), date.h:1935-1939. -/
def WI.eq (x y : WI) : Bool := weekdayEq x.weekday y.weekday && decide (val x.idx = val y.idx)

/-- operator==(month_weekday, month_weekday), date.h:2322-2326. -/
def monthWeekdayEq (x y : UInt8 × WI) : Bool := monthCmp.eq x.1 y.1 && x.2.eq y.2

/-- operator==(month_weekday_last, month_weekday_last), date.h:2381-2385, with weekday_last,
1953-1957. -/
def monthWeekdayLastEq (x y : UInt8 × UInt8) : Bool := monthCmp.eq x.1 y.1 && weekdayEq x.2 y.2

/-- operator==(year_month_weekday, year_month_weekday), date.h:2954-2959. -/
def ymwEq (x y : Int16 × UInt8 × WI) : Bool :=
  yearCmp.eq x.1 y.1 && monthCmp.eq x.2.1 y.2.1 && x.2.2.eq y.2.2

/-- operator==(year_month_weekday_last, year_month_weekday_last), date.h:3113-3118. -/
def ymwlEq (x y : Int16 × UInt8 × UInt8) : Bool :=
  yearCmp.eq x.1 y.1 && monthCmp.eq x.2.1 y.2.1 && weekdayEq x.2.2 y.2.2

/-! ### Increments -/

/-- day::operator++, date.h:1350: `++d_` on an `unsigned char`. -/
def dayInc (d : UInt8) : UInt8 := asUchar (uns (val d + 1))

/-- day::operator--, date.h:1352. -/
def dayDec (d : UInt8) : UInt8 := asUchar (uns (val d - 1))

/-- operator-(day, days), date.h:1414-1418. -/
def dayMinusDays (x : UInt8) (n : Int) : Res UInt8 := do
  let n ← int (-n)
  pure (dayPlus x n)

/-- month::operator++, date.h:1451 and 1456-1461. -/
def monthInc (m : UInt8) : UInt8 := monthPlus m 1

/-- month::operator--, date.h:1453 and 1463-1468. -/
def monthDec (m : UInt8) : Res UInt8 := monthMinusMonths m 1

/-- year::operator++, date.h:1569: `++y_` on a `short`. -/
def yearInc (y : Int16) : Int16 := year (y.toInt + 1)

/-- year::operator--, date.h:1571. -/
def yearDec (y : Int16) : Int16 := year (y.toInt - 1)

/-- year::operator-, date.h:1575. -/
def yearNeg (y : Int16) : Int16 := year (-y.toInt)

/-- operator-(year, years), date.h:1646-1650. -/
def yearMinusYears (y : Int16) (n : Int) : Res Int16 := do
  let r ← int (y.toInt - n)
  pure (year r)

/-- operator-(year, year), date.h:1628-1632. -/
def yearMinus (x y : Int16) : Res Int := int (x.toInt - y.toInt)

/-- weekday::operator++, date.h:1706 and 1711-1716. -/
def weekdayInc (w : UInt8) : UInt8 := weekdayPlus w 1

/-- weekday::operator--, date.h:1708 and 1718-1723. -/
def weekdayDec (w : UInt8) : Res UInt8 := weekdayMinusDays w 1

/-! ### Months and years added to the other kinds of date -/

/-- operator+ and operator- of a year_month, year_month_day_last, year_month_weekday or
year_month_weekday_last and months: each computes with the year and the month and puts the other part
back, date.h:2092-2097, 2560-2582, 2980-3002, 3139-3162. -/
def plusMonths {α : Type} (x : Int16 × UInt8 × α) (n : Int) : Res (Int16 × UInt8 × α) := do
  let ym ← (YM.mk x.1 x.2.1).plus n
  pure (ym.y, ym.m, x.2.2)

/-- The operators `- months`, which negate the duration and add it, as in date.h:2092-2097. -/
@[inherit_doc plusMonths]
def minusMonths {α : Type} (x : Int16 × UInt8 × α) (n : Int) : Res (Int16 × UInt8 × α) := do
  let n ← int (-n)
  plusMonths x n

/-- The same with years, date.h:2106-2122, 2584-2603, 3004-3023, 3164-3182. -/
def plusYears {α : Type} (x : Int16 × UInt8 × α) (n : Int) : Res (Int16 × UInt8 × α) := do
  let y ← yearPlus x.1 n
  pure (y, x.2.1, x.2.2)

/-- The operators `- years`, which negate the duration and add it, as in date.h:2118-2122. -/
@[inherit_doc plusYears]
def minusYears {α : Type} (x : Int16 × UInt8 × α) (n : Int) : Res (Int16 × UInt8 × α) := do
  let n ← int (-n)
  plusYears x n

end Gul14.Date
