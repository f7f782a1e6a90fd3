import Verif.Date.Text
import Verif.Date.Partial

/-!
# Calendar values and durations as text

The text that operator<< writes to a stream without width and with default flags.  The abbreviated names of months
and weekdays (`%b`, `%a`) are those of a locale: a month uses the locale of the stream, a weekday the global one
(date.h:1541-1551, 1782-1792).
-/
namespace Gul14.Date.Parts
open Gul14.Spec.DateText

/-- The abbreviated names of the months 1 to 12 and of the weekdays 0 to 6. -/
structure Names where
  mon : Nat → List Char
  wd : Nat → List Char

/-- low_level_fmt(day), date.h:1423-1433. -/
def dayBase (d : UInt8) : List Char := pad 2 (dec d.toNat)

/-- low_level_fmt(month), date.h:1539-1551. -/
def monthBase (N : Names) (m : UInt8) : List Char := if monthOk m then N.mon m.toNat else dec m.toNat

/-- low_level_fmt(year), date.h:1655-1667. -/
def yearBase (y : Int16) : List Char :=
  if y.toInt < 0 then '-' :: pad 4 (dec y.toInt.natAbs) else pad 4 (dec y.toInt.natAbs)

/-- low_level_fmt(weekday), date.h:1780-1792. -/
def weekdayBase (N : Names) (w : UInt8) : List Char := if weekdayOk w then N.wd w.toNat else dec w.toNat

/-- low_level_fmt(weekday_indexed), date.h:1909-1914. -/
def wiBase (N : Names) (x : WI) : List Char := weekdayBase N x.weekday ++ '[' :: (dec x.idx.toNat ++ [']'])

/-- low_level_fmt(weekday_last), date.h:1968-1973. -/
def wlBase (N : Names) (w : UInt8) : List Char := weekdayBase N w ++ "[last]".toList

/-- low_level_fmt of the composed classes, date.h:2127-2133, 2213-2219, 2279-2284, 2337-2343, 2396-2402,
2539-2545, and the first lines of operator<< of year_month_day, 2748-2760, year_month_weekday, 2967-2974, and
year_month_weekday_last, 3126-3133.  A weekday itself is `.wl` without the suffix and is treated separately. -/
def base (N : Names) : Obj → List Char
  | .int n => decInt n
  | .last => "last".toList
  | .day d => dayBase d
  | .month m => monthBase N m
  | .year y => yearBase y
  | .wi x => wiBase N x
  | .wl w => wlBase N w
  | .ym y m => yearBase y ++ '/' :: monthBase N m
  | .md m d => monthBase N m ++ '/' :: dayBase d
  | .ml m => monthBase N m ++ "/last".toList
  | .mw m x => monthBase N m ++ '/' :: wiBase N x
  | .mwl m w => monthBase N m ++ '/' :: wlBase N w
  | .ymd y m d => decInt y.toInt ++ '-' :: (pad 2 (dec m.toNat) ++ '-' :: pad 2 (dec d.toNat))
  | .yml y m => yearBase y ++ '/' :: (monthBase N m ++ "/last".toList)
  | .ymw y m x => yearBase y ++ '/' :: (monthBase N m ++ '/' :: wiBase N x)
  | .ymwl y m w => yearBase y ++ '/' :: (monthBase N m ++ '/' :: wlBase N w)

/-- The name of the class in the note for values that are not ok, date.h:1444, 1562, 1677, 1925, 1984, 2144, 2230,
2295, 2354, 2413, 2556, 2763, 2976, 3135. -/
def className : Obj → String
  | .int _ => "int"
  | .last => "last_spec"
  | .day _ => "day"
  | .month _ => "month"
  | .year _ => "year"
  | .wi _ => "weekday_indexed"
  | .wl _ => "weekday_last"
  | .ym _ _ => "year_month"
  | .md _ _ => "month_day"
  | .ml _ => "month_day_last"
  | .mw _ _ => "month_weekday"
  | .mwl _ _ => "month_weekday_last"
  | .ymd _ _ _ => "year_month_day"
  | .yml _ _ => "year_month_day_last"
  | .ymw _ _ _ => "year_month_weekday"
  | .ymwl _ _ _ => "year_month_weekday_last"

/-- ok() of each class: date.h:1357, 1471, 1586-1590, 1885-1889, 1950, 2005, 2159-2170, 2237, 2316-2320, 2375-2379,
2492-2496, 2700-2706, 2923-2933, 3099-3103. -/
def objOk : Obj → Res Bool
  | .int _ | .last => pure true
  | .day d => pure (dayOk d)
  | .month m => pure (monthOk m)
  | .year y => pure (yearOk y)
  | .wi x => pure x.ok
  | .wl w => pure (weekdayOk w)
  | .ym y m => pure (YM.mk y m).ok
  | .md m d => pure (monthDayOk m d)
  | .ml m => pure (monthOk m)
  | .mw m x => pure (monthWeekdayOk m x)
  | .mwl m w => pure (monthWeekdayLastOk m w)
  | .ymd y m d => pure (YMD.mk y m d).ok
  | .yml y m => pure (yearOk y && monthOk m)
  | .ymw y m x => (YMWD.mk y m x.wd x.idx).ok
  | .ymwl y m w => pure (ymwdLastOk y m w)

/-- operator<< of the classes: the text and, if ok() is false, a note; 1437-1445, 1555-1563, 1671-1679, 1918-1926,
1977-1985, 2137-2145, 2223-2231, 2288-2296, 2347-2355, 2406-2414, 2549-2557, 2748-2765, 2967-2978, 3126-3137. -/
def objText (N : Names) (o : Obj) : Res (List Char) := do
  let ok ← objOk o
  pure (base N o ++ if ok then [] else (" is not a valid " ++ className o).toList)

/-- operator<<(weekday), date.h:1796-1805. -/
def weekdayText (N : Names) (w : UInt8) : List Char :=
  weekdayBase N w ++ if weekdayOk w then [] else " is not a valid weekday".toList

/-- operator== of each class. date.h:1360, 1474, 1593, 1738, 1936, 1954, 2038, 2173, 2241, 2323, 2382,
2499, 2709, 2955 and 3114. -/
def objEq : Obj → Obj → Bool
  | .day a, .day b => dayCmp.eq a b
  | .month a, .month b => monthCmp.eq a b
  | .year a, .year b => yearCmp.eq a b
  | .wi a, .wi b => a.eq b
  | .wl a, .wl b => weekdayEq a b
  | .ym y m, .ym y' m' => ymCmp.eq ⟨y, m⟩ ⟨y', m'⟩
  | .md m d, .md m' d' => mdCmp.eq ⟨m, d⟩ ⟨m', d'⟩
  | .ml m, .ml m' => monthCmp.eq m m'
  | .mw m x, .mw m' x' => monthWeekdayEq (m, x) (m', x')
  | .mwl m w, .mwl m' w' => monthWeekdayLastEq (m, w) (m', w')
  | .ymd y m d, .ymd y' m' d' => ymdCmp.eq ⟨y, m, d⟩ ⟨y', m', d'⟩
  | .yml y m, .yml y' m' => ymlCmp.eq ⟨y, m⟩ ⟨y', m'⟩
  | .ymw y m x, .ymw y' m' x' => ymwEq (y, m, x) (y', m', x')
  | .ymwl y m w, .ymwl y' m' w' => ymwlEq (y, m, w) (y', m', w')
  | _, _ => false

/-! ### Durations -/

/-- to_string_len, date.h:3972-3983; `fuel` bounds the digits. -/
def toStringLenGo : Nat → Nat → Nat → Nat
  | 0, _, r => r
  | fuel + 1, i, r => let i := i / 10; let r := r + 1; if i > 0 then toStringLenGo fuel i r else r

/-- to_string_len, date.h:3970-3981. -/
def toStringLen (i : Nat) : Nat := toStringLenGo (i + 1) i 0

/-- msl<N>(), date.h:3985-4007. -/
def mslGo : Nat → Nat → List Char
  | 0, n => [digit n]
  | fuel + 1, n => if n < 10 then [digit n] else mslGo fuel (n / 10) ++ [digit n]

/-- msl<N>(), date.h:3983-4005. -/
def mslNum (n : Nat) : List Char := mslGo n n

/-- The overloads of msl for the SI prefixes, date.h:4082-4226; numerator, denominator and text.  The text for
micro is the encoding of µ in UTF-8. -/
def prefixes : List ((Nat × Nat) × List Char) := [
  ((1, 10 ^ 18), ['a']), ((1, 10 ^ 15), ['f']), ((1, 10 ^ 12), ['p']), ((1, 10 ^ 9), ['n']),
  ((1, 10 ^ 6), [Char.ofNat 0xC2, Char.ofNat 0xB5]), ((1, 1000), ['m']), ((1, 100), ['c']), ((10, 1), ['d', 'a']),
  ((1, 10), ['d']), ((100, 1), ['h']), ((1000, 1), ['k']), ((10 ^ 6, 1), ['M']), ((10 ^ 9, 1), ['G']),
  ((10 ^ 12, 1), ['T']), ((10 ^ 15, 1), ['P']), ((10 ^ 18, 1), ['E'])]

/-- msl of a reduced std::ratio, date.h:4009-4036 and 4082-4226: the overload for a certain ratio is more
specialised than the general ones. -/
def msl (n d : Nat) : List Char :=
  match prefixes.lookup (n, d) with
  | some t => t
  | none => if d = 1 then '[' :: (mslNum n ++ [']']) else '[' :: (mslNum n ++ '/' :: (mslNum d ++ [']']))

/-- get_units, date.h:4227-4266. -/
def getUnits (n d : Nat) : List Char :=
  if d = 1 ∧ n = 1 then ['s']
  else if d = 1 ∧ n = 3600 then ['h']
  else if d = 1 ∧ n = 60 then ['m', 'i', 'n']
  else if d = 1 ∧ n = 86400 then ['d']
  else msl n d ++ ['s']

/-- operator<< of a duration with an integer count, date.h:7748-7757, with make_string, 4268-4320: std::to_string. -/
def durText (count : Int) (n d : Nat) : List Char := decInt count ++ getUnits n d

end Gul14.Date.Parts
