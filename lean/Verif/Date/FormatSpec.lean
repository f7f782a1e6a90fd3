import Verif.Date.Spec
import Verif.Date.TextSpec

/-!
# Specification of format: what each conversion says about a date and a time

The meaning of the conversions as in the C++ standard ([time.format]) and ISO 8601, in terms of the
calendar of `Spec.lean`.  Nothing here refers to the code.
-/
namespace Gul14.Spec.DateFormat
open Gul14.Spec.Calendar Gul14.Spec.DateText

/-- std::tm. -/
structure Tm where
  sec : Int := 0
  min : Int := 0
  hour : Int := 0
  mday : Int := 0
  mon : Int := 0
  year : Int := 0
  wday : Int := 0
  yday : Int := 0
  deriving DecidableEq, Repr

/-- The facet `std::time_put<char>` of a locale: the text for the conversion `%`, an optional modifier
`E` or `O`, and a character. -/
structure TimePut where
  put : Tm → Option Char → Char → List Char

/-! ### The parts of a format -/

/-- A character that stands for itself, or a conversion `%c`, `%Ec`, `%Oc`. -/
inductive Item where
  | lit (c : Char)
  | conv (md : Option Char) (c : Char)
  deriving DecidableEq, Repr

def items : List Char → List Item
  | [] => []
  | ['%'] => [.lit '%']
  | ['%', c] => if c = 'E' ∨ c = 'O' then [.lit '%', .lit c] else [.conv none c]
  | '%' :: c :: d :: r =>
    if c = 'E' ∨ c = 'O' then .conv (some c) d :: items r else .conv none c :: items (d :: r)
  | c :: r => .lit c :: items r

/-! ### What is formatted -/

structure Time where
  hour : Nat
  min : Nat
  sec : Nat
  frac : Nat
  deriving DecidableEq, Repr

/-- A date (with its day number), a time with `w` fractional digits, the abbreviation of the time zone
and its offset in seconds; everything may be absent. -/
structure Subject where
  date : Option (Int × Date)
  w : Nat
  time : Option Time
  zone : Option (List Char)
  offset : Option Int

/-- The conversions that say something about the date. -/
def usesDate : Option Char → Char → Bool
  | none, c => c ∈ ['a', 'A', 'b', 'B', 'h', 'c', 'x', 'C', 'd', 'e', 'D', 'F', 'g', 'G', 'm', 'u', 'U',
      'V', 'w', 'W', 'y', 'Y']
  | some 'E', c => c ∈ ['c', 'x', 'C', 'y', 'Y', 'w']
  | some 'O', c => c ∈ ['d', 'e', 'm', 'u', 'U', 'V', 'w', 'W', 'y']
  | _, _ => false

/-- The conversions that say something about the time. -/
def usesTime : Option Char → Char → Bool
  | none, c => c ∈ ['c', 'H', 'I', 'M', 'p', 'Q', 'q', 'r', 'R', 'S', 'T', 'X']
  | some 'E', c => c ∈ ['c', 'X']
  | some 'O', c => c ∈ ['H', 'I', 'M', 'S']
  | _, _ => false

/-- The conversion asks for something that is absent. -/
def Missing (x : Subject) : Item → Prop
  | .lit _ => False
  | .conv md c => (usesDate md c = true ∧ x.date = none) ∨ (usesTime md c = true ∧ x.time = none) ∨
      (c = 'z' ∧ x.offset = none) ∨ (md = none ∧ c = 'Z' ∧ x.zone = none) ∨
      (md = none ∧ c = 'j' ∧ x.date = none ∧ x.time = none)

/-! ### Meaning of the conversions of a date -/

/-- How many of the days from `a` to `b` are weekday `wd`. -/
def countWeekday (wd : Nat) (a b : Int) : Nat :=
  ((List.range (b + 1 - a).toNat).filter fun (i : Nat) => dayOfWeek (a + i) = wd).length

/-- The day number of the first of January. -/
def NewYear (y : Int) (n : Int) : Prop := DayOf n ⟨y, 1, 1⟩

/-- ISO 8601: a week goes from Monday to Sunday and belongs to the year in which its Thursday lies; it
is counted by the Thursdays of that year. -/
def IsoWeek (n : Int) (year : Int) (week : Nat) : Prop :=
  ∃ th ny : Int, ∃ m d, dayOfWeek th = 4 ∧ n - 3 ≤ th ∧ th ≤ n + 3 ∧ DayOf th ⟨year, m, d⟩ ∧
    NewYear year ny ∧ week = countWeekday 4 ny th

/-- A year: sign, at least four digits, and no more than necessary. -/
def YearText (y : Int) (t : List Char) : Prop :=
  ∃ s k, 4 ≤ k ∧ Digits k y.natAbs s ∧ (4 < k → s.head? ≠ some '0') ∧
    t = if y < 0 then '-' :: s else s

/-- A number with sign, at least `k` digits, and no more than necessary. -/
def AtLeast (k : Nat) (v : Int) (t : List Char) : Prop :=
  ∃ s j, k ≤ j ∧ Digits j v.natAbs s ∧ (k < j → s.head? ≠ some '0') ∧
    t = if v < 0 then '-' :: s else s

/-- The conversion as it stands in the format. -/
def Verbatim (md : Option Char) (c : Char) (t : List Char) : Prop := t = '%' :: (md.toList ++ [c])

/-- `mm/dd/yy`. -/
def SlashDate (d : Date) (t : List Char) : Prop :=
  ∃ a b c, t = a ++ '/' :: (b ++ '/' :: c) ∧ Digits 2 d.month a ∧ Digits 2 d.day b ∧
    Digits 2 (d.year.natAbs % 100) c

/-- `yyyy-mm-dd`. -/
def IsoDate (d : Date) (t : List Char) : Prop :=
  ∃ a b c, t = a ++ '-' :: (b ++ '-' :: c) ∧ YearText d.year a ∧ Digits 2 d.month b ∧ Digits 2 d.day c

/-- The date in the structure `tm`: months from 0, years from 1900, weekday, days since the first of
January (day number `ny`). -/
def dateTm (n : Int) (d : Date) (ny : Int) : Tm :=
  { mday := d.day, mon := d.month - 1, year := d.year - 1900, wday := dayOfWeek n, yday := n - ny }

/-- The conversions that use the date, and not the time: day number `n`, date `d`. -/
def SaysDate (loc : TimePut) (n : Int) (d : Date) (md : Option Char) (c : Char) (t : List Char) : Prop :=
  match md, c with
  | none, 'Y' => YearText d.year t
  | none, 'C' => AtLeast 2 (d.year / 100) t
  | none, 'y' => Digits 2 (d.year.natAbs % 100) t
  | none, 'm' => Digits 2 d.month t
  | none, 'd' => Digits 2 d.day t
  | none, 'e' => if d.day < 10 then ∃ s, t = ' ' :: s ∧ Digits 1 d.day s else Digits 2 d.day t
  | none, 'D' => SlashDate d t
  | none, 'F' => IsoDate d t
  | none, 'G' => ∃ g v, IsoWeek n g v ∧ YearText g t
  | none, 'g' => ∃ g v, IsoWeek n g v ∧ Digits 2 (g.natAbs % 100) t
  | none, 'V' => ∃ g v, IsoWeek n g v ∧ Digits 2 v t
  | none, 'U' => ∃ ny, NewYear d.year ny ∧ Digits 2 (countWeekday 0 ny n) t
  | none, 'W' => ∃ ny, NewYear d.year ny ∧ Digits 2 (countWeekday 1 ny n) t
  | none, 'w' => Digits 1 (dayOfWeek n) t
  | none, 'u' => Digits 1 (if dayOfWeek n = 0 then 7 else dayOfWeek n) t
  | none, 'a' | none, 'A' => ∃ tm : Tm, tm.wday = dayOfWeek n ∧ t = loc.put tm none c
  | none, 'b' | none, 'B' | none, 'h' => ∃ tm : Tm, tm.mon = d.month - 1 ∧ t = loc.put tm none c
  | _, 'x' => ∃ ny, NewYear d.year ny ∧ t = loc.put (dateTm n d ny) md c
  | _, 'Y' | _, 'C' | _, 'y' => ∃ tm : Tm, tm.year = d.year - 1900 ∧ t = loc.put tm md c
  | some 'O', 'd' | some 'O', 'e' => ∃ tm : Tm, tm.mday = d.day ∧ t = loc.put tm md c
  | some 'O', 'm' => ∃ tm : Tm, tm.mon = d.month - 1 ∧ t = loc.put tm md c
  | some 'O', 'u' | some 'O', 'w' => ∃ tm : Tm, tm.wday = dayOfWeek n ∧ t = loc.put tm md c
  | some 'O', 'U' | some 'O', 'V' | some 'O', 'W' => ∃ (tm : Tm) (ny : Int), NewYear d.year ny ∧
      tm.year = d.year - 1900 ∧ tm.wday = dayOfWeek n ∧ tm.yday = n - ny ∧ t = loc.put tm md c
  | _, _ => Verbatim md c t

/-! ### Meaning of the conversions of a time -/

/-- The hour on a twelve-hour clock. -/
def hour12 (h : Nat) : Nat := if h % 12 = 0 then 12 else h % 12

/-- Seconds with `w` fractional digits. -/
def Seconds (w : Nat) (x : Time) (t : List Char) : Prop :=
  ∃ a b, t = a ++ b ∧ Digits 2 x.sec a ∧ if w = 0 then b = [] else ∃ s, b = '.' :: s ∧ Digits w x.frac s

def unitPrefix (w : Nat) : List Char :=
  match w with
  | 0 => []
  | 1 => ['d']
  | 2 => ['c']
  | 3 => ['m']
  | 6 => ['µ']
  | 9 => ['n']
  | 12 => ['p']
  | 15 => ['f']
  | 18 => ['a']
  | _ => '[' :: '1' :: '/' :: '1' :: (List.replicate w '0' ++ [']'])

/-- The conversions that use the time, and not the date. -/
def SaysTime (loc : TimePut) (w : Nat) (x : Time) (md : Option Char) (c : Char) (t : List Char) : Prop :=
  match md, c with
  | none, 'H' => AtLeast 2 x.hour t
  | none, 'I' => Digits 2 (hour12 x.hour) t
  | none, 'M' => Digits 2 x.min t
  | none, 'S' => Seconds w x t
  | none, 'R' => ∃ a b, t = a ++ ':' :: b ∧ AtLeast 2 x.hour a ∧ Digits 2 x.min b
  | none, 'T' => ∃ a b c, t = a ++ ':' :: (b ++ ':' :: c) ∧ AtLeast 2 x.hour a ∧ Digits 2 x.min b ∧
      Seconds w x c
  | none, 'Q' => Numeral ((x.hour * 3600 + x.min * 60 + x.sec) * 10 ^ w + x.frac) t
  | none, 'q' => t = unitPrefix w ++ ['s']
  | none, 'p' => ∃ tm : Tm, tm.hour = x.hour ∧ t = loc.put tm none c
  | none, 'r' => ∃ tm : Tm, tm.hour = x.hour ∧ tm.min = x.min ∧ tm.sec = x.sec ∧ t = loc.put tm none c
  | _, 'X' => t = loc.put { hour := x.hour, min := x.min, sec := x.sec } md c
  | some 'O', 'H' | some 'O', 'I' => ∃ tm : Tm, tm.hour = x.hour ∧ t = loc.put tm md c
  | some 'O', 'M' => ∃ tm : Tm, tm.min = x.min ∧ t = loc.put tm md c
  | some 'O', 'S' => ∃ tm : Tm, tm.sec = x.sec ∧ t = loc.put tm md c
  | _, _ => Verbatim md c t

/-- `+hhmm` or `+hh:mm`; seconds are dropped. -/
def OffsetText (colon : Bool) (sec : Int) (t : List Char) : Prop :=
  let m := sec.natAbs / 60
  ∃ a b, AtLeast 2 (m / 60 : Nat) a ∧ Digits 2 (m % 60) b ∧
    t = (if sec ≤ -60 then '-' else '+') :: (a ++ ((if colon then [':'] else []) ++ b))

/-- What the text of one item of the format says. -/
def Says (loc : TimePut) (x : Subject) : Item → List Char → Prop
  | .lit c, t => t = [c]
  | .conv md c, t =>
    if usesDate md c && usesTime md c then
      ∃ n d tm ny, x.date = some (n, d) ∧ x.time = some tm ∧ NewYear d.year ny ∧
        t = loc.put { dateTm n d ny with sec := tm.sec, min := tm.min, hour := tm.hour } md c
    else if usesDate md c then ∃ n d, x.date = some (n, d) ∧ SaysDate loc n d md c t
    else if usesTime md c then ∃ tm, x.time = some tm ∧ SaysTime loc x.w tm md c t
    else if c = 'z' then ∃ o, x.offset = some o ∧ OffsetText md.isSome o t
    else if md = none ∧ c = 'Z' then x.zone = some t
    else if md = none ∧ c = 'j' then
      (∃ n d ny, x.date = some (n, d) ∧ NewYear d.year ny ∧ Digits 3 (n - ny + 1).toNat t) ∨
      (x.date = none ∧ ∃ tm, x.time = some tm ∧ AtLeast 3 (tm.hour / 24 : Nat) t)
    else if md = none ∧ c = 'n' then t = ['\n']
    else if md = none ∧ c = 't' then t = ['\t']
    else if md = none ∧ c = '%' then t = ['%']
    else Verbatim md c t

/-- The texts of the items, one after the other. -/
def SaysAll (loc : TimePut) (x : Subject) : List Item → List Char → Prop
  | [], t => t = []
  | i :: is, t => ∃ a b, t = a ++ b ∧ Says loc x i a ∧ SaysAll loc x is b

/-- `x` is the time of `c ≥ 0` ticks of 1/T second, with `w` fractional digits; what is smaller is
dropped. -/
def TimeOf (T w : Nat) (c : Int) (x : Time) : Prop :=
  x.min < 60 ∧ x.sec < 60 ∧ x.frac < 10 ^ w ∧
  ((x.hour * 3600 + x.min * 60 + x.sec) * 10 ^ w + x.frac) * T ≤ c * 10 ^ w ∧
  c * 10 ^ w < ((x.hour * 3600 + x.min * 60 + x.sec) * 10 ^ w + x.frac + 1) * T

/-- The conversions that do not do what they should for some years and long durations. -/
def Excluded (x : Subject) : Item → Prop
  | .lit _ => False
  | .conv md c => md = none ∧
      ((c = 'D' ∧ ∃ n d, x.date = some (n, d) ∧ d.year < 0) ∨
       (c = 'F' ∧ ∃ n d, x.date = some (n, d) ∧ -1000 < d.year ∧ d.year < 0) ∨
       (c = 'I' ∧ ∃ t, x.time = some t ∧ 24 ≤ t.hour))

/-! ### Negative durations -/

/-- The conversions of a time with separate fields: the first of them in the format has the sign. -/
def SignedConv : Option Char → Char → Bool
  | none, c => c ∈ ['H', 'I', 'M', 'S']
  | some 'O', c => c ∈ ['H', 'I', 'M', 'S']
  | _, _ => false

/-- The texts for a negative duration, given those for its absolute value: `%T` and `%Q` always have a sign, and so
has the first of the other conversions (`first`: none of them has been written yet). -/
def withSigns (first : Bool) : List Item → List (List Char) → List Char
  | .conv md c :: is, t :: ts =>
    if SignedConv md c then (if first then '-' :: t else t) ++ withSigns false is ts
    else if md = none ∧ (c = 'T' ∨ c = 'Q') then '-' :: (t ++ withSigns first is ts)
    else t ++ withSigns first is ts
  | .lit _ :: is, t :: ts => t ++ withSigns first is ts
  | _, _ => []

end Gul14.Spec.DateFormat
