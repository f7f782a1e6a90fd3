/-!
# The Gregorian calendar

The proleptic Gregorian calendar as everybody knows it: leap years, lengths of months, the next day,
and counting days from 1970-01-01 one by one.  Nothing here refers to the code.
-/
namespace Gul14.Spec.Calendar

/-- Divisible by four, but not by 100 unless by 400. -/
def Leap (y : Int) : Prop := 4 ∣ y ∧ (¬ 100 ∣ y ∨ 400 ∣ y)

instance (y : Int) : Decidable (Leap y) := by unfold Leap; infer_instance

/-- 30 days have September, April, June and November. -/
def monthLength (y : Int) (m : Nat) : Nat :=
  if m = 4 ∨ m = 6 ∨ m = 9 ∨ m = 11 then 30
  else if m = 2 then (if Leap y then 29 else 28)
  else 31

structure Date where
  year : Int
  month : Nat
  day : Nat
  deriving DecidableEq

def Date.Valid (x : Date) : Prop :=
  1 ≤ x.month ∧ x.month ≤ 12 ∧ 1 ≤ x.day ∧ x.day ≤ monthLength x.year x.month

instance (x : Date) : Decidable x.Valid := by unfold Date.Valid; infer_instance

/-- The day after. -/
def Date.next (x : Date) : Date :=
  if x.day < monthLength x.year x.month then ⟨x.year, x.month, x.day + 1⟩
  else if x.month < 12 then ⟨x.year, x.month + 1, 1⟩
  else ⟨x.year + 1, 1, 1⟩

/-- `DayOf n x`: counting day by day from 1970-01-01, forwards or backwards, one comes to the date `x`
after `n` days. -/
inductive DayOf : Int → Date → Prop
  | epoch : DayOf 0 ⟨1970, 1, 1⟩
  | next {n : Int} {x : Date} : DayOf n x → DayOf (n + 1) x.next
  | prev {n : Int} {x : Date} : x.Valid → DayOf n x.next → DayOf (n - 1) x

/-- The weekday of day `n`: 0 is Sunday, ..., 6 is Saturday.  Day 0 (1970-01-01) was a Thursday, and
after seven days the same weekday comes again. -/
def dayOfWeek (n : Int) : Nat := ((4 + n) % 7).toNat

/-- Day `n` is the `k`-th weekday `wd` of month `m` of year `y`: it is a day of that month and a `wd`,
and among the days of the month up to it there are `k` with weekday `wd`. -/
def NthWeekday (y : Int) (m wd k : Nat) (n : Int) : Prop :=
  ∃ d, DayOf n ⟨y, m, d⟩ ∧ dayOfWeek n = wd ∧
    ((List.range d).filter fun (i : Nat) => dayOfWeek (n - i) = wd).length = k

/-- Day `n` is the last weekday `wd` of month `m` of year `y`. -/
def LastWeekday (y : Int) (m wd : Nat) (n : Int) : Prop :=
  (∃ d, DayOf n ⟨y, m, d⟩) ∧ dayOfWeek n = wd ∧
    ∀ n' > n, dayOfWeek n' = wd → ¬ ∃ d, DayOf n' ⟨y, m, d⟩

/-- The months counted from January of year 0. -/
def monthNumber (y : Int) (m : Nat) : Int := 12 * y + m - 1

/-- The order of dates. -/
def Date.Before (x y : Date) : Prop :=
  x.year < y.year ∨ (x.year = y.year ∧ (x.month < y.month ∨ (x.month = y.month ∧ x.day < y.day)))

end Gul14.Spec.Calendar
