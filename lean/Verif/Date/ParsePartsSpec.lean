import Verif.Date.ParseWordsSpec

/-!
# Specification of parse for years, months, days, weekdays, months of a year and days of a month

Nothing here refers to the code.
-/
namespace Gul14.Spec.DateParse
open Gul14.Spec.Calendar Gul14.Spec.DateText Gul14.Spec.DateFormat

/-- What a text says about a day; not all of it needs to be said. -/
structure Parts where
  year : Int
  month : Int
  day : Int
  weekday : Nat

/-- The conversions that are considered: parts of a date, `%` and white space. -/
def partLetters : List Char := ['Y', 'y', 'C', 'm', 'b', 'B', 'h', 'd', 'e', 'D', 'F', 'u', 'w', 'a', 'A', '%', 'n']

/-- The parts of a format that are considered. -/
def Partly : Item → Prop
  | .lit c => c ≠ '%' ∧ c.toNat ≠ 0
  | .conv md c => md = none ∧ c ∈ partLetters

/-- The conversions that say the month, the day of the month, the weekday.  (`YearGiven`: the year.) -/
def MonthGiven (L : List Char) : Prop := ∃ c ∈ L, c ∈ ['m', 'b', 'B', 'h', 'F', 'D']
def DayGiven (L : List Char) : Prop := ∃ c ∈ L, c ∈ ['d', 'e', 'F', 'D']
def WeekdayGiven (L : List Char) : Prop := ∃ c ∈ L, c ∈ ['u', 'w', 'a', 'A']

/-- The text `a` of the conversion `c` says what is in `x`; a month or day of zero says nothing. -/
def SaysPart (W : Words) (x : Parts) (_ : Option Char) (c : Char) (a : List Char) : Prop :=
  match c with
  | 'Y' => SNum 4 x.year a
  | 'y' => Num 2 (x.year.natAbs % 100) a
  | 'C' => SNum 2 (x.year / 100) a
  | 'm' => ∃ v, SNum 2 v a ∧ (v = 0 ∨ v = x.month)
  | 'b' | 'B' | 'h' => ∃ m : Nat, W.month m a ∧ x.month = m
  | 'd' | 'e' => ∃ v, SNum 2 v a ∧ (v = 0 ∨ v = x.day)
  | 'F' => ∃ p q r m d, a = p ++ '-' :: (q ++ '-' :: r) ∧ SNum 4 x.year p ∧ Num 2 m q ∧ Num 2 d r ∧
      (m = 0 ∨ x.month = m) ∧ (d = 0 ∨ x.day = d)
  | 'D' => ∃ p q r m d, a = p ++ '/' :: (q ++ '/' :: r) ∧ Num 2 m p ∧ Num 2 d q ∧ SNum 2 (x.year.natAbs % 100 : Nat) r ∧
      (m = 0 ∨ x.month = m) ∧ (d = 0 ∨ x.day = d)
  | 'u' => Num 1 (if x.weekday = 0 then 7 else x.weekday) a
  | 'w' => Num 1 x.weekday a
  | 'a' | 'A' => W.weekday x.weekday a
  | '%' => a = ['%']
  | 'n' => ∃ s, a = [s] ∧ White s
  | _ => False

/-- If the conversions `L` say year, month and day, and these are a date, then the weekday is that of the date. -/
def Parts.Agree (x : Parts) (L : List Char) : Prop :=
  YearGiven L → MonthGiven L → DayGiven L →
    ∀ (n : Int) (m d : Nat), x.month = m → x.day = d → DayOf n ⟨x.year, m, d⟩ → x.weekday = dayOfWeek n

/-- The conversions that a value without a complete date can answer, `%` and white space. -/
def askLetters : List Char := ['Y', 'y', 'C', 'm', 'b', 'B', 'h', 'd', 'e', 'u', 'w', 'a', 'A', '%', 'n', 't']

/-- The conversions `L` say the year `y` so that it can be read: with four digits, or with two digits and the century, or with two digits alone
for the years 1969 to 2068.  (Two digits together with four digits are misread for the years -100, -200, ...) -/
def YearLegible (L : List Char) (y : Int) : Prop :=
  ('Y' ∈ L ∨ 'y' ∈ L) ∧ -9999 ≤ y ∧ y ≤ 9999 ∧ ('C' ∈ L → -9900 ≤ y) ∧
  ('y' ∈ L → 'C' ∈ L ∨ ('Y' ∈ L ∧ (0 ≤ y ∨ ¬ 100 ∣ y)) ∨ (1969 ≤ y ∧ y ≤ 2068))

end Gul14.Spec.DateParse
