import Verif.Date.ParseSpec

/-!
# Formats with conversions of every kind

Which facets, formats and texts are considered when nothing is known about the kind of conversions in a format.
-/
namespace Gul14.Spec.DateParse.AnyFormat
open Gul14.Spec.DateText Gul14.Spec.DateFormat Gul14.Spec.DateParse

/-- The values of a broken-down time that the C standard allows, where the day may also be missing, and a year of four digits. -/
def Usual (tm : Tm) : Prop :=
  (0 ≤ tm.sec ∧ tm.sec ≤ 61) ∧ (0 ≤ tm.min ∧ tm.min ≤ 59) ∧ (0 ≤ tm.hour ∧ tm.hour ≤ 23) ∧ (0 ≤ tm.mday ∧ tm.mday ≤ 31) ∧
  (0 ≤ tm.mon ∧ tm.mon ≤ 11) ∧ (-1900 ≤ tm.year ∧ tm.year ≤ 8099) ∧ (0 ≤ tm.wday ∧ tm.wday ≤ 6)

/-- What is known of `std::time_get::get`: it produces such values, and takes characters from the beginning of the input.
(The half of the day, `%p`, is added to an hour of 1.) -/
def Sensible (get : Tm → List Char → List Char → Tm × List Char × Bool × Bool) : Prop :=
  ∀ tm fmt s, (Usual tm → (fmt.getLast? = some 'p' → tm.hour = 1) → Usual (get tm fmt s).1) ∧ ∃ taken, s = taken ++ (get tm fmt s).2.1

/-- The digits at the beginning are none, or a number between 1 and 7. -/
def Narrow (b : List Char) : Prop :=
  b.takeWhile isDigit = [] ∨ (1 ≤ value (b.takeWhile isDigit) ∧ value (b.takeWhile isDigit) ≤ 7)

/-- Each width in the format is between 1 and 7.  (After `%t` at the end of the input the conversion is not over, so that digits that
follow are a width.) -/
def Widths (fmt : List Char) : Prop :=
  ∀ a t b, fmt = a ++ '%' :: (t ++ b) → (∀ x ∈ t, x = 't') → Narrow b

/-- The texts that are considered for a format, with `w` decimal digits of a second. -/
def SafeFor (fmt : List Char) (w : Nat) (text : List Char) : Prop :=
  ('S' ∈ fmt ∨ 'T' ∈ fmt → SecondsFit w text) ∧ ('z' ∈ fmt → OffsetsComplete text)

end Gul14.Spec.DateParse.AnyFormat
