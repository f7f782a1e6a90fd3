import Verif.Date.FormatSpec

/-!
# Specification of parse: which formats determine a date, and what they say about a time

Nothing here refers to the code.  `FormatSpec.lean` says what the text of a conversion means.
-/
namespace Gul14.Spec.DateParse
open Gul14.Spec.Calendar Gul14.Spec.DateText Gul14.Spec.DateFormat

/-- The letters of the conversions in a format. -/
def letters (is : List Item) : List Char :=
  is.filterMap fun i => match i with
    | .lit _ => none
    | .conv _ c => some c

/-- Conversions that do not depend on the locale, and whose texts have as many characters as parse reads. -/
def plain : List Char :=
  ['Y', 'y', 'C', 'm', 'd', 'D', 'F', 'j', 'H', 'M', 'S', 'T', 'R', 'u', 'w', 'G', 'V', 'U', 'W', '%']

/-- The parts of a format that are considered: characters that stand for themselves (white space too), the
conversions `plain`, and `%z`, `%Ez`, `%Oz`. -/
def Readable : Item → Prop
  | .lit c => c ≠ '%' ∧ c.toNat ≠ 0
  | .conv md c => (md = none ∧ c ∈ plain) ∨ (c = 'z' ∧ (md = none ∨ md = some 'E' ∨ md = some 'O'))

/-- The conversions `L` say which year it is. -/
def YearGiven (L : List Char) : Prop := 'Y' ∈ L ∨ 'F' ∈ L ∨ 'y' ∈ L ∨ 'D' ∈ L

instance (L : List Char) : Decidable (YearGiven L) := by unfold YearGiven; infer_instance

/-- The conversions `L` say which date it is: year with month and day, or with the day of the year, or with
a week and a weekday; or year, week and weekday of ISO 8601. -/
def Determined (L : List Char) : Prop :=
  (YearGiven L ∧ ((('m' ∈ L ∨ 'F' ∈ L ∨ 'D' ∈ L) ∧ ('d' ∈ L ∨ 'F' ∈ L ∨ 'D' ∈ L)) ∨ 'j' ∈ L ∨
    (('u' ∈ L ∨ 'w' ∈ L) ∧ ('U' ∈ L ∨ 'W' ∈ L)))) ∨
  ('G' ∈ L ∧ 'V' ∈ L ∧ ('u' ∈ L ∨ 'w' ∈ L))

/-- The years `y` for which the text can be read: four digits, two digits of the century.  Two digits of the year without
the century or the full year stand for 1969 to 2068; with the full year it must not be the last year of a
century before the year 0. -/
def YearReadable (L : List Char) (n : Int) (y : Int) : Prop :=
  -9999 ≤ y ∧ y ≤ 9999 ∧
  ('G' ∈ L → ∀ g v, IsoWeek n g v → -9999 ≤ g ∧ g ≤ 9999) ∧
  ('C' ∈ L → -9900 ≤ y) ∧
  (('y' ∈ L ∨ 'D' ∈ L) → 'C' ∈ L ∨ (('Y' ∈ L ∨ 'F' ∈ L) ∧ (0 ≤ y ∨ ¬ 100 ∣ y)) ∨ (1969 ≤ y ∧ y ≤ 2068))

/-- What the conversions `L` say about a time of `t` ticks of 1/T second: hours, minutes, seconds; what is not
said is zero. -/
def told (L : List Char) (T : Nat) (t : Int) : Int :=
  (if 'H' ∈ L ∨ 'T' ∈ L ∨ 'R' ∈ L then t / (3600 * T) * (3600 * T) else 0) +
  (if 'M' ∈ L ∨ 'T' ∈ L ∨ 'R' ∈ L then t / (60 * T) % 60 * (60 * T) else 0) +
  (if 'S' ∈ L ∨ 'T' ∈ L then t % (60 * T) else 0)

/-- `r` is the multiple of `p` that is nearest to `v`, the even one if there are two. -/
def Nearest (p : Nat) (v r : Int) : Prop :=
  2 * (r * p - v).natAbs ≤ p ∧ (2 * (r * p - v).natAbs = p → r % 2 = 0)

/-- The conversions that format gets wrong are not used, or the year is not one of those. -/
def Writable (L : List Char) (y : Int) : Prop :=
  ('D' ∈ L → 0 ≤ y) ∧ ('F' ∈ L → 0 ≤ y ∨ y ≤ -1000)

/-- Ticks of 1/T second that are a whole number of decimal fractions of a second. -/
def Decimal (T : Nat) : Prop := T ≤ 10 ^ 17 ∧ ∃ k, k ≤ 18 ∧ T ∣ 10 ^ k

/-! ### What an accepted text says -/

/-- At least one and at most `M` digits, with value `v`. -/
def Num (M v : Nat) (s : List Char) : Prop := s ≠ [] ∧ s.length ≤ M ∧ s.all isDigit = true ∧ value s = v

/-- The same with an optional sign. -/
def SNum (M : Nat) (v : Int) (s : List Char) : Prop :=
  ∃ t k, Num M k t ∧ ((v = k ∧ (s = t ∨ s = '+' :: t)) ∨ (v = -(k : Int) ∧ s = '-' :: t))

/-- Digits with a decimal point among them or without: at most `M` characters, not none; `i` is the integral part and `f` the fraction, with `k` digits. -/
def DecText (M i f k : Nat) (s : List Char) : Prop :=
  s ≠ [] ∧ s.length ≤ M ∧ ∃ a b, a.all isDigit = true ∧ b.all isDigit = true ∧ value a = i ∧ value b = f ∧ b.length = k ∧
    ((s = a ∧ b = []) ∨ s = a ++ '.' :: b)

/-- An offset of `o` minutes: a sign, hours, minutes, with a colon if there is a modifier. -/
def OffText (md : Option Char) (o : Int) (s : List Char) : Prop :=
  ∃ g a b h m, s = g ++ (a ++ b) ∧ (g = [] ∨ g = ['+'] ∨ g = ['-']) ∧ Num 2 h a ∧ (md = none → a.length = 2) ∧
    ((b = [] ∧ m = 0) ∨ ∃ b', b = (if md.isSome then [':'] else []) ++ b' ∧ b'.length = 2 ∧ Num 2 m b') ∧
    o = (if g = ['-'] then -1 else 1) * (h * 60 + m)

def White (c : Char) : Prop := c = ' ' ∨ (9 ≤ c.toNat ∧ c.toNat ≤ 13)

/-- What a character of the format stands for: itself, or any white space. -/
def Literal (c : Char) (s : List Char) : Prop := (White c ∧ ∀ x ∈ s, White x) ∨ (¬ White c ∧ s = [c])

/-- The text is made of one piece for each item of the format, and a rest; `P` is what a piece has to be for a conversion. -/
def Split (P : Option Char → Char → List Char → Prop) : List Item → List Char → List Char → Prop
  | [], t, r => t = r
  | .lit c :: is, t, r => ∃ a b, t = a ++ b ∧ Literal c a ∧ Split P is b r
  | .conv md c :: is, t, r => ∃ a b, t = a ++ b ∧ P md c a ∧ Split P is b r

/-- What a text says: day `n`, with the date `d`, in week `k` of the ISO year `g`, the day `j` of the year; `h` hours, `m` minutes
and `s` ticks; an offset of `o` minutes. -/
structure Claim where
  n : Int
  d : Date
  g : Int
  k : Nat
  j : Nat
  h : Nat
  m : Nat
  s : Int
  o : Int

/-- Day `n` is the `j`-th day of the year `y`. -/
def DayInYear (y : Int) (j : Nat) (n : Int) : Prop := ∃ ny m d, NewYear y ny ∧ n = ny + j - 1 ∧ DayOf n ⟨y, m, d⟩

/-- These fit together: the day is in the week, provided that the year has so many weeks, and it is that day of the year, provided that the
year has so many days. -/
def Claim.Consistent (x : Claim) : Prop :=
  DayOf x.n x.d ∧ ((∃ n, IsoWeek n x.g x.k) → IsoWeek x.n x.g x.k) ∧
  ((∃ n, DayInYear x.d.year x.j n) → DayInYear x.d.year x.j x.n)

/-- The day is in that week and it is that day of the year. -/
def Claim.Exact (x : Claim) : Prop := DayOf x.n x.d ∧ IsoWeek x.n x.g x.k ∧ DayInYear x.d.year x.j x.n

/-- A number of seconds: `s` ticks of 1/T second are less than one tick off (two ticks if there are more than 2^57). -/
def SecText (T M : Nat) (s : Int) (a : List Char) : Prop :=
  ∃ i f k, DecText M i f k a ∧
    (s * 10 ^ k - ((i * 10 ^ k + f) * T : Nat)).natAbs < (if s < 2 ^ 57 then 1 else 2) * 10 ^ k

/-- The text `a` of the conversion `c` agrees with `x`: the numbers that it contains are those of `x`, except that months and days may be
zero.  The unit of time is 1/T second, with `w` decimal digits. -/
def Agrees (T w : Nat) (x : Claim) (md : Option Char) (c : Char) (a : List Char) : Prop :=
  match c with
  | 'Y' => SNum 4 x.d.year a
  | 'y' => Num 2 (x.d.year.natAbs % 100) a
  | 'C' => SNum 2 (x.d.year / 100) a
  | 'm' => ∃ v, SNum 2 v a ∧ (v = 0 ∨ v = x.d.month)
  | 'd' => ∃ v, SNum 2 v a ∧ (v = 0 ∨ v = x.d.day)
  | 'F' => ∃ p q r m d, a = p ++ '-' :: (q ++ '-' :: r) ∧ SNum 4 x.d.year p ∧ Num 2 m q ∧ Num 2 d r ∧
      (m = 0 ∨ m = x.d.month) ∧ (d = 0 ∨ d = x.d.day)
  | 'D' => ∃ p q r m d, a = p ++ '/' :: (q ++ '/' :: r) ∧ Num 2 m p ∧ Num 2 d q ∧ SNum 2 (x.d.year.natAbs % 100 : Nat) r ∧
      (m = 0 ∨ m = x.d.month) ∧ (d = 0 ∨ d = x.d.day)
  | 'j' => Num 3 x.j a
  | 'u' => Num 1 (if dayOfWeek x.n = 0 then 7 else dayOfWeek x.n) a
  | 'w' => Num 1 (dayOfWeek x.n) a
  | 'U' => ∃ ny, NewYear x.d.year ny ∧ Num 2 (countWeekday 0 ny x.n) a
  | 'W' => ∃ ny, NewYear x.d.year ny ∧ Num 2 (countWeekday 1 ny x.n) a
  | 'G' => SNum 4 x.g a
  | 'V' => Num 2 x.k a
  | 'H' => Num 2 x.h a
  | 'M' => Num 2 x.m a
  | 'R' => ∃ p q, a = p ++ ':' :: q ∧ Num 2 x.h p ∧ Num 2 x.m q
  | 'S' => SecText T (if T = 1 then 2 else 3 + w) x.s a
  | 'T' => ∃ p q r, a = p ++ ':' :: (q ++ ':' :: r) ∧ Num 2 x.h p ∧ Num 2 x.m q ∧ SecText T (if T = 1 then 2 else 3 + w) x.s r
  | 'z' => OffText md x.o a
  | '%' => a = ['%']
  | _ => False

/-- The parts of the time that the conversions `L` do not mention are zero. -/
def Claim.Rest (x : Claim) (L : List Char) : Prop :=
  ('H' ∉ L → 'T' ∉ L → 'R' ∉ L → x.h = 0) ∧ ('M' ∉ L → 'T' ∉ L → 'R' ∉ L → x.m = 0) ∧
  ('S' ∉ L → 'T' ∉ L → x.s = 0)

/-- The formats that are considered: the century is used with the year in the century only, and if a week of the year is used, then the
ISO year is used with the ISO week only. -/
def Coherent (L : List Char) : Prop :=
  ('C' ∈ L → 'y' ∈ L ∨ 'D' ∈ L) ∧ ('U' ∈ L ∨ 'W' ∈ L → ('G' ∈ L ↔ 'V' ∈ L))

/-! ### Which texts can be parsed safely -/

/-- With `w` decimal digits of a second, a number of seconds in the text has at most 18 digits in units of the last one.
(Nobody reads more than 3 + w characters, so that this is always the case if w ≤ 7.) -/
def SecondsFit (w : Nat) (text : List Char) : Prop :=
  ∀ a b c, text = a ++ (b ++ c) → b.all isDigit = true → b.length ≤ 3 + w → b.length + w ≤ 18

/-- Two digits follow every minus sign. -/
def OffsetsComplete (text : List Char) : Prop :=
  ∀ a b, text = a ++ '-' :: b → ∃ x y r, b = x :: y :: r ∧ isDigit x = true ∧ isDigit y = true

/-- The texts that are considered for the conversions `L`. -/
def Safe (L : List Char) (w : Nat) (text : List Char) : Prop :=
  ('S' ∈ L ∨ 'T' ∈ L → SecondsFit w text) ∧ ('z' ∈ L → OffsetsComplete text)

end Gul14.Spec.DateParse
