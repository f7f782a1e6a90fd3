import Verif.Date.ParseSpec

/-!
# Specification of parse for formats with names, twelve-hour clock, zone and white space

Nothing here refers to the code.
-/
namespace Gul14.Spec.DateParse
open Gul14.Spec.Calendar Gul14.Spec.DateText Gul14.Spec.DateFormat

/-- Names of weekdays and months, and of the halves of a day. -/
def nameLetters : List Char := ['a', 'A', 'b', 'B', 'h', 'p']

/-- The conversions that say the same: the name of a weekday and its number, the name of a month and its number,
the day with a blank and with a zero. -/
def sameAs (c : Char) : Char :=
  if c = 'a' ∨ c = 'A' then 'w' else if c = 'b' ∨ c = 'B' ∨ c = 'h' then 'm' else if c = 'e' then 'd' else c

/-- What a format says, in terms of the numeric conversions: the hour on a twelve-hour clock, with the half of the
day, is the hour. -/
def meaning (L : List Char) : List Char := if 'I' ∈ L then 'H' :: L.map sameAs else L.map sameAs

/-- Characters that names consist of. -/
def Letter (c : Char) : Bool :=
  (97 ≤ c.toNat && c.toNat ≤ 122) || (65 ≤ c.toNat && c.toNat ≤ 90) || 128 ≤ c.toNat

/-- The text does not continue a name. -/
def NameEnds (t : List Char) : Prop := ∀ c r, t = c :: r → Letter c = false

/-- `time_get` reads the names that `time_put` writes, for weekdays, months and halves of the day.  The half of the
day is added to an hour of 1. -/
structure ReadsNames (loc : TimePut) (get : Tm → List Char → List Char → Tm × List Char × Bool × Bool) : Prop where
  weekday : ∀ c ∈ ['a', 'A'], ∀ tm : Tm, 0 ≤ tm.wday → tm.wday ≤ 6 →
    (∃ x s, loc.put tm none c = x :: s ∧ ¬ White x) ∧ ∀ (old : Tm) (r : List Char), NameEnds r →
      ∃ new e, get old ['%', c] (loc.put tm none c ++ r) = (new, r, e, false) ∧ (e = true → r = []) ∧ new.wday = tm.wday
  month : ∀ c ∈ ['b', 'B', 'h'], ∀ tm : Tm, 0 ≤ tm.mon → tm.mon ≤ 11 →
    (∃ x s, loc.put tm none c = x :: s ∧ ¬ White x) ∧ ∀ (old : Tm) (r : List Char), NameEnds r →
      ∃ new e, get old ['%', c] (loc.put tm none c ++ r) = (new, r, e, false) ∧ (e = true → r = []) ∧ new.mon = tm.mon
  half : ∀ tm : Tm, 0 ≤ tm.hour → tm.hour ≤ 23 →
    (∃ x s, loc.put tm none 'p' = x :: s ∧ ¬ White x) ∧ ∀ (old : Tm) (r : List Char), NameEnds r → old.hour = 1 →
      ∃ new e, get old ['%', 'p'] (loc.put tm none 'p' ++ r) = (new, r, e, false) ∧ (e = true → r = []) ∧
        new.hour = if tm.hour < 12 then 1 else 13

/-- Characters of the abbreviation of a time zone. -/
def ZoneLetter (c : Char) : Bool :=
  (97 ≤ c.toNat && c.toNat ≤ 122) || (65 ≤ c.toNat && c.toNat ≤ 90) || (48 ≤ c.toNat && c.toNat ≤ 57) ||
    c = '_' || c = '/' || c = '-' || c = '+'

/-- An abbreviation of a time zone. -/
def ZoneName (z : List Char) : Prop := z ≠ [] ∧ ∀ c ∈ z, ZoneLetter c = true

/-- The rest of the format begins with something that is no part of a name: the end, another character, or the text of a numeric
conversion. -/
def EndsName : List Item → Prop
  | [] => True
  | .lit c :: _ => Letter c = false
  | .conv _ c :: _ => c ∉ nameLetters ∧ c ≠ 'Z'

/-- The rest of the format begins with something that is no part of an abbreviation: the end, or another character. -/
def EndsZone : List Item → Prop
  | [] => True
  | .lit c :: _ => ZoneLetter c = false
  | .conv _ _ :: _ => False

/-- The rest of the format begins with something that is no digit: the end, or another character. -/
def EndsNumber : List Item → Prop
  | [] => True
  | .lit c :: _ => isDigit c = false
  | .conv _ _ :: _ => False

/-- A format that can be read: characters that stand for themselves, the conversions `Readable`, names and abbreviations that are
followed by something else; `%e` for days (`day`) with two digits, or after white space in the format and not before digits; `%n` and `%t` not after white
space in the format.  `sk`: there is white space just before. -/
def Legible (day : Nat) : Bool → List Item → Prop
  | _, [] => True
  | _, .lit c :: r => c ≠ '%' ∧ c.toNat ≠ 0 ∧ ((White c ∧ Legible day true r) ∨ (¬ White c ∧ Legible day false r))
  | sk, .conv md c :: r =>
    (Readable (.conv md c) ∨ (md = none ∧ c ∈ nameLetters ∧ EndsName r) ∨ (md = none ∧ c = 'I') ∨
      (md = none ∧ c = 'e' ∧ (10 ≤ day ∨ (sk = true ∧ EndsNumber r))) ∨ (md = none ∧ (c = 'n' ∨ c = 't') ∧ sk = false) ∨
      (md = none ∧ c = 'Z' ∧ EndsZone r)) ∧ Legible day false r

end Gul14.Spec.DateParse
