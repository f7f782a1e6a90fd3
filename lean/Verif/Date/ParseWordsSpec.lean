import Verif.Date.ParseNamesSpec

/-!
# Specification of what an accepted text says, for formats with names, twelve-hour clock and zone

Nothing here refers to the code.
-/
namespace Gul14.Spec.DateParse
open Gul14.Spec.Calendar Gul14.Spec.DateText Gul14.Spec.DateFormat

/-- The words of a language: the names of the weekdays (Sunday is 0), of the months (1 to 12), and of the halves of the day
(`true`: from noon on). -/
structure Words where
  weekday : Nat → List Char → Prop
  month : Nat → List Char → Prop
  half : Bool → List Char → Prop

/-- `time_get` accepts only words of this language, and it stores what they mean.  The half of the day is added to an hour of 1. -/
structure KnowsWords (W : Words) (get : Tm → List Char → List Char → Tm × List Char × Bool × Bool) : Prop where
  weekday : ∀ c ∈ ['a', 'A'], ∀ (old new : Tm) (t r : List Char) (e : Bool), get old ['%', c] t = (new, r, e, false) →
    ∃ a, ∃ w : Nat, t = a ++ r ∧ W.weekday w a ∧ w ≤ 6 ∧ new.wday = w
  month : ∀ c ∈ ['b', 'B', 'h'], ∀ (old new : Tm) (t r : List Char) (e : Bool), get old ['%', c] t = (new, r, e, false) →
    ∃ a, ∃ m : Nat, t = a ++ r ∧ W.month m a ∧ 1 ≤ m ∧ m ≤ 12 ∧ new.mon = m - 1
  half : ∀ (old new : Tm) (t r : List Char) (e : Bool), get old ['%', 'p'] t = (new, r, e, false) → old.hour = 1 →
    ∃ a b, t = a ++ r ∧ W.half b a ∧ new.hour = if b then 13 else 1

/-- The conversions that are considered here, besides those of `Readable`. -/
def wordLetters : List Char := ['a', 'A', 'b', 'B', 'h', 'e', 'I', 'p', 'Z', 'n']

/-- The parts of a format that are considered. -/
def Wordy : Item → Prop
  | .lit c => c ≠ '%' ∧ c.toNat ≠ 0
  | .conv md c => Readable (.conv md c) ∨ (md = none ∧ c ∈ wordLetters)

/-- The text `a` of the conversion `c` agrees with `x`, and with the name `z` of the time zone. -/
def AgreesWords (W : Words) (z : List Char) (T w : Nat) (x : Claim) (md : Option Char) (c : Char) (a : List Char) : Prop :=
  match c with
  | 'a' | 'A' => W.weekday (dayOfWeek x.n) a
  | 'b' | 'B' | 'h' => W.month x.d.month a
  | 'e' => ∃ v, SNum 2 v a ∧ (v = 0 ∨ v = x.d.day)
  | 'I' => SNum 2 (hour12 x.h) a
  | 'p' => W.half (12 ≤ x.h) a
  | 'Z' => ZoneName a ∧ a = z
  | 'n' => ∃ s, a = [s] ∧ White s
  | _ => Agrees T w x md c a

/-- The formats that are considered: as in `Coherent`, and the half of the day is used with the hour on a twelve-hour clock only. -/
def CoherentWords (L : List Char) : Prop := Coherent L ∧ ('p' ∈ L → 'I' ∈ L)

/-- The parts of the time that the conversions `L` do not mention are zero. -/
def Claim.RestWords (x : Claim) (L : List Char) : Prop :=
  ('H' ∉ L → 'T' ∉ L → 'R' ∉ L → 'I' ∉ L → x.h = 0) ∧ ('M' ∉ L → 'T' ∉ L → 'R' ∉ L → x.m = 0) ∧
  ('S' ∉ L → 'T' ∉ L → x.s = 0)

end Gul14.Spec.DateParse
