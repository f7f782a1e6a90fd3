import Verif.Date.FormatSpec

/-!
# Specification of format for values that are not a complete date

A year, a month, a day, a weekday, a month of a year, a day of a month, and a triple of year, month and day
that is no date (30 February).  Nothing here refers to the code.
-/
namespace Gul14.Spec.DateFormat.Incomplete
open Gul14.Spec.Calendar Gul14.Spec.DateFormat

/-- The parts of a date that are known. -/
structure Parts where
  year : Option Int := none
  month : Option Nat := none
  day : Option Nat := none
  wday : Option Nat := none
  deriving DecidableEq, Repr

/-- A year, if it is one: -32768 stands for no year. -/
def aYear (y : Int) : Option Int := if y = -32768 then none else some y
def aMonth (m : Nat) : Option Nat := if 1 ≤ m ∧ m ≤ 12 then some m else none
def aDay (d : Nat) : Option Nat := if 1 ≤ d ∧ d ≤ 31 then some d else none
/-- A weekday: Sunday is 0. -/
def aWeekday (w : Nat) : Option Nat := if w < 7 then some w else none

/-- The date `d` with day number `n` has the known parts. -/
def Agrees (p : Parts) (n : Int) (d : Date) : Prop :=
  (∀ y, p.year = some y → d.year = y) ∧ (∀ m, p.month = some m → d.month = m) ∧
  (∀ k, p.day = some k → d.day = k) ∧ (∀ w, p.wday = some w → dayOfWeek n = w)

def asksYear : Option Char → Char → Bool
  | none, c => c ∈ ['C', 'y', 'Y']
  | some 'E', c => c ∈ ['C', 'y', 'Y']
  | some 'O', c => c = 'y'
  | _, _ => false

def asksMonth : Option Char → Char → Bool
  | none, c => c ∈ ['b', 'B', 'h', 'm']
  | some 'O', c => c = 'm'
  | _, _ => false

def asksDay : Option Char → Char → Bool
  | none, c => c ∈ ['d', 'e']
  | some 'O', c => c ∈ ['d', 'e']
  | _, _ => false

def asksWeekday : Option Char → Char → Bool
  | none, c => c ∈ ['a', 'A', 'u', 'w']
  | some 'E', c => c = 'w'
  | some 'O', c => c ∈ ['u', 'w']
  | _, _ => false

/-- The conversions that only a complete date, a time or a time zone can answer. -/
def asksMore : Option Char → Char → Bool
  | none, c => c ∈ ['c', 'x', 'D', 'F', 'g', 'G', 'U', 'V', 'W', 'j', 'H', 'I', 'M', 'p', 'Q', 'q', 'r', 'R',
      'S', 'T', 'X', 'z', 'Z']
  | some 'E', c => c ∈ ['c', 'x', 'X', 'z']
  | some 'O', c => c ∈ ['U', 'V', 'W', 'H', 'I', 'M', 'S', 'z']
  | _, _ => false

/-- The conversion asks for something that is not known. -/
def Lacks (p : Parts) : Item → Prop
  | .lit _ => False
  | .conv md c => (asksYear md c = true ∧ p.year = none) ∨ (asksMonth md c = true ∧ p.month = none) ∨
      (asksDay md c = true ∧ p.day = none) ∨ (asksWeekday md c = true ∧ p.wday = none) ∨ asksMore md c = true

/-- The texts of the items one after the other, each of them right for every date with the known parts. -/
def RightAll (loc : TimePut) (p : Parts) : List Item → List Char → Prop
  | [], t => t = []
  | i :: is, t => ∃ a b, t = a ++ b ∧
      (∀ n d, Agrees p n d → Says loc ⟨some (n, d), 0, none, none, none⟩ i a) ∧ RightAll loc p is b

end Gul14.Spec.DateFormat.Incomplete
