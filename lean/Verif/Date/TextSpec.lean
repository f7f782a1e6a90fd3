/-! # Specification of decimal text for dates and times -/
namespace Gul14.Spec.DateText

def isDigit (c : Char) : Bool := '0' ≤ c && c ≤ '9'

/-- The number that a string of digits denotes. -/
def value (s : List Char) : Nat := s.foldl (fun a c => 10 * a + (c.toNat - 48)) 0

/-- Exactly `len` digits, with value `v`. -/
def Digits (len v : Nat) (s : List Char) : Prop :=
  s.length = len ∧ s.all isDigit = true ∧ value s = v

/-- The usual decimal numeral of `v`: digits without superfluous leading zeros. -/
def Numeral (v : Nat) (s : List Char) : Prop :=
  s ≠ [] ∧ s.all isDigit = true ∧ value s = v ∧ (s.head? = some '0' → s = ['0'])

def SignedNumeral (v : Int) (s : List Char) : Prop :=
  if v < 0 then ∃ t, s = '-' :: t ∧ Numeral v.natAbs t else Numeral v.natAbs s

/-- `year-mm-dd`. -/
def IsDate (y : Int) (m d : Nat) (s : List Char) : Prop :=
  ∃ ys ms ds, s = ys ++ '-' :: (ms ++ '-' :: ds) ∧ SignedNumeral y ys ∧ Digits 2 m ms ∧ Digits 2 d ds

/-- `hh:mm:ss` or `hh:mm:ss.fff` with `w` fractional digits. -/
def IsTime (w h m sec frac : Nat) (s : List Char) : Prop :=
  ∃ hs ms ss fs, s = hs ++ ':' :: (ms ++ ':' :: (ss ++ fs)) ∧ Digits 2 h hs ∧ Digits 2 m ms ∧
    Digits 2 sec ss ∧ (if w = 0 then fs = [] else ∃ t, fs = '.' :: t ∧ Digits w frac t)

end Gul14.Spec.DateText
