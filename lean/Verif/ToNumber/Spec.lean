import Verif.Text.Spec
import Verif.Substring.Spec

namespace Gul14.Spec

/-- Exponent part of a floating-point numeral: nothing, or `e`/`E`, an optional sign and at
least one digit. -/
inductive ExpPart : Str → Int → Prop
  | none : ExpPart [] 0
  | plain {c d n} : c = 101 ∨ c = 69 → d ≠ [] → DecNumeral d n → ExpPart (c :: d) n
  | plus {c d n} : c = 101 ∨ c = 69 → d ≠ [] → DecNumeral d n → ExpPart (c :: 43 :: d) n
  | minus {c d n} : c = 101 ∨ c = 69 → d ≠ [] → DecNumeral d n → ExpPart (c :: 45 :: d) (-n)

/-- `FloatNumeral s n k e`: `s` is `digits[.digits][exponent]` with at least one mantissa digit,
it denotes `n * 10^k`, and its exponent part denotes `e`. -/
inductive FloatNumeral : Str → Nat → Int → Int → Prop
  | int {b ex n e} : b ≠ [] → DecNumeral b n → ExpPart ex e → FloatNumeral (b ++ ex) n e e
  | point {b a ex n e} : b ++ a ≠ [] → DecNumeral (b ++ a) n → ExpPart ex e →
      FloatNumeral (b ++ [46] ++ a ++ ex) n (e - a.length) e

/-- Spelling of infinity. -/
def IsInf (s : Str) : Prop := SameNocase s (bytes "inf") ∨ SameNocase s (bytes "infinity")

/-- Spelling of not-a-number: `nan` or `nan(...)` with letters, digits and underscores. -/
def IsNan (s : Str) : Prop :=
  SameNocase s (bytes "nan") ∨
  ∃ h t, s = h ++ t ++ [41] ∧ SameNocase h (bytes "nan(") ∧
    ∀ c ∈ t, (48 ≤ c.toNat ∧ c.toNat ≤ 57) ∨ (65 ≤ c.toNat ∧ c.toNat ≤ 90) ∨
      (97 ≤ c.toNat ∧ c.toNat ≤ 122) ∨ c.toNat = 95

/-- The mantissa of a numeral: everything before the first `e` or `E`. -/
def mantissaPart (s : Str) : Str := s.takeWhile fun c => c ≠ 101 ∧ c ≠ 69

/-- Number of mantissa characters without leading zeros and without the first decimal point,
i.e. the number of significant digits. -/
def significantDigits (s : Str) : Nat :=
  (((mantissaPart s).erase 46).dropWhile fun c => c = 48).length

end Gul14.Spec
