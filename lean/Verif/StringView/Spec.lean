import Verif.Basic

/-! Independent vocabulary for the string properties. -/

namespace Gul14.Spec

/-- The string `s` occurs in `h` at index `i`. -/
def OccursAt (h s : Str) (i : Nat) : Prop := ∃ a b, h = a ++ s ++ b ∧ a.length = i

/-- The character of `h` at index `i` exists and satisfies `p`. -/
def CharAt (h : Str) (p : UInt8 → Prop) (i : Nat) : Prop := ∃ c, h[i]? = some c ∧ p c

/-- `r` is the least index satisfying `P`, or npos if there is none. -/
def IsFirst (P : Nat → Prop) (r : Nat) : Prop :=
  (r = npos ∧ ∀ i, ¬ P i) ∨ (r ≠ npos ∧ P r ∧ ∀ i, P i → r ≤ i)

/-- `r` is the greatest index satisfying `P`, or npos if there is none. -/
def IsLast (P : Nat → Prop) (r : Nat) : Prop :=
  (r = npos ∧ ∀ i, ¬ P i) ∨ (r ≠ npos ∧ P r ∧ ∀ i, P i → i ≤ r)

/-- Strict lexicographic order on byte strings: a proper prefix is smaller, otherwise the
first differing byte (as unsigned number) decides. -/
def LexLt (a b : Str) : Prop :=
  (∃ c t, b = a ++ c :: t) ∨
  (∃ p x y s t, a = p ++ x :: s ∧ b = p ++ y :: t ∧ x < y)

end Gul14.Spec
