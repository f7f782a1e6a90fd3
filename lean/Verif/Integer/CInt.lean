import Verif.Basic

/-!
# C++ integer types

Values of integer types are mathematical integers together with a type.  `int` has 32 bits.
Arithmetic promotes types narrower than `int` to `int`; signed overflow is undefined behaviour,
unsigned arithmetic is modular, conversions to signed types are modular (as on all supported
compilers).  This is the vocabulary in which the numeric code of gul14 is modelled.
-/
namespace Gul14

/-- An integer type. -/
structure IntTy where
  bits : Nat
  signed : Bool
  deriving DecidableEq

namespace IntTy

def int8 : IntTy := ⟨8, true⟩
def int16 : IntTy := ⟨16, true⟩
def int : IntTy := ⟨32, true⟩
def int64 : IntTy := ⟨64, true⟩
def uint8 : IntTy := ⟨8, false⟩
def uint16 : IntTy := ⟨16, false⟩
def uint : IntTy := ⟨32, false⟩
def uint64 : IntTy := ⟨64, false⟩

/-- The integer types that exist on the modelled platform. -/
def Exists (t : IntTy) : Prop := t.bits = 8 ∨ t.bits = 16 ∨ t.bits = 32 ∨ t.bits = 64

def minVal (t : IntTy) : Int := if t.signed then -(2 ^ (t.bits - 1)) else 0
def maxVal (t : IntTy) : Int := if t.signed then 2 ^ (t.bits - 1) - 1 else 2 ^ t.bits - 1

/-- The value is representable. -/
def Has (t : IntTy) (x : Int) : Prop := t.minVal ≤ x ∧ x ≤ t.maxVal

instance (t : IntTy) (x : Int) : Decidable (t.Has x) := by unfold Has; infer_instance

/-- Conversion to the type. -/
def cast (t : IntTy) (x : Int) : Int := if t.signed then x.bmod (2 ^ t.bits) else x % 2 ^ t.bits

/-- Integral promotion. -/
def promote (t : IntTy) : IntTy := if t.bits < 32 then int else t

/-- Usual arithmetic conversions (both types exist). -/
def usual (a b : IntTy) : IntTy :=
  let a := a.promote
  let b := b.promote
  if a.bits > b.bits then a
  else if b.bits > a.bits then b
  else if a.signed && b.signed then a else ⟨a.bits, false⟩

/-- std::common_type_t of two integer types. -/
def common (a b : IntTy) : IntTy := if a = b then a else usual a b

/-- Result of an arithmetic operation in a (promoted) type. -/
def arith (t : IntTy) (x : Int) : Res Int :=
  if t.signed then (if t.Has x then .ok x else .ub) else .ok (x % 2 ^ t.bits)

/-- Division and remainder: undefined for zero divisors and for unrepresentable quotients. -/
def div (t : IntTy) (x y : Int) : Res Int := if y = 0 then .ub else arith t (x.tdiv y)
def rem (t : IntTy) (x y : Int) : Res Int :=
  if y = 0 then .ub else if t.signed ∧ ¬ t.Has (x.tdiv y) then .ub else .ok (x.tmod y)

/-- std::abs(int), std::abs(long): undefined for the most negative value. -/
def stdAbs (t : IntTy) (x : Int) : Res Int := if x < 0 then arith t (-x) else .ok x

/-- gul14::abs, num_util.h:52-65: unsigned values are returned unchanged, signed ones go through
std::abs in the promoted type and are converted back. -/
def gulAbs (t : IntTy) (x : Int) : Res Int :=
  if t.signed then (stdAbs t.promote x).map t.cast else .ok x

end IntTy

namespace IntTy

theorem Exists.pos {t : IntTy} (h : t.Exists) : 8 ≤ t.bits ∧ t.bits ≤ 64 := by
  unfold Exists at h; omega

theorem pow_split {n : Nat} (h : 0 < n) : (2 : Int) ^ n = 2 * 2 ^ (n - 1) := by
  obtain ⟨m, rfl⟩ : ∃ m, n = m + 1 := ⟨n - 1, by omega⟩
  rw [Int.pow_succ]
  simp
  exact Int.mul_comm _ _

theorem pow_pos' (n : Nat) : (0 : Int) < 2 ^ n := Int.pow_pos (by decide)

theorem cast_of_has {t : IntTy} (h0 : 0 < t.bits) {x : Int} (h : t.Has x) : t.cast x = x := by
  unfold Has minVal maxVal at h
  unfold cast
  have hp := pow_split h0
  have hpos := pow_pos' (t.bits - 1)
  split
  · rename_i hs
    simp only [hs, if_true] at h
    rw [Int.bmod_def]
    have e : ((2 ^ t.bits : Nat) : Int) = 2 ^ t.bits := by simp
    rw [e]
    by_cases hx : 0 ≤ x
    · rw [Int.emod_eq_of_lt hx (by omega)]
      split <;> omega
    · have : x % 2 ^ t.bits = x + 2 ^ t.bits := by
        rw [← Int.add_emod_right]
        exact Int.emod_eq_of_lt (by omega) (by omega)
      rw [this]
      split <;> omega
  · rename_i hs
    simp only [hs] at h
    simp at h
    exact Int.emod_eq_of_lt h.1 (by omega)

theorem pow_mono {a b : Nat} (h : a ≤ b) : (2 : Int) ^ a ≤ 2 ^ b := by
  have : (2 : Nat) ^ a ≤ 2 ^ b := Nat.pow_le_pow_right (by decide) h
  exact_mod_cast this

/-- A narrow type's values fit in its promoted type. -/
theorem has_promote {t : IntTy} {x : Int} (h : t.Has x) (h0 : 0 < t.bits) : t.promote.Has x := by
  unfold promote
  split
  · rename_i hb
    unfold Has minVal maxVal int at *
    simp only [if_true] at *
    have h1 := pow_mono (show t.bits - 1 ≤ 31 by omega)
    have h2 := pow_mono (show t.bits ≤ 31 by omega)
    split at h
    · constructor
      · have : (32 - 1 : Nat) = 31 := rfl
        rw [this]; omega
      · have : (32 - 1 : Nat) = 31 := rfl
        rw [this]; omega
    · have : (32 - 1 : Nat) = 31 := rfl
      rw [this]; omega
  · exact h

end IntTy
end Gul14
