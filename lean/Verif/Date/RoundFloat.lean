import Verif.Ieee.Arith
import Verif.Ieee.Error

/-!
# C135: rounding durations whose counts are floating-point numbers, date.h:1032-1080, 1142-1246

The duration has a count `d` of a floating-point format (float, double, ...), and is rounded to a unit that is `N` times as
long (`N ≥ 1`), or `a` times as short.  The new count is an integer of a type with the range `lo ≤ t ≤ hi`, or a number of the
same format.  All arithmetic is that of IEEE 754 with rounding; the zeros are not distinguished.  Conversions between units
are those of std::chrono::duration_cast and of the common type of two durations: one multiplication or division by the ratio
in the floating-point type, or none if the ratio is 1.
-/
namespace Gul14.Date.FloatDur
open Gul14.Ieee

/-- Conversion of a floating-point number to an integer type: the fraction is dropped.  Language semantics. -/
def tint (x : ℚ) : Int := if 0 ≤ x then ⌊x⌋ else ⌈x⌉

/-- ... if the result is in the range of the type; otherwise, and for infinities and NaN, the behaviour is undefined. -/
def castInt (lo hi : Int) : Fl → Res Int
  | .num x => if lo ≤ tint x ∧ tint x ≤ hi then .ok (tint x) else .ub
  | _ => .ub

/-- Integer arithmetic in the type; overflow is undefined. -/
def inRange (lo hi t : Int) : Res Int := if lo ≤ t ∧ t ≤ hi then .ok t else .ub

/-- detail::trunc for floating-point types, date.h:1060-1080: the integer type has more digits than the format. -/
def truncFl (f : Format) : Fl → Fl
  | .num t => if -(2 : ℚ) ^ (f.p - 1) ≤ t ∧ t ≤ (2 : ℚ) ^ (f.p - 1) ∧ t ≠ 0 then f.round (tint t) else .num t
  | v => v

/-- The count in a unit that is `N` times as long, before it is converted: duration_cast. -/
def toUnit (f : Format) (N : Int) (d : Fl) : Fl := if N = 1 then d else f.div d (f.round N)

/-- The count in the original unit of `t` in the unit that is `N` times as long: conversion to the common type. -/
def ofUnit (f : Format) (N : Int) (t : Fl) : Fl := if N = 1 then t else f.mul t (f.round N)

/-! ## To counts that are integers -/

/-- trunc<To>(d), date.h:1142-1152; detail::trunc does nothing to integers (1049-1058). -/
def truncI (f : Format) (lo hi N : Int) (d : Fl) : Res Int := castInt lo hi (toUnit f N d)

/-- floor<To>(d), date.h:1184-1197. -/
def floorI (f : Format) (lo hi N : Int) (d : Fl) : Res Int := do
  let t ← truncI f lo hi N d
  if d.lt (ofUnit f N (f.round t)) then inRange lo hi (t - 1) else pure t

/-- ceil<To>(d), date.h:1236-1246. -/
def ceilI (f : Format) (lo hi N : Int) (d : Fl) : Res Int := do
  let t ← truncI f lo hi N d
  if (ofUnit f N (f.round t)).lt d then inRange lo hi (t + 1) else pure t

/-- round<To>(d), date.h:1213-1234. -/
def roundI (f : Format) (lo hi N : Int) (d : Fl) : Res Int := do
  let t0 ← floorI f lo hi N d
  let t1 ← inRange lo hi (t0 + 1)
  let diff0 := f.sub d (ofUnit f N (f.round t0))
  let diff1 := f.sub (ofUnit f N (f.round t1)) d
  if diff0.eq diff1 then
    if t0 - t0.tdiv 2 * 2 = 0 then pure t0 else pure t1
  else if diff0.lt diff1 then pure t0 else pure t1

/-! ## To counts that are floating-point numbers -/

/-- trunc<To>(d), date.h:1142-1152. -/
def truncF (f : Format) (N : Int) (d : Fl) : Fl := truncFl f (toUnit f N d)

/-- floor<To>(d), date.h:1184-1197. -/
def floorF (f : Format) (N : Int) (d : Fl) : Fl :=
  let t := truncF f N d
  if d.lt (ofUnit f N t) then f.sub t (.num 1) else t

/-- ceil<To>(d), date.h:1236-1246. -/
def ceilF (f : Format) (N : Int) (d : Fl) : Fl :=
  let t := truncF f N d
  if (ofUnit f N t).lt d then f.add t (.num 1) else t

/-- round<To>(d), date.h:1213-1234.  (The change of `t1` in 1221-1222 turns 0 into -0.) -/
def roundF (f : Format) (N : Int) (d : Fl) : Fl :=
  let t0 := floorF f N d
  let t1 := f.add t0 (.num 1)
  let diff0 := f.sub d (ofUnit f N t0)
  let diff1 := f.sub (ofUnit f N t1) d
  if diff0.eq diff1 then
    if (f.sub t0 (f.mul (truncF f 1 (f.div t0 (.num 2))) (.num 2))).eq (.num 0) then t0 else t1
  else if diff0.lt diff1 then t0 else t1

/-! ## To a unit that is `a` times as short -/

/-- The common type is then that of the result, so that `d` is converted first.  floor<To>(d), date.h:1184-1197. -/
def floorFiner (f : Format) (lo hi a : Int) (d : Fl) : Res Int := floorI f lo hi 1 (f.mul d (f.round a))
/-- ceil<To>(d), date.h:1236-1246. -/
def ceilFiner (f : Format) (lo hi a : Int) (d : Fl) : Res Int := ceilI f lo hi 1 (f.mul d (f.round a))
/-- round<To>(d), date.h:1213-1234. -/
def roundFiner (f : Format) (lo hi a : Int) (d : Fl) : Res Int := roundI f lo hi 1 (f.mul d (f.round a))

/-! ## Specification -/

/-- A format like those of float, double and long double. -/
structure Usual (f : Format) : Prop where
  p2 : 2 ≤ f.p
  sub : f.emin ≤ -f.p
  emax : 1 ≤ f.emax

theorem Usual.p {f : Format} (h : Usual f) : 1 ≤ f.p := le_trans (by norm_num) h.p2

theorem Usual.emin {f : Format} (h : Usual f) : f.emin ≤ -1 := by have := h.p2; have := h.sub; omega

/-- `r` is the integer nearest to `d / N`, and the even one of two that are equally near. -/
def Nearest (d : ℚ) (N r : Int) : Prop := 2 * |d - r * N| ≤ N ∧ (2 * |d - r * N| = N → 2 ∣ r)

/-! ## Proofs -/
section
variable {f : Format}

theorem two_pow_le_max (h : Usual f) : (2 : ℚ) ^ f.p ≤ f.max := by
  unfold Format.max
  have h1 : (2 : ℚ) ≤ (2 : ℚ) ^ f.p := by
    calc (2 : ℚ) = 2 ^ 1 := by norm_num
      _ ≤ 2 ^ f.p := pow_le_pow_right₀ (by norm_num) h.p
  have h2 : (2 : ℚ) ≤ (2 : ℚ) ^ f.emax := by
    calc (2 : ℚ) = 2 ^ (1 : Int) := by norm_num
      _ ≤ 2 ^ f.emax := zpow2_le h.emax
  nlinarith

theorem round_eq (h : Usual f) {x : ℚ} (hx : |x| ≤ (2 : ℚ) ^ f.p) : f.round x = .num (f.near x) :=
  round_num f h.p (by have := h.emin; have := h.emax; omega) (le_trans hx (two_pow_le_max h))

theorem round_grid (h : Usual f) {x : ℚ} (hg : f.Grid x) (hx : |x| ≤ (2 : ℚ) ^ f.p) : f.round x = .num x := by
  rw [round_eq h hx, near_exact f h.p hg]

theorem gridInt (h : Usual f) {n : Int} (hn : |(n : ℚ)| < (2 : ℚ) ^ f.p) : f.Grid n :=
  grid_int f (by have := h.emin; omega) (by exact_mod_cast hn)

theorem round_int (h : Usual f) {n : Int} (hn : |(n : ℚ)| < (2 : ℚ) ^ f.p) : f.round n = .num n :=
  round_grid h (gridInt h hn) hn.le

theorem tint_mem {y : ℚ} {k : Int} (h1 : (k : ℚ) ≤ y) (h2 : y ≤ k + 1) : tint y = k ∨ tint y = k + 1 := by
  unfold tint
  split
  · have a : k ≤ ⌊y⌋ := Int.le_floor.2 h1
    have b : ⌊y⌋ ≤ k + 1 := by
      have := Int.floor_le y
      have : (⌊y⌋ : ℚ) ≤ ((k + 1 : Int) : ℚ) := by push_cast; linarith
      exact_mod_cast this
    omega
  · have a : ⌈y⌉ ≤ k + 1 := Int.ceil_le.2 (by push_cast; exact h2)
    have b : k ≤ ⌈y⌉ := by
      have := Int.le_ceil y
      have : (k : ℚ) ≤ ⌈y⌉ := by linarith
      exact_mod_cast this
    omega

theorem tint_int (k : Int) : tint k = k := by
  unfold tint; split <;> simp

/-- The counts around the exact quotient, and that they and their multiples are numbers of the format. -/
structure Around (f : Format) (N : Int) (d : ℚ) (k : Int) : Prop where
  lo : (k : ℚ) * N ≤ d
  hi : d < (k + 1) * N
  k0 : |(k : ℚ)| < (2 : ℚ) ^ f.p
  k1 : |((k + 1 : Int) : ℚ)| < (2 : ℚ) ^ f.p
  n : |(N : ℚ)| < (2 : ℚ) ^ f.p
  m0 : |((k * N : Int) : ℚ)| < (2 : ℚ) ^ f.p
  m1 : |(((k + 1) * N : Int) : ℚ)| < (2 : ℚ) ^ f.p

theorem around (N : Int) (hN : 1 ≤ N) (d : ℚ) (hd : |d| + N < (2 : ℚ) ^ f.p) :
    Around f N d ⌊d / N⌋ := by
  have hN' : (1 : ℚ) ≤ N := by exact_mod_cast hN
  have hpos : (0 : ℚ) < N := by linarith
  set k := ⌊d / N⌋ with hk
  have lo : (k : ℚ) * N ≤ d := by
    have := Int.floor_le (d / N)
    rwa [le_div_iff₀ hpos] at this
  have hi : d < (k + 1) * N := by
    have := Int.lt_floor_add_one (d / N)
    rwa [div_lt_iff₀ hpos] at this
  have hd' := abs_le.1 (le_refl |d|)
  have m0 : |(k : ℚ) * N| < (2 : ℚ) ^ f.p := by
    rw [abs_lt]; constructor <;> nlinarith [abs_nonneg d]
  have m1 : |((k : ℚ) + 1) * N| < (2 : ℚ) ^ f.p := by
    rw [abs_lt]; constructor <;> nlinarith [abs_nonneg d]
  have le_mul : ∀ x : ℚ, |x| ≤ |x * N| := by
    intro x
    rw [abs_mul, abs_of_pos hpos]
    nlinarith [abs_nonneg x]
  refine ⟨lo, hi, lt_of_le_of_lt (le_mul _) m0, ?_, ?_, ?_, ?_⟩
  · push_cast; exact lt_of_le_of_lt (le_mul _) m1
  · rw [abs_of_pos hpos]; linarith [abs_nonneg d]
  · push_cast; exact m0
  · push_cast; exact m1

theorem toUnit_eq (h : Usual f) {N : Int} (hN : 1 ≤ N) {d : ℚ} {k : Int} (hg : f.Grid d) (a : Around f N d k) :
    ∃ y : ℚ, toUnit f N (.num d) = .num y ∧ (k : ℚ) ≤ y ∧ y ≤ k + 1 ∧ (d = k * N → y = k) ∧ f.Grid y := by
  have hpos : (0 : ℚ) < N := by exact_mod_cast (by omega : 0 < N)
  unfold toUnit
  split
  · rename_i h1
    subst h1
    have := a.lo
    have := a.hi
    refine ⟨d, rfl, ?_, ?_, ?_, hg⟩
    · push_cast at *; linarith
    · push_cast at *; linarith
    · intro h; push_cast at h; linarith
  · have h1 : (k : ℚ) ≤ d / N := by rw [le_div_iff₀ hpos]; exact a.lo
    have h2 : d / N ≤ ((k + 1 : Int) : ℚ) := by rw [div_le_iff₀ hpos]; push_cast; exact a.hi.le
    have h3 : (k : ℚ) ≤ f.near (d / N) := by
      have := near_mono f h.p h1
      rwa [near_exact f h.p (gridInt h a.k0)] at this
    have h4 : f.near (d / N) ≤ ((k + 1 : Int) : ℚ) := by
      have := near_mono f h.p h2
      rwa [near_exact f h.p (gridInt h a.k1)] at this
    have hb : |d / N| ≤ (2 : ℚ) ^ f.p := by
      have b0 := abs_lt.1 a.k0
      have b1 := abs_lt.1 a.k1
      rw [abs_le]; constructor <;> linarith
    refine ⟨f.near (d / N), ?_, h3, by push_cast at h4; exact h4, ?_, near_grid f h.p _⟩
    · rw [round_int h a.n]
      simp only [Format.div, hpos.ne', if_false]
      exact round_eq h hb
    · intro he
      rw [he, mul_div_assoc, div_self hpos.ne', mul_one, near_exact f h.p (gridInt h a.k0)]

theorem ofUnit_eq (h : Usual f) {N t : Int} (_ht : |(t : ℚ)| < (2 : ℚ) ^ f.p) (hn : |(N : ℚ)| < (2 : ℚ) ^ f.p)
    (hm : |((t * N : Int) : ℚ)| < (2 : ℚ) ^ f.p) :
    ofUnit f N (.num t) = .num ((t : ℚ) * N) := by
  unfold ofUnit
  split
  · rename_i h1; subst h1; simp
  · rw [round_int h hn]
    simp only [Format.mul]
    have := round_int h hm
    push_cast at this
    exact this

/-- In both cases, what `trunc` gives is one of the two counts around the quotient, and the lower one if it is exact. -/
theorem trunc_cases (h : Usual f) {N : Int} (hN : 1 ≤ N) {d : ℚ} {k : Int} (hg : f.Grid d) (a : Around f N d k) :
    ∃ y : ℚ, toUnit f N (.num d) = .num y ∧ f.Grid y ∧ |y| ≤ (2 : ℚ) ^ f.p ∧ (tint y = k ∨ (tint y = k + 1 ∧ (k : ℚ) * N < d)) := by
  obtain ⟨y, h1, h2, h3, h4, h5⟩ := toUnit_eq h hN hg a
  have hy : |y| ≤ (2 : ℚ) ^ f.p := by
    have b0 := abs_lt.1 a.k0
    have b1 := abs_lt.1 a.k1
    push_cast at b1
    rw [abs_le]; constructor <;> linarith
  refine ⟨y, h1, h5, hy, ?_⟩
  rcases tint_mem h2 h3 with e | e
  · exact .inl e
  · rcases lt_or_eq_of_le a.lo with hl | hl
    · exact .inr ⟨e, hl⟩
    · left
      rw [h4 hl.symm, tint_int]

theorem floorI_eq (h : Usual f) {N lo hi : Int} (hN : 1 ≤ N) {d : ℚ} {k : Int} (hg : f.Grid d) (a : Around f N d k)
    (h1 : lo ≤ k) (h2 : k + 1 ≤ hi) : floorI f lo hi N (.num d) = .ok k := by
  obtain ⟨y, e1, _, _, e2⟩ := trunc_cases h hN hg a
  unfold floorI truncI
  rw [e1]
  rcases e2 with e2 | ⟨e2, _⟩
  · have : castInt lo hi (.num y) = .ok k := by
      simp only [castInt, e2]; rw [if_pos ⟨h1, by omega⟩]
    rw [this]
    show (if _ then _ else _) = _
    rw [round_int h a.k0, ofUnit_eq h a.k0 a.n a.m0]
    have : Fl.lt (.num d) (.num ((k : ℚ) * N)) = false := by simp [Fl.lt, a.lo]
    rw [this]; rfl
  · have : castInt lo hi (.num y) = .ok (k + 1) := by
      simp only [castInt, e2]; rw [if_pos ⟨by omega, h2⟩]
    rw [this]
    show (if _ then _ else _) = _
    rw [round_int h a.k1, ofUnit_eq h a.k1 a.n a.m1]
    have : Fl.lt (.num d) (.num (((k + 1 : Int) : ℚ) * N)) = true := by
      have := a.hi
      simp only [Fl.lt, decide_eq_true_eq]; push_cast; exact this
    rw [this, if_pos rfl]
    have e : k + 1 - 1 = k := by omega
    rw [e, inRange, if_pos ⟨h1, by omega⟩]

theorem ceilI_eq (h : Usual f) {N lo hi : Int} (hN : 1 ≤ N) {d : ℚ} {k : Int} (hg : f.Grid d) (a : Around f N d k)
    (h1 : lo ≤ k) (h2 : k + 1 ≤ hi) :
    ceilI f lo hi N (.num d) = .ok (if d = k * N then k else k + 1) := by
  obtain ⟨y, e1, _, _, e2⟩ := trunc_cases h hN hg a
  unfold ceilI truncI
  rw [e1]
  rcases e2 with e2 | ⟨e2, e3⟩
  · have : castInt lo hi (.num y) = .ok k := by
      simp only [castInt, e2]; rw [if_pos ⟨h1, by omega⟩]
    rw [this]
    show (if _ then _ else _) = _
    rw [round_int h a.k0, ofUnit_eq h a.k0 a.n a.m0]
    by_cases hd : d = k * N
    · have : Fl.lt (.num ((k : ℚ) * N)) (.num d) = false := by simp [Fl.lt, hd]
      rw [this, if_pos hd]; rfl
    · have : Fl.lt (.num ((k : ℚ) * N)) (.num d) = true := by
        simp only [Fl.lt, decide_eq_true_eq]
        exact lt_of_le_of_ne a.lo (Ne.symm hd)
      rw [this, if_pos rfl, if_neg hd, inRange, if_pos ⟨by omega, h2⟩]
  · have : castInt lo hi (.num y) = .ok (k + 1) := by
      simp only [castInt, e2]; rw [if_pos ⟨by omega, h2⟩]
    rw [this]
    show (if _ then _ else _) = _
    rw [round_int h a.k1, ofUnit_eq h a.k1 a.n a.m1]
    have : Fl.lt (.num (((k + 1 : Int) : ℚ) * N)) (.num d) = false := by
      have := a.hi
      simp only [Fl.lt, decide_eq_false_iff_not, not_lt]; push_cast; exact this.le
    rw [this, if_neg (ne_of_gt e3)]; rfl

/-- One of the distances to the two counts is a number of the format. -/
theorem grid_diff (h : Usual f) {N : Int} (hN : 1 ≤ N) {d : ℚ} {k : Int} (hg : f.Grid d) (a : Around f N d k) :
    f.Grid (d - k * N) ∨ f.Grid ((k + 1) * N - d) := by
  have hpos : (0 : ℚ) < N := by exact_mod_cast (by omega : 0 < N)
  have hlo := a.lo
  have hhi := a.hi
  by_cases hk : k = -1
  · right
    subst hk
    obtain ⟨m, e, h1, h2, h3⟩ := hg
    exact ⟨-m, e, by push_cast; rw [h1]; ring, by rw [abs_neg]; exact h2, h3⟩
  · left
    have hle : |d - k * N| ≤ |d| := by
      have h0 : 0 ≤ d - k * N := by linarith
      rw [abs_of_nonneg h0]
      rcases le_or_gt 0 k with hk0 | hk0
      · have hk' : (0 : ℚ) ≤ k := by exact_mod_cast hk0
        have : 0 ≤ d := by nlinarith
        rw [abs_of_nonneg this]; nlinarith
      · have hk' : (k : ℚ) ≤ -2 := by exact_mod_cast (by omega : k ≤ -2)
        have : d ≤ 0 := by nlinarith
        rw [abs_of_nonpos this]; nlinarith
    obtain ⟨m, e, h1, h2, h3⟩ := hg
    rcases le_or_gt 0 e with he | he
    · -- an integer
      obtain ⟨n, hn⟩ := grid_multiple (e := e) (q := 0) m he
      rw [hn] at h1
      simp only [zpow_zero, mul_one] at h1
      have e1 : d - k * N = ((n - k * N : Int) : ℚ) := by rw [h1]; push_cast; ring
      rw [e1]
      apply gridInt h
      rw [← e1]
      have h0 : 0 ≤ d - k * N := by linarith
      have hn := a.n
      rw [abs_of_nonneg h0]
      rw [abs_of_pos hpos] at hn
      linarith
    · obtain ⟨n, hn⟩ := grid_multiple (e := 0) (q := e) (k * N) he.le
      simp only [zpow_zero, mul_one] at hn
      have e1 : d - k * N = ((m - n : Int) : ℚ) * (2 : ℚ) ^ e := by
        have : ((k * N : Int) : ℚ) = k * N := by push_cast; ring
        rw [h1, ← this, hn]; push_cast; ring
      refine ⟨m - n, e, e1, ?_, h3⟩
      rw [e1, h1, abs_mul, abs_mul] at hle
      have := le_of_mul_le_mul_right hle (abs_pos.2 (zpow2_pos e).ne')
      have : |m - n| ≤ |m| := by exact_mod_cast this
      omega

theorem grid_half (h : Usual f) {N : Int} (hn : |(N : ℚ)| < (2 : ℚ) ^ f.p) : f.Grid ((N : ℚ) / 2) := by
  refine ⟨N, -1, ?_, by exact_mod_cast hn, h.emin⟩
  rw [zpow_neg, zpow_one]; ring

/-- The comparison of the rounded distances gives the same as that of the distances. -/
theorem near_compare (h : Usual f) {N : Int} {x y : ℚ} (hn : |(N : ℚ)| < (2 : ℚ) ^ f.p) (hxy : x + y = N)
    (hg : f.Grid x ∨ f.Grid y) : (f.near x = f.near y ↔ x = y) ∧ (f.near x < f.near y ↔ x < y) := by
  have gh := near_exact f h.p (grid_half h hn)
  have key : (x < y → f.near x < f.near y) ∧ (y < x → f.near y < f.near x) := by
    constructor
    · intro hlt
      have h1 : f.near x ≤ N / 2 := by
        have := near_mono f h.p (show x ≤ (N : ℚ) / 2 by linarith); rwa [gh] at this
      have h2 : (N : ℚ) / 2 ≤ f.near y := by
        have := near_mono f h.p (show (N : ℚ) / 2 ≤ y by linarith); rwa [gh] at this
      rcases hg with hg | hg
      · have := near_exact f h.p hg
        linarith
      · have := near_exact f h.p hg
        linarith
    · intro hlt
      have h1 : f.near y ≤ N / 2 := by
        have := near_mono f h.p (show y ≤ (N : ℚ) / 2 by linarith); rwa [gh] at this
      have h2 : (N : ℚ) / 2 ≤ f.near x := by
        have := near_mono f h.p (show (N : ℚ) / 2 ≤ x by linarith); rwa [gh] at this
      rcases hg with hg | hg
      · have := near_exact f h.p hg
        linarith
      · have := near_exact f h.p hg
        linarith
  rcases lt_trichotomy x y with hc | hc | hc
  · have := key.1 hc
    exact ⟨⟨fun e => by linarith, fun e => by linarith⟩, ⟨fun _ => hc, fun _ => this⟩⟩
  · subst hc; simp
  · have := key.2 hc
    exact ⟨⟨fun e => by linarith, fun e => by linarith⟩, ⟨fun e => by linarith, fun e => by linarith⟩⟩

theorem sub_eq (h : Usual f) {x y : ℚ} (hx : |x - y| ≤ (2 : ℚ) ^ f.p) :
    f.sub (.num x) (.num y) = .num (f.near (x - y)) := by
  simp only [Format.sub, Fl.neg, Format.add]
  rw [← sub_eq_add_neg]
  exact round_eq h hx

/-- The choice between the two counts. -/
theorem nearest_cases {N k : Int} {d : ℚ} (h1 : (k : ℚ) * N ≤ d) (h2 : d < (k + 1) * N) (r : Int)
    (hr : r = if d - k * N = (k + 1) * N - d then (if k % 2 = 0 then k else k + 1)
      else if d - k * N < (k + 1) * N - d then k else k + 1) : Nearest d N r := by
  subst hr
  have a0 : |d - k * N| = d - k * N := abs_of_nonneg (by linarith)
  have a1 : |d - ((k + 1 : Int) : ℚ) * N| = (k + 1) * N - d := by
    push_cast
    rw [abs_of_nonpos (by linarith)]; ring
  unfold Nearest
  split
  · rename_i he
    split
    · rename_i hm
      rw [a0]
      exact ⟨by linarith, fun _ => Int.dvd_of_emod_eq_zero hm⟩
    · rename_i hm
      rw [a1]
      exact ⟨by linarith, fun _ => Int.dvd_of_emod_eq_zero (by omega)⟩
  · rename_i he
    split
    · rename_i hlt
      rw [a0]
      exact ⟨by linarith, fun e => by linarith⟩
    · rename_i hlt
      rw [a1]
      have : (k + 1) * (N : ℚ) - d < d - k * N := lt_of_le_of_ne (not_lt.1 hlt) (Ne.symm he)
      exact ⟨by linarith, fun e => by linarith⟩

theorem tdiv_even (k : Int) : k - k.tdiv 2 * 2 = 0 ↔ k % 2 = 0 := by
  have := Int.mul_tdiv_add_tmod k 2
  have h2 : k.tmod 2 = 0 ↔ k % 2 = 0 := by
    rw [← Int.dvd_iff_tmod_eq_zero, Int.dvd_iff_emod_eq_zero]
  omega

theorem diffs (h : Usual f) {N : Int} (hN : 1 ≤ N) {d : ℚ} {k : Int} (hg : f.Grid d) (a : Around f N d k) :
    ∃ x y : ℚ, f.sub (.num d) (ofUnit f N (.num k)) = .num x ∧ f.sub (ofUnit f N (.num ((k + 1 : Int) : ℚ))) (.num d) = .num y ∧
      (x = y ↔ d - k * N = (k + 1) * N - d) ∧ (x < y ↔ d - k * N < (k + 1) * N - d) := by
  have hpos : (0 : ℚ) < N := by exact_mod_cast (by omega : 0 < N)
  have hlo := a.lo
  have hhi := a.hi
  have hn := a.n
  rw [abs_of_pos hpos] at hn
  refine ⟨f.near (d - k * N), f.near ((k + 1) * N - d), ?_, ?_, ?_⟩
  · rw [ofUnit_eq h a.k0 a.n a.m0]
    apply sub_eq h
    rw [abs_of_nonneg (by linarith)]; linarith
  · rw [ofUnit_eq h a.k1 a.n a.m1]
    push_cast
    apply sub_eq h
    rw [abs_of_nonneg (by linarith)]; linarith
  · exact near_compare h a.n (by ring) (grid_diff h hN hg a)

theorem roundI_eq (h : Usual f) {N lo hi : Int} (hN : 1 ≤ N) {d : ℚ} {k : Int} (hg : f.Grid d) (a : Around f N d k)
    (h1 : lo ≤ k) (h2 : k + 1 ≤ hi) : ∃ r, roundI f lo hi N (.num d) = .ok r ∧ Nearest d N r := by
  refine ⟨_, ?_, nearest_cases a.lo a.hi _ rfl⟩
  unfold roundI
  rw [floorI_eq h hN hg a h1 h2]
  have e1 : inRange lo hi (k + 1) = .ok (k + 1) := if_pos ⟨by omega, h2⟩
  show (inRange lo hi (k + 1) >>= _) = _
  rw [e1]
  obtain ⟨x, y, hx, hy, he, hl⟩ := diffs h hN hg a
  show (if _ then _ else _) = _
  rw [round_int h a.k0, round_int h a.k1, hx, hy]
  have e2 : Fl.eq (.num x) (.num y) = decide (x = y) := by simp only [Fl.eq]; exact beq_eq_decide x y
  have e3 : Fl.lt (.num x) (.num y) = decide (x < y) := rfl
  rw [e2, e3]
  by_cases hc : d - k * N = (k + 1) * N - d
  · rw [if_pos hc, decide_eq_true (he.2 hc), if_pos rfl]
    by_cases hev : k % 2 = 0
    · rw [if_pos hev, if_pos ((tdiv_even k).2 hev)]; rfl
    · rw [if_neg hev, if_neg (fun e => hev ((tdiv_even k).1 e))]; rfl
  · rw [if_neg hc, decide_eq_false (fun e => hc (he.1 e)), if_neg (by simp)]
    by_cases hlt : d - k * N < (k + 1) * N - d
    · rw [if_pos hlt, decide_eq_true (hl.2 hlt), if_pos rfl]; rfl
    · rw [if_neg hlt, decide_eq_false (fun e => hlt (hl.1 e)), if_neg (by simp)]; rfl

theorem grid_large {x : ℚ} (hg : f.Grid x) (hx : (2 : ℚ) ^ (f.p - 1) < |x|) (hp : 1 ≤ f.p) : ∃ n : Int, x = n := by
  obtain ⟨m, e, h1, h2, h3⟩ := hg
  have he : 0 ≤ e := by
    by_contra hc
    have hq : (2 : ℚ) ^ e ≤ 2 ^ (-1 : Int) := zpow2_le (by omega)
    have hm : |(m : ℚ)| < 2 ^ f.p := by exact_mod_cast h2
    rw [h1, abs_mul, abs_of_pos (zpow2_pos e)] at hx
    have e2 : (2 : ℚ) ^ f.p = 2 * 2 ^ (f.p - 1) := by rw [← pow_succ']; congr 1; omega
    have e3 : (2 : ℚ) ^ (-1 : Int) = 1 / 2 := by norm_num
    rw [e3] at hq
    have := mul_le_mul_of_nonneg_left hq (abs_nonneg (m : ℚ))
    linarith
  obtain ⟨n, hn⟩ := grid_multiple (e := e) (q := 0) m he
  exact ⟨n, by rw [h1, hn]; simp⟩

/-- tint() of a number of the format is a number of the format. -/
theorem truncFl_eq (h : Usual f) {x : ℚ} (hg : f.Grid x) : truncFl f (.num x) = .num (tint x) := by
  simp only [truncFl]
  split
  · rename_i hc
    have hx : |(tint x : ℚ)| ≤ (2 : ℚ) ^ (f.p - 1) := by
      have e : ((2 ^ (f.p - 1) : Int) : ℚ) = (2 : ℚ) ^ (f.p - 1) := by push_cast; rfl
      unfold tint
      rw [abs_le]
      split
      · rename_i h0
        have := Int.floor_le x
        have h5 : (0 : ℚ) ≤ ⌊x⌋ := by exact_mod_cast Int.floor_nonneg.2 h0
        constructor <;> linarith [hc.2.1]
      · rename_i h0
        have := Int.le_ceil x
        have h5 : (⌈x⌉ : ℚ) ≤ 0 := by
          have : ⌈x⌉ ≤ 0 := Int.ceil_le.2 (by push_cast; linarith)
          exact_mod_cast this
        have h6 : (0 : ℚ) < 2 ^ (f.p - 1) := by positivity
        constructor <;> linarith [hc.1]
    apply round_int h
    apply lt_of_le_of_lt hx
    exact pow_lt_pow_right₀ (by norm_num) (by have := h.p; omega)
  · rename_i hc
    by_cases h0 : x = 0
    · rw [h0]; simp [tint]
    · have hx : (2 : ℚ) ^ (f.p - 1) < |x| := by
        by_contra hn
        rw [not_lt, abs_le] at hn
        exact hc ⟨hn.1, hn.2, h0⟩
      obtain ⟨n, rfl⟩ := grid_large hg hx h.p
      rw [tint_int]

theorem add_one (h : Usual f) {n : Int} (hn : |((n + 1 : Int) : ℚ)| < (2 : ℚ) ^ f.p) :
    f.add (.num n) (.num 1) = .num ((n + 1 : Int) : ℚ) := by
  simp only [Format.add]
  have := round_int h hn
  push_cast at this ⊢
  exact this

theorem floorF_eq (h : Usual f) {N : Int} (hN : 1 ≤ N) {d : ℚ} {k : Int} (hg : f.Grid d) (a : Around f N d k) :
    floorF f N (.num d) = .num k := by
  obtain ⟨y, e1, gy, _, e2⟩ := trunc_cases h hN hg a
  have et : truncF f N (.num d) = .num (tint y) := by rw [truncF, e1, truncFl_eq h gy]
  show (if _ then _ else _) = _
  rw [et]
  rcases e2 with e2 | ⟨e2, _⟩
  · rw [e2, ofUnit_eq h a.k0 a.n a.m0]
    have : Fl.lt (.num d) (.num ((k : ℚ) * N)) = false := by simp [Fl.lt, a.lo]
    rw [this]; rfl
  · rw [e2, ofUnit_eq h a.k1 a.n a.m1]
    have : Fl.lt (.num d) (.num (((k + 1 : Int) : ℚ) * N)) = true := by
      have := a.hi
      simp only [Fl.lt, decide_eq_true_eq]; push_cast; exact this
    rw [this, if_pos rfl]
    have hk : ((k + 1 : Int) : ℚ) - 1 = k := by push_cast; ring
    rw [sub_eq h (by rw [hk]; exact a.k0.le), hk, near_exact f h.p (gridInt h a.k0)]

theorem ceilF_eq (h : Usual f) {N : Int} (hN : 1 ≤ N) {d : ℚ} {k : Int} (hg : f.Grid d) (a : Around f N d k) :
    ceilF f N (.num d) = .num ((if d = k * N then k else k + 1 : Int) : ℚ) := by
  obtain ⟨y, e1, gy, _, e2⟩ := trunc_cases h hN hg a
  have et : truncF f N (.num d) = .num (tint y) := by rw [truncF, e1, truncFl_eq h gy]
  show (if _ then _ else _) = _
  rw [et]
  rcases e2 with e2 | ⟨e2, e3⟩
  · rw [e2, ofUnit_eq h a.k0 a.n a.m0]
    by_cases hd : d = k * N
    · have : Fl.lt (.num ((k : ℚ) * N)) (.num d) = false := by simp [Fl.lt, hd]
      rw [this, if_pos hd]; rfl
    · have : Fl.lt (.num ((k : ℚ) * N)) (.num d) = true := by
        simp only [Fl.lt, decide_eq_true_eq]
        exact lt_of_le_of_ne a.lo (Ne.symm hd)
      rw [this, if_pos rfl, if_neg hd, add_one h a.k1]
  · rw [e2, ofUnit_eq h a.k1 a.n a.m1]
    have : Fl.lt (.num (((k + 1 : Int) : ℚ) * N)) (.num d) = false := by
      have := a.hi
      simp only [Fl.lt, decide_eq_false_iff_not, not_lt]; push_cast; exact this.le
    rw [this, if_neg (ne_of_gt e3)]; rfl

/-- The test for even numbers in round(). -/
theorem even_test (h : Usual f) {k : Int} (hk : |(k : ℚ)| < (2 : ℚ) ^ f.p) :
    Fl.eq (f.sub (.num k) (f.mul (truncF f 1 (f.div (.num k) (.num 2))) (.num 2))) (.num 0) = decide (k % 2 = 0) := by
  have e1 : f.div (.num k) (.num 2) = .num ((k : ℚ) / 2) := by
    simp only [Format.div, if_neg (show (2 : ℚ) ≠ 0 by norm_num)]
    apply round_grid h (grid_half h hk)
    rw [abs_div, abs_of_pos (show (0 : ℚ) < 2 by norm_num)]
    have := abs_nonneg (k : ℚ)
    linarith
  have e2 : tint ((k : ℚ) / 2) = k.tdiv 2 := by
    unfold tint
    have ef : ⌊(k : ℚ) / 2⌋ = k / 2 := by
      have := Int.floor_div_natCast (k := ℚ) (k : ℚ) 2
      push_cast at this
      rw [this]; simp
    split
    · rename_i h0
      have : 0 ≤ k := by
        have : (0 : ℚ) ≤ k := by linarith
        exact_mod_cast this
      rw [ef, Int.tdiv_eq_ediv_of_nonneg this]
    · rename_i h0
      have : k ≤ 0 := by
        have : (k : ℚ) ≤ 0 := by linarith
        exact_mod_cast this
      have e : ⌈(k : ℚ) / 2⌉ = -⌊((-k : Int) : ℚ) / 2⌋ := by
        push_cast; rw [neg_div, Int.floor_neg]; simp
      have ef' : ⌊((-k : Int) : ℚ) / 2⌋ = (-k) / 2 := by
        have := Int.floor_div_natCast (k := ℚ) ((-k : Int) : ℚ) 2
        rw [show ((2 : Nat) : ℚ) = 2 by norm_num] at this
        rw [this, Int.floor_intCast]; rfl
      rw [e, ef', ← Int.tdiv_eq_ediv_of_nonneg (by omega), Int.neg_tdiv, neg_neg]
  have hb : |((k.tdiv 2 * 2 : Int) : ℚ)| < (2 : ℚ) ^ f.p := by
    have : |k.tdiv 2 * 2| ≤ |k| := by
      have := Int.mul_tdiv_add_tmod k 2
      rcases le_or_gt 0 k with h0 | h0
      · have h1 := Int.tmod_nonneg 2 h0
        have h2 : 0 ≤ k.tdiv 2 := Int.tdiv_nonneg h0 (by norm_num)
        rw [abs_of_nonneg h0, abs_of_nonneg (by omega)]; omega
      · have h1 : -k.tmod 2 = (-k).tmod 2 := (Int.neg_tmod k 2).symm
        have h2 := Int.tmod_nonneg 2 (a := -k) (by omega)
        have h3 : 0 ≤ (-k).tdiv 2 := Int.tdiv_nonneg (by omega) (by norm_num)
        rw [Int.neg_tdiv] at h3
        rw [abs_of_neg h0, abs_of_nonpos (by omega)]; omega
    have : |((k.tdiv 2 * 2 : Int) : ℚ)| ≤ |(k : ℚ)| := by exact_mod_cast this
    linarith
  have e3 : truncF f 1 (f.div (.num k) (.num 2)) = .num ((k.tdiv 2 : Int) : ℚ) := by
    simp only [truncF, toUnit, if_true, e1]
    rw [truncFl_eq h (grid_half h hk), e2]
  rw [e3]
  have e4 : f.mul (.num ((k.tdiv 2 : Int) : ℚ)) (.num 2) = .num ((k.tdiv 2 * 2 : Int) : ℚ) := by
    simp only [Format.mul]
    have := round_int h hb
    push_cast at this ⊢
    exact this
  rw [e4]
  have e5 : (k : ℚ) - ((k.tdiv 2 * 2 : Int) : ℚ) = ((k - k.tdiv 2 * 2 : Int) : ℚ) := by push_cast; ring
  have hr : |((k - k.tdiv 2 * 2 : Int) : ℚ)| < (2 : ℚ) ^ f.p := by
    have h1 : |k - k.tdiv 2 * 2| ≤ 1 := by
      have := Int.mul_tdiv_add_tmod k 2
      have h3 := Int.natAbs_tmod k 2
      have : (k.tmod 2).natAbs < 2 := by rw [h3]; exact Nat.mod_lt _ (by norm_num)
      rw [abs_le]; omega
    have h2 : |((k - k.tdiv 2 * 2 : Int) : ℚ)| ≤ 1 := by exact_mod_cast h1
    have h3 : (1 : ℚ) < 2 ^ f.p := one_lt_pow₀ (by norm_num) (by have := h.p; omega)
    linarith
  rw [sub_eq h (by rw [e5]; exact hr.le), e5, near_exact f h.p (gridInt h hr)]
  simp only [Fl.eq]
  rw [beq_eq_decide]
  congr 1
  rw [← tdiv_even]
  exact propext ⟨fun e => by exact_mod_cast e, fun e => by exact_mod_cast e⟩

theorem roundF_eq (h : Usual f) {N : Int} (hN : 1 ≤ N) {d : ℚ} {k : Int} (hg : f.Grid d) (a : Around f N d k) :
    ∃ r : Int, roundF f N (.num d) = .num r ∧ Nearest d N r := by
  refine ⟨_, ?_, nearest_cases a.lo a.hi _ rfl⟩
  simp only [roundF]
  rw [floorF_eq h hN hg a, add_one h a.k1]
  obtain ⟨x, y, hx, hy, he, hl⟩ := diffs h hN hg a
  rw [hx, hy, even_test h a.k0]
  have e2 : Fl.eq (.num x) (.num y) = decide (x = y) := by simp only [Fl.eq]; exact beq_eq_decide x y
  have e3 : Fl.lt (.num x) (.num y) = decide (x < y) := rfl
  rw [e2, e3]
  by_cases hc : d - k * N = (k + 1) * N - d
  · rw [if_pos hc, decide_eq_true (he.2 hc), if_pos rfl]
    by_cases hev : k % 2 = 0
    · rw [if_pos hev, if_pos (by simpa using hev)]
    · rw [if_neg hev, if_neg (by simpa using hev)]
  · rw [if_neg hc, decide_eq_false (fun e => hc (he.1 e)), if_neg (by simp)]
    by_cases hlt : d - k * N < (k + 1) * N - d
    · rw [if_pos hlt, decide_eq_true (hl.2 hlt), if_pos rfl]
    · rw [if_neg hlt, decide_eq_false (fun e => hlt (hl.1 e)), if_neg (by simp)]

theorem ceil_eq {N : Int} (hN : 1 ≤ N) (d : ℚ) :
    (if d = ⌊d / N⌋ * N then ⌊d / N⌋ else ⌊d / N⌋ + 1) = ⌈d / N⌉ := by
  have hpos : (0 : ℚ) < N := by exact_mod_cast (by omega : 0 < N)
  split
  · rename_i h
    have : d / N = (⌊d / N⌋ : Int) := by rw [div_eq_iff hpos.ne']; exact h
    rw [this]; simp
  · rename_i h
    symm
    rw [Int.ceil_eq_iff]
    have h1 := Int.floor_le (d / N)
    have h2 := Int.lt_floor_add_one (d / N)
    push_cast
    refine ⟨?_, h2.le⟩
    have : (⌊d / N⌋ : ℚ) < d / N := by
      apply lt_of_le_of_ne h1
      intro e
      apply h
      rw [e, div_mul_cancel₀ _ hpos.ne']
    linarith
/-- A multiple of `2^q` that is smaller than another one is smaller by at least `2^q`. -/
theorem gap {x y : ℚ} {q : Int} (hx : ∃ n : Int, x = n * (2 : ℚ) ^ q) (hy : ∃ n : Int, y = n * (2 : ℚ) ^ q) (h : x < y) :
    x + (2 : ℚ) ^ q ≤ y := by
  obtain ⟨m, rfl⟩ := hx
  obtain ⟨n, rfl⟩ := hy
  have hp := zpow2_pos q
  have : (m : ℚ) < n := lt_of_mul_lt_mul_right h hp.le
  have : m + 1 ≤ n := by exact_mod_cast this
  have : (m : ℚ) + 1 ≤ n := by exact_mod_cast this
  nlinarith

theorem pow_split (a b : Int) : (2 : ℚ) ^ (a + b) = 2 ^ a * 2 ^ b := zpow_add₀ (by norm_num) a b

/-- The largest number of the format below a power of 2. -/
theorem below_pow (h : Usual f) {d : ℚ} (hg : f.Grid d) {s : Int} (hs : d < (2 : ℚ) ^ s) :
    d + (2 : ℚ) ^ (s - f.p) ≤ (2 : ℚ) ^ s := by
  obtain ⟨m, E, h1, h2, h3⟩ := hg
  have h2s : (2 : ℚ) ^ s = 2 * 2 ^ (s - 1) := by
    rw [show s = (1 : Int) + (s - 1) by ring, pow_split]; norm_num
  rcases le_or_gt (s - f.p) E with hE | hE
  · refine gap ?_ ?_ hs
    · rw [h1]; exact grid_multiple m hE
    · obtain ⟨n, hn⟩ := grid_multiple (e := s) (q := s - f.p) 1 (by omega)
      exact ⟨n, by rw [← hn]; simp⟩
  · have hm : (m : ℚ) < 2 ^ f.p := by
      have : |(m : ℚ)| < 2 ^ f.p := by exact_mod_cast h2
      exact lt_of_le_of_lt (le_abs_self _) this
    have a1 : d ≤ (2 : ℚ) ^ (s - 1) := by
      have b1 : d ≤ (2 : ℚ) ^ (f.p : Int) * 2 ^ E := by
        rw [h1, zpow_natCast]; exact mul_le_mul_of_nonneg_right hm.le (zpow2_pos E).le
      rw [← pow_split] at b1
      exact le_trans b1 (zpow2_le (by omega))
    have a2 : (2 : ℚ) ^ (s - f.p) ≤ 2 ^ (s - 1) := zpow2_le (by have := h.p; omega)
    linarith

/-- A quotient that is less than an integer is not rounded up to it. -/
theorem near_lt (h : Usual f) {N K : Int} (hN : 1 ≤ N) (hK : 1 ≤ K) {d : ℚ} (hg : f.Grid d)
    (hd : d < K * N) (hb : ((K * N : Int) : ℚ) < (2 : ℚ) ^ f.p) : f.near (d / N) < K := by
  have hN' : (0 : ℚ) < N := by exact_mod_cast (by omega : 0 < N)
  have hK' : (0 : ℚ) < K := by exact_mod_cast (by omega : 0 < K)
  obtain ⟨j1, j2⟩ := ilog2_spec hN'
  obtain ⟨e1, e2⟩ := ilog2_spec hK'
  set j := ilog2 (N : ℚ)
  set e := ilog2 (K : ℚ)
  have hej : (2 : ℚ) ^ (e + j) ≤ K * N := by
    rw [pow_split]; exact mul_le_mul e1 j1 (zpow2_pos j).le hK'.le
  push_cast at hb
  have hlt : e + j < f.p := by
    have : (2 : ℚ) ^ (e + j) < 2 ^ (f.p : Int) := by rw [zpow_natCast]; linarith
    exact zpow2_lt.1 this
  have he0 : 0 ≤ e := by
    by_contra hc
    have : (2 : ℚ) ^ (e + 1) ≤ 2 ^ (0 : Int) := zpow2_le (by omega)
    have : (1 : ℚ) ≤ K := by exact_mod_cast hK
    rw [zpow_zero] at *
    linarith
  have hj0 : 0 ≤ j := by
    by_contra hc
    have : (2 : ℚ) ^ (j + 1) ≤ 2 ^ (0 : Int) := zpow2_le (by omega)
    have : (1 : ℚ) ≤ N := by exact_mod_cast hN
    rw [zpow_zero] at *
    linarith
  rcases lt_or_ge d ((2 : ℚ) ^ (e + j)) with hc | hc
  · -- below the power of 2
    have h1 := below_pow h hg hc
    have h2 : d / N ≤ ((2 ^ f.p - 1 : Int) : ℚ) * (2 : ℚ) ^ (e - f.p) := by
      rw [div_le_iff₀ hN']
      have s1 : (2 : ℚ) ^ (e + j - f.p) = 2 ^ (e - f.p) * 2 ^ j := by rw [← pow_split]; congr 1; ring
      have s2 : (2 : ℚ) ^ (e + j) = 2 ^ f.p * (2 ^ (e - f.p) * 2 ^ j) := by
        rw [← pow_split, ← zpow_natCast, ← pow_split]; congr 1; ring
      have s3 : d ≤ ((2 : ℚ) ^ f.p - 1) * 2 ^ (e - f.p) * 2 ^ j := by
        rw [s1, s2] at h1; linarith
      have s4 : (0 : ℚ) ≤ ((2 : ℚ) ^ f.p - 1) * 2 ^ (e - f.p) := by
        apply mul_nonneg _ (zpow2_pos _).le
        have : (1 : ℚ) ≤ 2 ^ f.p := one_le_pow₀ (by norm_num)
        linarith
      push_cast
      exact le_trans s3 (mul_le_mul_of_nonneg_left j1 s4)
    have g : f.Grid (((2 ^ f.p - 1 : Int) : ℚ) * (2 : ℚ) ^ (e - f.p)) := by
      refine ⟨_, _, rfl, ?_, by have := h.sub; omega⟩
      have : (1 : Int) ≤ 2 ^ f.p := one_le_pow₀ (by norm_num)
      rw [abs_of_nonneg (by linarith)]; linarith
    have h3 := near_mono f h.p h2
    rw [near_exact f h.p g] at h3
    have h4 : ((2 ^ f.p - 1 : Int) : ℚ) * (2 : ℚ) ^ (e - f.p) < 2 ^ e := by
      have : (2 : ℚ) ^ e = 2 ^ f.p * 2 ^ (e - f.p) := by
        rw [← zpow_natCast, ← pow_split]; congr 1; ring
      rw [this]; push_cast
      have := zpow2_pos (e - f.p)
      linarith
    linarith
  · -- the distance to K * N is at least one unit of d
    have hmul : ∃ n : Int, d = n * (2 : ℚ) ^ (e + j - f.p + 1) := by
      obtain ⟨m, E, h1, h2, h3⟩ := hg
      rw [h1]
      apply grid_multiple m
      by_contra hE
      have hm : (m : ℚ) < 2 ^ f.p := by
        have : |(m : ℚ)| < 2 ^ f.p := by exact_mod_cast h2
        exact lt_of_le_of_lt (le_abs_self _) this
      have b1 : d < (2 : ℚ) ^ (f.p : Int) * 2 ^ E := by
        rw [h1, zpow_natCast]; exact mul_lt_mul_of_pos_right hm (zpow2_pos E)
      rw [← pow_split] at b1
      have : (2 : ℚ) ^ ((f.p : Int) + E) ≤ 2 ^ (e + j) := zpow2_le (by omega)
      linarith
    have hmul2 : ∃ n : Int, (K : ℚ) * N = n * (2 : ℚ) ^ (e + j - f.p + 1) := by
      obtain ⟨n, hn⟩ := grid_multiple (e := 0) (q := e + j - f.p + 1) (K * N) (by omega)
      exact ⟨n, by rw [← hn]; push_cast; ring⟩
    have hgap := gap hmul hmul2 hd
    -- so the quotient is nearer to the number before K
    set u := (2 : ℚ) ^ (e - f.p) with hu
    have hu0 : 0 < u := zpow2_pos _
    have s1 : (2 : ℚ) ^ (e + j - f.p + 1) = u * 2 ^ (j + 1) := by rw [hu, ← pow_split]; congr 1; ring
    have hq : d / N < K - u := by
      rw [div_lt_iff₀ hN']
      rw [s1] at hgap
      have : u * N < u * 2 ^ (j + 1) := mul_lt_mul_of_pos_left j2 hu0
      nlinarith
    have g : f.Grid ((K : ℚ) - 2 * u) := by
      obtain ⟨n, hn⟩ := grid_multiple (e := 0) (q := e - f.p + 1) K (by omega)
      simp only [zpow_zero, mul_one] at hn
      have s2 : (2 : ℚ) ^ (e - f.p + 1) = 2 * u := by rw [hu, pow_split]; norm_num; ring
      refine ⟨n - 1, e - f.p + 1, ?_, ?_, by have := h.sub; omega⟩
      · rw [hn, s2]; push_cast; ring
      · rw [s2] at hn
        have n0 : (0 : ℚ) < n := by
          by_contra hneg
          have := mul_nonpos_of_nonpos_of_nonneg (not_lt.1 hneg) (by linarith : (0 : ℚ) ≤ 2 * u)
          linarith
        have n1 : (n : ℚ) < 2 ^ f.p := by
          have s3 : (2 : ℚ) ^ (e + 1) = 2 ^ f.p * (2 * u) := by
            rw [← s2, ← zpow_natCast, ← pow_split]; congr 1; ring
          rw [hn, s3] at e2
          exact lt_of_mul_lt_mul_right e2 (by linarith)
        have n0' : 0 < n := by exact_mod_cast n0
        have n1' : n < 2 ^ f.p := by exact_mod_cast n1
        rw [abs_of_nonneg (by omega)]; omega
    have hle : f.near (d / N) ≤ K := by
      have h5 : d / N ≤ K := by linarith
      have h6 := near_mono f h.p h5
      rwa [near_exact f h.p (gridInt h (n := K) ?_)] at h6
      rw [abs_of_pos hK']
      have : (1 : ℚ) ≤ N := by exact_mod_cast hN
      nlinarith
    apply lt_of_le_of_ne hle
    intro heq
    have h7 := near_nearest f h.p (x := d / N) g
    rw [heq] at h7
    rw [abs_of_pos (by linarith)] at h7
    rcases le_total 0 (K - 2 * u - d / N) with hs | hs
    · rw [abs_of_nonneg hs] at h7; linarith
    · rw [abs_of_nonpos hs] at h7; linarith

theorem tint_neg (x : ℚ) : tint (-x) = -tint x := by
  unfold tint
  rcases lt_trichotomy x 0 with hx | hx | hx
  · rw [if_pos (by linarith), if_neg (by linarith), Int.floor_neg]
  · subst hx; simp
  · rw [if_neg (by linarith), if_pos hx.le, Int.ceil_neg]

theorem tint_near_nonneg (h : Usual f) {N : Int} (hN : 1 ≤ N) {d : ℚ} (h0 : 0 ≤ d) (hg : f.Grid d)
    (hb : |d| + N < (2 : ℚ) ^ f.p) : tint (f.near (d / N)) = ⌊d / N⌋ := by
  have hpos : (0 : ℚ) < N := by exact_mod_cast (by omega : 0 < N)
  have a := around (f := f) N hN d hb
  have hq : 0 ≤ d / N := div_nonneg h0 hpos.le
  have k0 : 0 ≤ ⌊d / N⌋ := Int.floor_nonneg.2 hq
  have h1 : f.near (d / N) < ((⌊d / N⌋ + 1 : Int) : ℚ) := by
    refine near_lt h hN (by omega) hg ?_ (lt_of_le_of_lt (le_abs_self _) a.m1)
    have := a.hi
    push_cast; exact this
  have h2 : ((⌊d / N⌋ : Int) : ℚ) ≤ f.near (d / N) := by
    have := near_mono f h.p (Int.floor_le (d / N))
    rwa [near_exact f h.p (gridInt h a.k0)] at this
  have h3 := near_nonneg f h.p hq
  unfold tint
  rw [if_pos h3, Int.floor_eq_iff]
  push_cast at h1
  exact ⟨h2, h1⟩

theorem tint_near (h : Usual f) {N : Int} (hN : 1 ≤ N) {d : ℚ} (hg : f.Grid d)
    (hb : |d| + N < (2 : ℚ) ^ f.p) : tint (f.near (d / N)) = tint (d / N) := by
  have hpos : (0 : ℚ) < N := by exact_mod_cast (by omega : 0 < N)
  rcases le_or_gt 0 d with h0 | h0
  · rw [tint_near_nonneg h hN h0 hg hb]
    unfold tint
    rw [if_pos (div_nonneg h0 hpos.le)]
  · have hg' : f.Grid (-d) := by
      obtain ⟨m, e, h1, h2, h3⟩ := hg
      exact ⟨-m, e, by push_cast; rw [h1]; ring, by rw [abs_neg]; exact h2, h3⟩
    have h1 := tint_near_nonneg h hN (d := -d) (by linarith) hg' (by rw [abs_neg]; exact hb)
    rw [neg_div, near_neg, tint_neg] at h1
    have h2 : tint (-(d / N)) = ⌊-(d / N)⌋ := by
      unfold tint
      rw [if_pos]
      rw [← neg_div]; exact div_nonneg (by linarith) hpos.le
    rw [tint_neg] at h2
    omega

theorem toUnit_tint (h : Usual f) {N : Int} (hN : 1 ≤ N) {d : ℚ} (hg : f.Grid d) (hb : |d| + N < (2 : ℚ) ^ f.p) :
    ∃ y, toUnit f N (.num d) = .num y ∧ f.Grid y ∧ tint y = tint (d / N) := by
  have a := around (f := f) N hN d hb
  have hpos : (0 : ℚ) < N := by exact_mod_cast (by omega : 0 < N)
  unfold toUnit
  split
  · rename_i h1
    subst h1
    exact ⟨d, rfl, hg, by simp⟩
  · refine ⟨f.near (d / N), ?_, near_grid f h.p _, tint_near h hN hg hb⟩
    rw [round_int h a.n]
    simp only [Format.div, hpos.ne', if_false]
    apply round_eq h
    rw [abs_div, abs_of_pos hpos, div_le_iff₀ hpos]
    have : (1 : ℚ) ≤ N := by exact_mod_cast hN
    nlinarith [abs_nonneg d]
end

/-! ## C135 -/

/-- Rounding a floating-point duration to an integer count of a unit that is `N` times as long: floor and ceil give exactly the
largest integer not above and the smallest not below the quotient, and round the nearest integer, or the even one of two, as
if nothing was rounded on the way; for all numbers `d` of the format below 2^p - N if the result fits into the type. -/
theorem c135_to_integer (f : Format) (h : Usual f) (lo hi N : Int) (hN : 1 ≤ N) (d : ℚ) (hd : f.Rep d)
    (hb : |d| + N < (2 : ℚ) ^ f.p) (hlo : lo ≤ ⌊d / N⌋) (hhi : ⌊d / N⌋ + 1 ≤ hi) :
    floorI f lo hi N (.num d) = .ok ⌊d / N⌋ ∧ ceilI f lo hi N (.num d) = .ok ⌈d / N⌉ ∧
    ∃ r, roundI f lo hi N (.num d) = .ok r ∧ Nearest d N r := by
  have a := around N hN d hb
  have hg := rep_grid f hd
  refine ⟨floorI_eq h hN hg a hlo hhi, ?_, roundI_eq h hN hg a hlo hhi⟩
  rw [ceilI_eq h hN hg a hlo hhi, ceil_eq hN]

/-- The same for counts that are floating-point numbers. -/
theorem c135_to_float (f : Format) (h : Usual f) (N : Int) (hN : 1 ≤ N) (d : ℚ) (hd : f.Rep d)
    (hb : |d| + N < (2 : ℚ) ^ f.p) :
    floorF f N (.num d) = .num ⌊d / N⌋ ∧ ceilF f N (.num d) = .num ⌈d / N⌉ ∧
    ∃ r : Int, roundF f N (.num d) = .num r ∧ Nearest d N r := by
  have a := around N hN d hb
  have hg := rep_grid f hd
  refine ⟨floorF_eq h hN hg a, ?_, roundF_eq h hN hg a⟩
  rw [ceilF_eq h hN hg a, ceil_eq hN]

/-- trunc drops the fraction of every floating-point number, however large, and leaves infinities and NaN alone; in the same
unit floor and ceil are right for all numbers as well. -/
theorem c135_same_unit (f : Format) (h : Usual f) :
    (∀ d, f.Rep d → truncF f 1 (.num d) = .num (if 0 ≤ d then ⌊d⌋ else ⌈d⌉ : Int) ∧
      floorF f 1 (.num d) = .num ⌊d⌋ ∧ ceilF f 1 (.num d) = .num ⌈d⌉) ∧
    (∀ b, truncF f 1 (.inf b) = .inf b ∧ floorF f 1 (.inf b) = .inf b ∧ ceilF f 1 (.inf b) = .inf b) ∧
    truncF f 1 .nan = .nan ∧ floorF f 1 .nan = .nan ∧ ceilF f 1 .nan = .nan := by
  refine ⟨?_, ?_, rfl, rfl, rfl⟩
  · intro d hd
    have hg := rep_grid f hd
    have ht : truncF f 1 (.num d) = .num (tint d) := truncFl_eq h hg
    refine ⟨ht, ?_⟩
    by_cases hb : |d| + 1 < (2 : ℚ) ^ f.p
    · obtain ⟨h1, h2, _⟩ := c135_to_float f h 1 (by norm_num) d hd (by push_cast; exact hb)
      simp only [Int.cast_one, div_one] at h1 h2
      exact ⟨h1, h2⟩
    · have hx : (2 : ℚ) ^ (f.p - 1) < |d| := by
        rw [not_lt] at hb
        have e2 : (2 : ℚ) ^ f.p = 2 * 2 ^ (f.p - 1) := by rw [← pow_succ']; congr 1; have := h.p; omega
        have e3 : (2 : ℚ) ≤ 2 ^ (f.p - 1) := by
          calc (2 : ℚ) = 2 ^ 1 := by norm_num
            _ ≤ _ := pow_le_pow_right₀ (by norm_num) (by have := h.p2; omega)
        linarith
      have hn : ∃ n : Int, d = n := grid_large hg hx h.p
      obtain ⟨n, rfl⟩ := hn
      have hl : Fl.lt (.num (n : ℚ)) (.num (n : ℚ)) = false := by simp [Fl.lt]
      rw [tint_int] at ht
      constructor
      · simp only [floorF, ht, ofUnit, if_true, hl]; simp
      · simp only [ceilF, ht, ofUnit, if_true, hl]; simp
  · intro b
    cases b <;> exact ⟨rfl, rfl, rfl⟩

/-- To a unit that is `a` times as short, the results are those for the product of `d` and `a` rounded to the format. -/
theorem c135_finer (f : Format) (h : Usual f) (lo hi a : Int) (d : ℚ)
    (ha : |(a : ℚ)| < (2 : ℚ) ^ f.p) (hb : |f.near (d * a)| + 1 < (2 : ℚ) ^ f.p)
    (hlo : lo ≤ ⌊f.near (d * a)⌋) (hhi : ⌊f.near (d * a)⌋ + 1 ≤ hi) :
    floorFiner f lo hi a (.num d) = .ok ⌊f.near (d * a)⌋ ∧ ceilFiner f lo hi a (.num d) = .ok ⌈f.near (d * a)⌉ ∧
    ∃ r, roundFiner f lo hi a (.num d) = .ok r ∧ Nearest (f.near (d * a)) 1 r := by
  have he : f.emin ≤ f.emax := by have := h.emin; have := h.emax; omega
  have hm : |f.near (d * a)| ≤ f.max := by
    have := two_pow_le_max h
    linarith
  have e : f.mul (.num d) (f.round a) = .num (f.near (d * a)) := by
    rw [round_int h ha]
    simp only [Format.mul, Format.round]
    rw [if_neg (not_lt.2 hm)]
  have hr : f.Rep (f.near (d * a)) := grid_rep f he (near_grid f h.p _) hm
  unfold floorFiner ceilFiner roundFiner
  rw [e]
  have := c135_to_integer f h lo hi 1 (by norm_num) _ hr (by push_cast; exact hb)
    (by simpa using hlo) (by simpa using hhi)
  simpa using this

/-- trunc drops the fraction of the exact quotient, also if the quotient is rounded before. -/
theorem c135_trunc (f : Format) (h : Usual f) (N : Int) (hN : 1 ≤ N) (d : ℚ) (hd : f.Rep d)
    (hb : |d| + N < (2 : ℚ) ^ f.p) :
    truncF f N (.num d) = .num (if 0 ≤ d / N then ⌊d / N⌋ else ⌈d / N⌉ : Int) ∧
    ∀ lo hi, lo ≤ (if 0 ≤ d / N then ⌊d / N⌋ else ⌈d / N⌉ : Int) → (if 0 ≤ d / N then ⌊d / N⌋ else ⌈d / N⌉ : Int) ≤ hi →
      truncI f lo hi N (.num d) = .ok (if 0 ≤ d / N then ⌊d / N⌋ else ⌈d / N⌉) := by
  obtain ⟨y, e1, g, e2⟩ := toUnit_tint h hN (rep_grid f hd) hb
  constructor
  · rw [truncF, e1, truncFl_eq h g, e2]; rfl
  · intro lo hi h1 h2
    rw [truncI, e1]
    simp only [castInt, e2]
    exact if_pos ⟨h1, h2⟩

/-- Conversion of infinities, NaN and numbers that do not fit to integers is undefined in all of them. -/
theorem c135_undefined (f : Format) (lo hi N : Int) (d : Fl)
    (hd : d = .nan ∨ (∃ b, d = .inf b) ∨ ∃ y, toUnit f N d = .num y ∧ (tint y < lo ∨ hi < tint y)) :
    floorI f lo hi N d = .ub ∧ ceilI f lo hi N d = .ub ∧ roundI f lo hi N d = .ub := by
  have key : truncI f lo hi N d = .ub := by
    unfold truncI
    rcases hd with rfl | ⟨b, rfl⟩ | ⟨y, hy, h⟩
    · have : toUnit f N .nan = .nan := by unfold toUnit; split <;> [rfl; rfl]
      rw [this]; rfl
    · have : toUnit f N (.inf b) = .nan ∨ ∃ c, toUnit f N (.inf b) = .inf c := by
        unfold toUnit
        split
        · exact .inr ⟨b, rfl⟩
        · cases f.round N with
          | num y => exact .inr ⟨_, rfl⟩
          | inf c => exact .inl rfl
          | nan => exact .inl rfl
      rcases this with h | ⟨c, h⟩ <;> rw [h] <;> rfl
    · rw [hy]
      simp only [castInt]
      rw [if_neg (by omega)]
  refine ⟨?_, ?_, ?_⟩
  · unfold floorI; rw [key]; rfl
  · unfold ceilI; rw [key]; rfl
  · unfold roundI floorI; rw [key]; rfl

/-- To a shorter unit the rounding of the product is seen: floor to milliseconds of 0.57 s (the double nearest to it) is 570 ms,
although the duration is shorter than that. -/
theorem c135_finer_violated : ∃ d : ℚ, binary64.Rep d ∧ d * 1000 < 570 ∧
    floorFiner binary64 (-2 ^ 63) (2 ^ 63 - 1) 1000 (.num d) = .ok 570 := by
  refine ⟨5134103575202365 / 2 ^ 53, ?_, by norm_num, by decide +kernel⟩
  exact ⟨5134103575202365, -53, by norm_num, by norm_num [binary64], by norm_num [binary64], by norm_num [binary64]⟩

/-! ## Examples -/
example : Usual binary32 := ⟨by decide, by decide, by decide⟩
example : Usual binary64 := ⟨by decide, by decide, by decide⟩
example : Usual extended := ⟨by decide, by decide, by decide⟩
-- 90.5 s in minutes, and 150 s: halfway, to the even one; -0.25 s
example : floorI binary64 (-2 ^ 63) (2 ^ 63 - 1) 60 (.num (181 / 2)) = .ok 1 := by decide +kernel
example : ceilI binary64 (-2 ^ 63) (2 ^ 63 - 1) 60 (.num (181 / 2)) = .ok 2 := by decide +kernel
example : roundI binary64 (-2 ^ 63) (2 ^ 63 - 1) 60 (.num 150) = .ok 2 := by decide +kernel
example : roundI binary64 (-2 ^ 63) (2 ^ 63 - 1) 60 (.num (-90)) = .ok (-2) := by decide +kernel
example : floorF binary64 1 (.num (-1 / 4)) = .num (-1) := by decide +kernel
example : roundF binary64 1 (.num (-1 / 4)) = .num 0 := by decide +kernel
example : truncF binary32 1 (.num (2 ^ 100)) = .num (2 ^ 100) := by decide +kernel

end Gul14.Date.FloatDur
