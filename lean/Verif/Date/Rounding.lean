import Verif.Date.Lemmas

/-!
# C78: rounding durations, date.h:1142-1258

A duration of `c` ticks is converted to another unit; `num/den` is the length of a tick in the other
unit (`den > 0`, `num > 0`).  Counts are mathematical integers: overflow of the representation is not
modelled, nor are floating-point representations and the two-step conversion for ratios that overflow
std::ratio.
-/
namespace Gul14.Date

/-- trunc<To>(d), date.h:1142-1168, by std::chrono::duration_cast. -/
def truncTo (num den c : Int) : Int := (c * num).tdiv den

/-- floor<To>(d), date.h:1184-1211. `t > d` compares in the common unit. -/
def floorTo (num den c : Int) : Int :=
  let t := truncTo num den c
  if t * den > c * num then t - 1 else t

/-- ceil<To>(d), date.h:1236-1246. -/
def ceilTo (num den c : Int) : Int :=
  let t := truncTo num den c
  if t * den < c * num then t + 1 else t

/-- round<To>(d), date.h:1213-1234. (The change of `t1` in 1221-1222 turns 0 into -0 and matters for
floating-point counts only.) -/
def roundTo (num den c : Int) : Int :=
  let t0 := floorTo num den c
  let t1 := t0 + 1
  let t1 := if t1 = 0 ∧ t0 < 0 then -t1 else t1
  let diff0 := c * num - t0 * den
  let diff1 := t1 * den - c * num
  if diff0 = diff1 then
    if t0 - (t0.tdiv 2) * 2 = 0 then t0 else t1
  else if diff0 < diff1 then t0 else t1

/-- abs(d), date.h:1248-1258. -/
def absDur (c : Int) : Int := if c ≥ 0 then c else -c

theorem tdiv_cases (a : Int) {n : Int} (hn : 0 < n) :
    (0 ≤ a → a.tdiv n * n ≤ a ∧ a < a.tdiv n * n + n ∧ 0 ≤ a.tdiv n) ∧
    (a ≤ 0 → a ≤ a.tdiv n * n ∧ a.tdiv n * n < a + n ∧ a.tdiv n ≤ 0) := by
  constructor
  · intro h
    rw [Int.tdiv_eq_ediv_of_nonneg h]
    have h1 := Int.mul_ediv_self_le (x := a) (k := n) (by omega)
    have h2 := Int.lt_mul_ediv_self_add (x := a) hn
    rw [Int.mul_comm] at h1 h2
    exact ⟨h1, h2, Int.ediv_nonneg h (by omega)⟩
  · intro h
    have e : a = -(-a) := by omega
    rw [e, Int.neg_tdiv, Int.tdiv_eq_ediv_of_nonneg (by omega)]
    have h1 := Int.mul_ediv_self_le (x := -a) (k := n) (by omega)
    have h2 := Int.lt_mul_ediv_self_add (x := -a) hn
    have h3 := Int.ediv_nonneg (a := -a) (b := n) (by omega) (by omega)
    rw [Int.mul_comm] at h1 h2
    rw [Int.neg_mul]
    omega

/-- Truncation goes towards zero: the result is the farthest from zero that does not exceed the
duration. -/
theorem c78_trunc (num den c : Int) (hd : 0 < den) :
    (0 ≤ c * num → truncTo num den c * den ≤ c * num ∧ c * num < truncTo num den c * den + den) ∧
    (c * num ≤ 0 → c * num ≤ truncTo num den c * den ∧ truncTo num den c * den - den < c * num) := by
  have h := tdiv_cases (c * num) hd
  unfold truncTo
  constructor
  · intro h0; have := h.1 h0; omega
  · intro h0; have := h.2 h0; omega

/-- The floor is the largest count of the new unit that is not longer than the duration. -/
theorem c78_floor (num den c : Int) (hd : 0 < den) :
    floorTo num den c * den ≤ c * num ∧ c * num < (floorTo num den c + 1) * den := by
  have h := c78_trunc num den c hd
  simp only [floorTo]
  generalize truncTo num den c = t at *
  split
  · rename_i hg
    rw [Int.sub_add_cancel, Int.sub_mul]
    rcases Int.le_total 0 (c * num) with h0 | h0
    · have := h.1 h0; omega
    · have := h.2 h0; omega
  · rename_i hg
    rw [Int.add_mul]
    rcases Int.le_total 0 (c * num) with h0 | h0
    · have := h.1 h0; omega
    · have := h.2 h0; omega

/-- The ceiling is the smallest count that is not shorter. -/
theorem c78_ceil (num den c : Int) (hd : 0 < den) :
    c * num ≤ ceilTo num den c * den ∧ (ceilTo num den c - 1) * den < c * num := by
  have h := c78_trunc num den c hd
  simp only [ceilTo]
  generalize truncTo num den c = t at *
  split
  · rename_i hg
    rw [Int.add_sub_cancel, Int.add_mul]
    rcases Int.le_total 0 (c * num) with h0 | h0
    · have := h.1 h0; omega
    · have := h.2 h0; omega
  · rename_i hg
    rw [Int.sub_mul]
    rcases Int.le_total 0 (c * num) with h0 | h0
    · have := h.1 h0; omega
    · have := h.2 h0; omega

/-- Rounding: no count is nearer than the result, and of two equally near counts the even one is
chosen. -/
theorem c78_round (num den c : Int) (hd : 0 < den) :
    2 * (c * num - roundTo num den c * den) ≤ den ∧ 2 * (roundTo num den c * den - c * num) ≤ den ∧
    (2 * (c * num - roundTo num den c * den) = den ∨ 2 * (roundTo num den c * den - c * num) = den →
      2 ∣ roundTo num den c) := by
  have h := c78_floor num den c hd
  simp only [roundTo]
  generalize floorTo num den c = t at *
  rw [Int.add_mul, Int.one_mul] at h
  have e1 : (if t + 1 = 0 ∧ t < 0 then -(t + 1) else t + 1) = t + 1 := by split <;> omega
  have e2 : t - t.tdiv 2 * 2 = 0 ↔ 2 ∣ t := by
    rw [Int.dvd_iff_tmod_eq_zero]
    have := Int.mul_tdiv_add_tmod t 2
    omega
  rw [e1]
  have e3 : (t + 1) * den = t * den + den := by rw [Int.add_mul, Int.one_mul]
  rw [e3]
  generalize c * num = v at *
  split
  · rename_i heq
    split
    · rename_i hev
      rw [e2] at hev
      refine ⟨by omega, by omega, fun _ => hev⟩
    · rename_i hev
      rw [e2] at hev
      rw [e3]
      refine ⟨by omega, by omega, fun _ => by omega⟩
  · rename_i hne
    split
    · exact ⟨by omega, by omega, fun h => by omega⟩
    · rw [e3]; exact ⟨by omega, by omega, fun h => by omega⟩

/-- A duration that is a whole number of the new units is converted exactly by all of them. -/
theorem c78_exact (num den c k : Int) (hd : 0 < den) (h : c * num = k * den) :
    truncTo num den c = k ∧ floorTo num den c = k ∧ ceilTo num den c = k ∧ roundTo num den c = k := by
  have ht : truncTo num den c = k := by
    unfold truncTo; rw [h, Int.mul_tdiv_cancel _ (by omega)]
  have hf : floorTo num den c = k := by simp [floorTo, ht, h]
  refine ⟨ht, hf, by simp [ceilTo, ht, h], ?_⟩
  simp only [roundTo, hf, h]
  have e1 : (if k + 1 = 0 ∧ k < 0 then -(k + 1) else k + 1) = k + 1 := by split <;> omega
  rw [e1, Int.add_mul, Int.one_mul, if_neg (by omega), if_pos (by omega)]

/-- The absolute value. -/
theorem c78_abs (c : Int) : absDur c = c.natAbs := by
  unfold absDur; split <;> omega

example : floorTo 1 60 (-61) = -2 ∧ ceilTo 1 60 (-61) = -1 ∧ truncTo 1 60 (-61) = -1 := by decide
example : roundTo 1 60 90 = 2 ∧ roundTo 1 60 30 = 0 ∧ roundTo 1 60 (-90) = -2 := by decide

end Gul14.Date
