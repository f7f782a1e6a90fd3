import Verif.Ieee.Error
import Verif.Ieee.Arith
import Mathlib.Tactic.NormNum.Pow

/-! # The IEEE 754 square root: correctly rounded -/
namespace Gul14.Ieee

/-- The integer nearest to the square root, ties to even. -/
def sqrtInt (y : ℚ) : Nat :=
  let n := Nat.sqrt ⌊y⌋.toNat
  if y < ((n : ℚ) + 1 / 2) ^ 2 then n
  else if ((n : ℚ) + 1 / 2) ^ 2 < y then n + 1
  else if n % 2 = 0 then n else n + 1

/-- Exponent of the unit in the last place of the square root of a positive number. -/
def Format.sqrtQuantum (f : Format) (x : ℚ) : Int := ilog2 x / 2 - f.p + 1

/-- The square root of a positive number rounded to nearest; zero otherwise. -/
def Format.sqrtNear (f : Format) (x : ℚ) : ℚ :=
  if x ≤ 0 then 0
  else sqrtInt (x / (2 : ℚ) ^ (2 * f.sqrtQuantum x)) * (2 : ℚ) ^ f.sqrtQuantum x

/-- std::sqrt.  Square roots do not overflow or underflow. -/
def Format.sqrt (f : Format) : Fl → Fl
  | .num x => if x < 0 then .nan else .num (f.sqrtNear x)
  | .inf neg => if neg then .nan else .inf false
  | .nan => .nan

theorem sqrtInt_spec {y : ℚ} (hy : 1 ≤ y) :
    ∃ n : Nat, 1 ≤ n ∧ (n : ℚ) ^ 2 ≤ y ∧ y < ((n : ℚ) + 1) ^ 2 ∧
      ((sqrtInt y = n ∧ y ≤ ((n : ℚ) + 1 / 2) ^ 2) ∨
       (sqrtInt y = n + 1 ∧ ((n : ℚ) + 1 / 2) ^ 2 ≤ y)) := by
  have hfl : (1 : Int) ≤ ⌊y⌋ := Int.le_floor.mpr (by simpa using hy)
  obtain ⟨N, hN⟩ : ∃ N : Nat, ⌊y⌋ = N := ⟨⌊y⌋.toNat, by omega⟩
  have hle : (N : ℚ) ≤ y := by
    have := Int.floor_le y
    rw [hN] at this
    exact_mod_cast this
  have hlt : y < (N : ℚ) + 1 := by
    have := Int.lt_floor_add_one y
    rw [hN] at this
    exact_mod_cast this
  have h1 := Nat.sqrt_le' N
  have h2 := Nat.lt_succ_sqrt' N
  refine ⟨Nat.sqrt N, ?_, ?_, ?_, ?_⟩
  · exact Nat.sqrt_pos.mpr (by omega)
  · refine le_trans ?_ hle
    exact_mod_cast h1
  · refine lt_of_lt_of_le hlt ?_
    have : N + 1 ≤ (Nat.sqrt N + 1) ^ 2 := h2
    exact_mod_cast this
  · unfold sqrtInt
    rw [hN]
    simp only [Int.toNat_natCast]
    split
    · rename_i h; exact Or.inl ⟨rfl, h.le⟩
    · rename_i h
      split
      · rename_i h'; exact Or.inr ⟨rfl, h'.le⟩
      · rename_i h'
        split
        · exact Or.inl ⟨rfl, not_lt.mp h'⟩
        · exact Or.inr ⟨rfl, not_lt.mp h⟩

/-- Where a positive number and its square root lie. -/
theorem sqrtQuantum_spec (f : Format) (hp : 1 ≤ f.p) {x : ℚ} (hx : 0 < x) :
    ((2 : ℚ) ^ (f.sqrtQuantum x + f.p - 1)) ^ 2 ≤ x ∧
    x < ((2 : ℚ) ^ (f.sqrtQuantum x + f.p)) ^ 2 ∧
    1 ≤ x / (2 : ℚ) ^ (2 * f.sqrtQuantum x) := by
  obtain ⟨h1, h2⟩ := ilog2_spec hx
  have e : ∀ a : Int, ((2 : ℚ) ^ a) ^ 2 = (2 : ℚ) ^ (2 * a) := by
    intro a; rw [← zpow_natCast, ← zpow_mul]; congr 1; push_cast; ring
  have hlo : (2 : ℚ) ^ (2 * (f.sqrtQuantum x + f.p - 1)) ≤ x := by
    refine le_trans (zpow2_le ?_) h1
    unfold Format.sqrtQuantum
    omega
  refine ⟨by rw [e]; exact hlo, ?_, ?_⟩
  · rw [e]
    refine lt_of_lt_of_le h2 (zpow2_le ?_)
    unfold Format.sqrtQuantum
    omega
  · rw [le_div_iff₀ (zpow2_pos _), one_mul]
    exact le_trans (zpow2_le (by omega)) hlo

/-- The square root lies within half a unit in the last place of the result. -/
theorem sqrtNear_spec (f : Format) (hp : 1 ≤ f.p) {x : ℚ} (hx : 0 < x) :
    ∃ k : Nat, f.sqrtNear x = k * (2 : ℚ) ^ f.sqrtQuantum x ∧ 2 ^ (f.p - 1) ≤ k ∧ k ≤ 2 ^ f.p ∧
      (((k : ℚ) - 1 / 2) * (2 : ℚ) ^ f.sqrtQuantum x) ^ 2 ≤ x ∧
      x ≤ (((k : ℚ) + 1 / 2) * (2 : ℚ) ^ f.sqrtQuantum x) ^ 2 ∧
      (k = 2 ^ (f.p - 1) → ((k : ℚ) * (2 : ℚ) ^ f.sqrtQuantum x) ^ 2 ≤ x) := by
  obtain ⟨q1, q2, q3⟩ := sqrtQuantum_spec f hp hx
  obtain ⟨n, hn1, hlo, hhi, hk⟩ := sqrtInt_spec q3
  have hq := zpow2_pos (f.sqrtQuantum x)
  have hQ : (2 : ℚ) ^ (2 * f.sqrtQuantum x) = ((2 : ℚ) ^ f.sqrtQuantum x) ^ 2 := by
    rw [← zpow_natCast ((2 : ℚ) ^ f.sqrtQuantum x), ← zpow_mul]; congr 1; push_cast; ring
  have hdef : f.sqrtNear x = sqrtInt (x / (2 : ℚ) ^ (2 * f.sqrtQuantum x)) *
      (2 : ℚ) ^ f.sqrtQuantum x := by
    unfold Format.sqrtNear
    rw [if_neg (by linarith)]
  rw [hQ] at hlo hhi hk hdef
  have hb1 : (2 : ℚ) ^ (f.sqrtQuantum x + f.p - 1) = 2 ^ (f.p - 1) * (2 : ℚ) ^ f.sqrtQuantum x := by
    rw [← zpow_natCast, ← zpow_add₀ (by norm_num)]; congr 1; omega
  have hb2 : (2 : ℚ) ^ (f.sqrtQuantum x + f.p) = 2 ^ f.p * (2 : ℚ) ^ f.sqrtQuantum x := by
    rw [← zpow_natCast, ← zpow_add₀ (by norm_num)]; congr 1; omega
  rw [hb1] at q1
  rw [hb2] at q2
  set Q := (2 : ℚ) ^ f.sqrtQuantum x with hQdef
  set y := x / Q ^ 2 with hy
  have hxy : x = y * Q ^ 2 := by rw [hy]; field_simp
  have hQ2 : 0 < Q ^ 2 := by positivity
  have b1 : ((2 : ℚ) ^ (f.p - 1)) ^ 2 ≤ y := by
    rw [hxy, mul_pow] at q1
    exact le_of_mul_le_mul_right q1 hQ2
  have b2 : y < ((2 : ℚ) ^ f.p) ^ 2 := by
    rw [hxy, mul_pow] at q2
    exact lt_of_mul_lt_mul_right q2 hQ2.le
  have n1 : 2 ^ (f.p - 1) ≤ n := by
    have : ((2 : ℚ) ^ (f.p - 1)) ^ 2 < ((n : ℚ) + 1) ^ 2 := lt_of_le_of_lt b1 hhi
    have := lt_of_pow_lt_pow_left₀ 2 (by positivity) this
    have : 2 ^ (f.p - 1) < n + 1 := by exact_mod_cast this
    omega
  have n2 : n < 2 ^ f.p := by
    have : (n : ℚ) ^ 2 < ((2 : ℚ) ^ f.p) ^ 2 := lt_of_le_of_lt hlo b2
    have := lt_of_pow_lt_pow_left₀ 2 (by positivity) this
    exact_mod_cast this
  have hn0 : (1 : ℚ) ≤ n := by exact_mod_cast hn1
  rcases hk with ⟨hk, hk'⟩ | ⟨hk, hk'⟩
  · refine ⟨n, by rw [hdef, hk], n1, n2.le, ?_, ?_, ?_⟩
    · rw [mul_pow, hxy]
      refine mul_le_mul_of_nonneg_right (le_trans ?_ hlo) hQ2.le
      nlinarith
    · rw [mul_pow, hxy]
      exact mul_le_mul_of_nonneg_right hk' hQ2.le
    · intro _
      rw [mul_pow, hxy]
      exact mul_le_mul_of_nonneg_right hlo hQ2.le
  · refine ⟨n + 1, by rw [hdef, hk], by omega, by omega, ?_, ?_, ?_⟩
    · rw [mul_pow, hxy]
      refine mul_le_mul_of_nonneg_right (le_trans (le_of_eq ?_) hk') hQ2.le
      push_cast; ring
    · rw [mul_pow, hxy]
      refine mul_le_mul_of_nonneg_right (le_trans hhi.le ?_) hQ2.le
      push_cast
      nlinarith
    · intro h; omega

/-- Relative error of the square root: half a unit in the last place. -/
theorem sqrtNear_rel (f : Format) (hp : 1 ≤ f.p) {x : ℚ} (hx : 0 ≤ x) :
    0 ≤ f.sqrtNear x ∧ (1 - 1 / 2 ^ f.p) ^ 2 * x ≤ f.sqrtNear x ^ 2 ∧
      f.sqrtNear x ^ 2 ≤ (1 + 1 / 2 ^ f.p) ^ 2 * x := by
  rcases eq_or_lt_of_le hx with rfl | hx
  · simp [Format.sqrtNear]
  obtain ⟨k, hr, hk1, hk2, h1, h2, -⟩ := sqrtNear_spec f hp hx
  obtain ⟨q1, -, -⟩ := sqrtQuantum_spec f hp hx
  have hu : (0 : ℚ) < 1 / 2 ^ f.p := by positivity
  have hu1 : (1 : ℚ) / 2 ^ f.p ≤ 1 := by
    rw [div_le_one (by positivity)]
    exact one_le_pow₀ (by norm_num)
  have hQ := zpow2_pos (f.sqrtQuantum x)
  -- half a unit against the square root
  have hh : ((2 : ℚ) ^ f.sqrtQuantum x / 2) ^ 2 ≤ (1 / 2 ^ f.p) ^ 2 * x := by
    have e : (2 : ℚ) ^ (f.sqrtQuantum x + f.p - 1) = 2 ^ f.p * ((2 : ℚ) ^ f.sqrtQuantum x / 2) := by
      rw [zpow_sub_one₀ (by norm_num), zpow_add₀ (by norm_num), zpow_natCast]; ring
    rw [e, mul_pow] at q1
    calc ((2 : ℚ) ^ f.sqrtQuantum x / 2) ^ 2
        = (1 / 2 ^ f.p) ^ 2 * ((2 ^ f.p) ^ 2 * ((2 : ℚ) ^ f.sqrtQuantum x / 2) ^ 2) := by
          field_simp
      _ ≤ _ := mul_le_mul_of_nonneg_left q1 (by positivity)
  have hk0 : (1 : ℚ) ≤ k := by
    have : 1 ≤ k := le_trans Nat.one_le_two_pow hk1
    exact_mod_cast this
  rw [hr]
  set Q := (2 : ℚ) ^ f.sqrtQuantum x
  set u := (1 : ℚ) / 2 ^ f.p
  have ea : ((k : ℚ) - 1 / 2) * Q = k * Q - Q / 2 := by ring
  have eb : ((k : ℚ) + 1 / 2) * Q = k * Q + Q / 2 := by ring
  rw [ea] at h1
  rw [eb] at h2
  have hr0 : 0 ≤ (k : ℚ) * Q - Q / 2 := by nlinarith
  set r := (k : ℚ) * Q
  set h := Q / 2 with hhdef
  have hhpos : 0 < h := by positivity
  refine ⟨by linarith, ?_, ?_⟩
  · by_contra hc
    push_neg at hc
    -- r h < (1 - u) u x
    have hrh : (r * h) ^ 2 ≤ ((1 - u) * u * x) ^ 2 := by
      calc (r * h) ^ 2 = r ^ 2 * h ^ 2 := by ring
        _ ≤ ((1 - u) ^ 2 * x) * (u ^ 2 * x) := mul_le_mul hc.le hh (by positivity) (by positivity)
        _ = _ := by ring
    have hrh' := abs_le_of_sq_le_sq hrh (by
      have : 0 ≤ 1 - u := by linarith
      positivity)
    nlinarith [le_trans (le_abs_self _) hrh']
  · have hrh : ((r - h) * h) ^ 2 ≤ (u * x) ^ 2 := by
      calc ((r - h) * h) ^ 2 = (r - h) ^ 2 * h ^ 2 := by ring
        _ ≤ x * (u ^ 2 * x) := mul_le_mul h1 hh (by positivity) hx.le
        _ = _ := by ring
    have hrh' := abs_le_of_sq_le_sq hrh (by positivity)
    nlinarith [le_trans (le_abs_self _) hrh']

/-- The square root is a number of the grid. -/
theorem sqrtNear_grid (f : Format) (hp : 1 ≤ f.p) (hm : f.emin + 2 * f.p ≤ 2) {x : ℚ}
    (hx : x = 0 ∨ (2 : ℚ) ^ f.emin ≤ x) : f.Grid (f.sqrtNear x) := by
  rcases hx with rfl | hx
  · exact ⟨0, f.emin, by simp [Format.sqrtNear], by simp, le_refl _⟩
  have hx0 : 0 < x := lt_of_lt_of_le (zpow2_pos _) hx
  have hq : f.emin ≤ f.sqrtQuantum x := by
    have h1 := zpow2_lt.mp (lt_of_le_of_lt hx (ilog2_spec hx0).2)
    unfold Format.sqrtQuantum
    omega
  obtain ⟨k, hr, hk1, hk2, -⟩ := sqrtNear_spec f hp hx0
  rcases Nat.lt_or_ge k (2 ^ f.p) with h | h
  · refine ⟨k, f.sqrtQuantum x, by rw [hr]; simp, ?_, hq⟩
    rw [abs_of_nonneg (by omega)]
    exact_mod_cast h
  · have hk : k = 2 ^ f.p := by omega
    refine ⟨2 ^ (f.p - 1), f.sqrtQuantum x + 1, ?_, ?_, by omega⟩
    · rw [hr, hk, zpow_add_one₀ (by norm_num)]
      obtain ⟨j, hj⟩ : ∃ j, f.p = j + 1 := ⟨f.p - 1, by omega⟩
      rw [hj]
      simp only [Nat.add_sub_cancel]
      push_cast
      ring
    · rw [abs_of_pos (by positivity)]
      exact pow_lt_pow_right₀ (by norm_num) (by omega)

/-- Correct rounding: the square root of `x` lies on the side of `f.sqrtNear x` of the middle
between it and any other number of the format. -/
theorem sqrtNear_nearest (f : Format) (hp : 1 ≤ f.p) {x g : ℚ} (hx : 0 < x) (hg : f.Grid g)
    (hg0 : 0 ≤ g) :
    (g < f.sqrtNear x → ((g + f.sqrtNear x) / 2) ^ 2 ≤ x) ∧
    (f.sqrtNear x < g → x ≤ ((g + f.sqrtNear x) / 2) ^ 2) := by
  obtain ⟨k, hr, hk1, hk2, h1, h2, h3⟩ := sqrtNear_spec f hp hx
  obtain ⟨m, e, hme, hm, he⟩ := hg
  have hQ := zpow2_pos (f.sqrtQuantum x)
  -- from 2^(p-1) units on, the numbers are multiples of the unit
  have hmul : (2 : ℚ) ^ (f.p - 1) * (2 : ℚ) ^ f.sqrtQuantum x ≤ g →
      ∃ j : Int, g = j * (2 : ℚ) ^ f.sqrtQuantum x := by
    intro hge
    rw [hme]
    refine grid_multiple m ?_
    have hb : (2 : ℚ) ^ (f.p - 1) * (2 : ℚ) ^ f.sqrtQuantum x =
        (2 : ℚ) ^ (f.sqrtQuantum x + f.p - 1) := by
      rw [← zpow_natCast, ← zpow_add₀ (by norm_num)]; congr 1; omega
    have hlt : g < (2 : ℚ) ^ ((f.p : Int) + e) := by
      rw [hme, zpow_add₀ (by norm_num), zpow_natCast]
      refine mul_lt_mul_of_pos_right ?_ (zpow2_pos e)
      have : m < 2 ^ f.p := lt_of_le_of_lt (le_abs_self m) hm
      exact_mod_cast this
    rw [hb] at hge
    have := zpow2_lt.mp (lt_of_le_of_lt hge hlt)
    omega
  have hk1' : (2 : ℚ) ^ (f.p - 1) ≤ k := by exact_mod_cast hk1
  rw [hr] at *
  set Q := (2 : ℚ) ^ f.sqrtQuantum x
  have hk0 : (1 : ℚ) ≤ k := by
    have : 1 ≤ k := le_trans Nat.one_le_two_pow hk1
    exact_mod_cast this
  refine ⟨fun hlt => ?_, fun hlt => ?_⟩
  · have hkey : g ≤ ((k : ℚ) - 1) * Q ∨ k = 2 ^ (f.p - 1) := by
      by_cases hge : (2 : ℚ) ^ (f.p - 1) * Q ≤ g
      · obtain ⟨j, hj⟩ := hmul hge
        left
        rw [hj] at hlt ⊢
        have := lt_of_mul_lt_mul_right hlt hQ.le
        have h4 : j < k := by exact_mod_cast this
        have h5 : (j : ℚ) ≤ k - 1 := by
          have : j ≤ (k : Int) - 1 := by omega
          exact_mod_cast this
        exact mul_le_mul_of_nonneg_right h5 hQ.le
      · rcases Nat.lt_or_ge (2 ^ (f.p - 1)) k with h | h
        · left
          push_neg at hge
          refine le_trans hge.le (mul_le_mul_of_nonneg_right ?_ hQ.le)
          have : (2 : ℚ) ^ (f.p - 1) + 1 ≤ k := by exact_mod_cast h
          linarith
        · right; omega
    rcases hkey with hkey | hkey
    · refine le_trans (pow_le_pow_left₀ (by positivity) ?_ 2) h1
      nlinarith
    · refine le_trans (pow_le_pow_left₀ (by positivity) ?_ 2) (h3 hkey)
      linarith
  · obtain ⟨j, hj⟩ := hmul (le_trans (mul_le_mul_of_nonneg_right hk1' hQ.le) hlt.le)
    rw [hj] at hlt ⊢
    have := lt_of_mul_lt_mul_right hlt hQ.le
    have h4 : (k : Int) < j := by exact_mod_cast this
    have h5 : (k : ℚ) + 1 ≤ j := by
      have : (k : Int) + 1 ≤ j := by omega
      exact_mod_cast this
    refine le_trans h2 (pow_le_pow_left₀ (by positivity) ?_ 2)
    nlinarith

end Gul14.Ieee
