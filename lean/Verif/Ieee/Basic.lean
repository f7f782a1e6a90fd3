import Verif.Basic
import Mathlib.Algebra.Order.Field.Rat
import Mathlib.Algebra.Order.Field.Power
import Mathlib.Algebra.Order.Floor.Ring
import Mathlib.Data.Rat.Floor
import Mathlib.Tactic.Linarith
import Mathlib.Tactic.Ring
import Mathlib.Tactic.FieldSimp
import Mathlib.Tactic.NormNum
import Mathlib.Tactic.Positivity

/-!
# IEEE 754 binary floating-point arithmetic

A format has a precision `p`, the exponent `emin` of its smallest positive number `2^emin` and the
exponent `emax` of the unit in the last place of its largest number.  Results of operations are
the exact ones rounded to nearest, ties to even.  The two zeros are not distinguished.
-/
namespace Gul14.Ieee

structure Format where
  p : Nat
  emin : Int
  emax : Int
  deriving DecidableEq, Repr

/-- float -/
def binary32 : Format := ⟨24, -149, 104⟩
/-- double -/
def binary64 : Format := ⟨53, -1074, 971⟩
/-- long double on x86-64 -/
def extended : Format := ⟨64, -16445, 16320⟩

/-- A floating-point value. -/
inductive Fl where
  | num (q : ℚ)
  | inf (neg : Bool)
  | nan
  deriving DecidableEq, Repr

/-- A number of the format: a multiple of a power of two with at most `p` binary digits. -/
def Format.Rep (f : Format) (x : ℚ) : Prop :=
  ∃ m e : Int, x = m * (2 : ℚ) ^ e ∧ |m| < 2 ^ f.p ∧ f.emin ≤ e ∧ e ≤ f.emax

/-- The largest number of the format. -/
def Format.max (f : Format) : ℚ := ((2 : ℚ) ^ f.p - 1) * (2 : ℚ) ^ f.emax

/-- Position of the leading binary digit of a positive number. -/
def ilog2 (x : ℚ) : Int :=
  let e : Int := (Nat.log2 x.num.toNat : Int) - (Nat.log2 x.den : Int)
  if x < (2 : ℚ) ^ e then e - 1 else e

/-- Round to an integer, ties to even. -/
def roundInt (x : ℚ) : Int :=
  let n := ⌊x⌋
  if x - n < 1 / 2 then n
  else if 1 / 2 < x - n then n + 1
  else if n % 2 = 0 then n else n + 1

/-- Exponent of the unit in the last place of the numbers next to `x`. -/
def Format.quantum (f : Format) (x : ℚ) : Int :=
  if x = 0 then f.emin else Max.max f.emin (ilog2 |x| - f.p + 1)

/-- Rounding to nearest without an upper limit of the exponent. -/
def Format.near (f : Format) (x : ℚ) : ℚ := roundInt (x / (2 : ℚ) ^ f.quantum x) * (2 : ℚ) ^ f.quantum x

/-- Rounding to nearest, ties to even; too large numbers become infinite. -/
def Format.round (f : Format) (x : ℚ) : Fl :=
  if f.max < |f.near x| then .inf (x < 0) else .num (f.near x)

/-! ## Rounding to an integer -/

theorem roundInt_err (x : ℚ) : |(roundInt x : ℚ) - x| ≤ 1 / 2 := by
  unfold roundInt
  have h1 := Int.floor_le x
  have h2 := Int.lt_floor_add_one x
  simp only
  rw [abs_le]
  split
  · constructor <;> linarith
  · split
    · push_cast; constructor <;> linarith
    · split
      · constructor <;> linarith
      · push_cast; constructor <;> linarith

theorem roundInt_int (n : Int) : roundInt (n : ℚ) = n := by
  unfold roundInt
  simp

theorem roundInt_nearest (x : ℚ) (n : Int) : |(roundInt x : ℚ) - x| ≤ |(n : ℚ) - x| := by
  by_cases h : roundInt x = n
  · rw [h]
  · have h1 := roundInt_err x
    have h2 : (1 : ℚ) ≤ |(n : ℚ) - roundInt x| := by
      have : (1 : Int) ≤ |n - roundInt x| := Int.one_le_abs (by omega)
      exact_mod_cast this
    have h3 : |(n : ℚ) - roundInt x| ≤ |(n : ℚ) - x| + |x - roundInt x| := abs_sub_le _ _ _
    rw [abs_sub_comm x] at h3
    linarith

theorem roundInt_neg (x : ℚ) : roundInt (-x) = -roundInt x := by
  by_cases hi : ∃ n : Int, x = n
  · obtain ⟨n, rfl⟩ := hi
    rw [roundInt_int]
    have := roundInt_int (-n)
    push_cast at this
    exact this
  · have hne : (⌊x⌋ : ℚ) ≠ x := fun h => hi ⟨_, h.symm⟩
    have h1 := lt_of_le_of_ne (Int.floor_le x) hne
    have h2 := Int.lt_floor_add_one x
    have hf : ⌊-x⌋ = -⌊x⌋ - 1 := by
      rw [Int.floor_eq_iff]
      push_cast
      constructor <;> linarith
    unfold roundInt
    simp only [hf]
    push_cast
    by_cases c1 : x - ⌊x⌋ < 1 / 2
    · rw [if_pos c1, if_neg (by linarith), if_pos (by linarith)]; ring
    · by_cases c2 : 1 / 2 < x - ⌊x⌋
      · rw [if_neg c1, if_pos c2, if_pos (by linarith)]; ring
      · rw [if_neg c1, if_neg c2, if_neg (by linarith), if_neg (by linarith)]
        split <;> split <;> omega

/-! ## The leading digit -/

theorem ilog2_spec {x : ℚ} (hx : 0 < x) :
    (2 : ℚ) ^ ilog2 x ≤ x ∧ x < (2 : ℚ) ^ (ilog2 x + 1) := by
  have hn : 0 < x.num := Rat.num_pos.mpr hx
  obtain ⟨n, hnn⟩ : ∃ n : Nat, x.num = n := ⟨x.num.toNat, by omega⟩
  have hn0 : n ≠ 0 := by omega
  have hd0 : x.den ≠ 0 := x.den_nz
  have hxe : x = (n : ℚ) / (x.den : ℚ) := by
    conv => lhs; rw [← Rat.num_div_den x, hnn]
    simp
  have a1 := Nat.log2_self_le hn0
  have a2 := Nat.lt_log2_self (n := n)
  have b1 := Nat.log2_self_le hd0
  have b2 := Nat.lt_log2_self (n := x.den)
  have hdp : (0 : ℚ) < x.den := by exact_mod_cast Nat.pos_of_ne_zero hd0
  have a1' : (2 : ℚ) ^ (Nat.log2 n) ≤ n := by exact_mod_cast a1
  have a2' : (n : ℚ) < 2 ^ (Nat.log2 n + 1) := by exact_mod_cast a2
  have b1' : (2 : ℚ) ^ (Nat.log2 x.den) ≤ x.den := by exact_mod_cast b1
  have b2' : (x.den : ℚ) < 2 ^ (Nat.log2 x.den + 1) := by exact_mod_cast b2
  set a := Nat.log2 n
  set b := Nat.log2 x.den
  have hlo : (2 : ℚ) ^ ((a : Int) - b - 1) ≤ x := by
    rw [hxe, le_div_iff₀ hdp]
    have e : (2 : ℚ) ^ ((a : Int) - b - 1) * 2 ^ (b + 1) = 2 ^ a := by
      rw [← zpow_natCast, ← zpow_add₀ (by norm_num), ← zpow_natCast]
      congr 1; push_cast; ring
    calc (2 : ℚ) ^ ((a : Int) - b - 1) * x.den
        ≤ (2 : ℚ) ^ ((a : Int) - b - 1) * 2 ^ (b + 1) := by
          apply mul_le_mul_of_nonneg_left b2'.le (by positivity)
      _ = 2 ^ a := e
      _ ≤ n := a1'
  have hhi : x < (2 : ℚ) ^ ((a : Int) - b + 1) := by
    rw [hxe, div_lt_iff₀ hdp]
    have e : (2 : ℚ) ^ ((a : Int) - b + 1) * 2 ^ b = 2 ^ (a + 1) := by
      rw [← zpow_natCast, ← zpow_add₀ (by norm_num), ← zpow_natCast]
      congr 1; push_cast; ring
    calc (n : ℚ) < 2 ^ (a + 1) := a2'
      _ = (2 : ℚ) ^ ((a : Int) - b + 1) * 2 ^ b := e.symm
      _ ≤ (2 : ℚ) ^ ((a : Int) - b + 1) * x.den := by
          apply mul_le_mul_of_nonneg_left b1' (by positivity)
  have hdef : ilog2 x = if x < (2 : ℚ) ^ ((a : Int) - b) then (a : Int) - b - 1 else (a : Int) - b := by
    unfold ilog2
    rw [hnn]
    rfl
  rw [hdef]
  split
  · rename_i h
    refine ⟨hlo, ?_⟩
    simpa using h
  · rename_i h
    exact ⟨not_lt.mp h, hhi⟩

theorem zpow2_pos (e : Int) : (0 : ℚ) < 2 ^ e := by positivity

theorem zpow2_le {a b : Int} (h : a ≤ b) : (2 : ℚ) ^ a ≤ 2 ^ b :=
  zpow_le_zpow_right₀ (by norm_num) h

theorem zpow2_lt {a b : Int} : (2 : ℚ) ^ a < 2 ^ b ↔ a < b :=
  zpow_lt_zpow_iff_right₀ (by norm_num)

theorem ilog2_unique {x : ℚ} {e : Int} (h1 : (2 : ℚ) ^ e ≤ x) (h2 : x < (2 : ℚ) ^ (e + 1)) :
    ilog2 x = e := by
  obtain ⟨h3, h4⟩ := ilog2_spec (lt_of_lt_of_le (zpow2_pos e) h1)
  have := zpow2_lt.mp (lt_of_le_of_lt h1 h4)
  have := zpow2_lt.mp (lt_of_le_of_lt h3 h2)
  omega

/-! ## Rounding -/

variable (f : Format)

theorem quantum_ge (x : ℚ) : f.emin ≤ f.quantum x := by
  unfold Format.quantum
  split
  · exact le_refl _
  · exact le_max_left _ _

theorem abs_lt_quantum (x : ℚ) : |x| < (2 : ℚ) ^ (f.quantum x + f.p) := by
  unfold Format.quantum
  split
  · rename_i h; rw [h, abs_zero]; exact zpow2_pos _
  · rename_i h
    have h1 := (ilog2_spec (abs_pos.mpr h)).2
    refine lt_of_lt_of_le h1 (zpow2_le ?_)
    have := le_max_right f.emin (ilog2 |x| - f.p + 1)
    omega

theorem quantum_cases (x : ℚ) : f.quantum x = f.emin ∨
    (2 : ℚ) ^ (f.quantum x + f.p - 1) ≤ |x| := by
  unfold Format.quantum
  split
  · exact .inl rfl
  · rename_i h
    have h1 := (ilog2_spec (abs_pos.mpr h)).1
    rcases le_total f.emin (ilog2 |x| - f.p + 1) with h2 | h2
    · right
      rw [max_eq_right h2]
      refine le_trans (le_of_eq ?_) h1
      congr 1; ring
    · left; exact max_eq_left h2

theorem quantum_neg (x : ℚ) : f.quantum (-x) = f.quantum x := by
  unfold Format.quantum
  simp

theorem near_neg (x : ℚ) : f.near (-x) = -f.near x := by
  unfold Format.near
  rw [quantum_neg, neg_div, roundInt_neg]
  push_cast
  ring

theorem near_err (x : ℚ) : |f.near x - x| ≤ (2 : ℚ) ^ (f.quantum x - 1) := by
  have hp := zpow2_pos (f.quantum x)
  have h := roundInt_err (x / (2 : ℚ) ^ f.quantum x)
  have e : f.near x - x = (roundInt (x / (2 : ℚ) ^ f.quantum x) - x / (2 : ℚ) ^ f.quantum x) *
      (2 : ℚ) ^ f.quantum x := by
    unfold Format.near
    field_simp
  rw [e, abs_mul, abs_of_pos hp]
  calc _ ≤ 1 / 2 * (2 : ℚ) ^ f.quantum x := mul_le_mul_of_nonneg_right h hp.le
    _ = (2 : ℚ) ^ (f.quantum x - 1) := by rw [zpow_sub_one₀ (by norm_num)]; ring

/-- Multiples of the unit in the last place are at least as far away as the rounded number. -/
theorem near_nearest_grid (x : ℚ) (n : Int) :
    |f.near x - x| ≤ |(n : ℚ) * (2 : ℚ) ^ f.quantum x - x| := by
  have hp := zpow2_pos (f.quantum x)
  have h := roundInt_nearest (x / (2 : ℚ) ^ f.quantum x) n
  have e : ∀ m : ℚ, m * (2 : ℚ) ^ f.quantum x - x = (m - x / (2 : ℚ) ^ f.quantum x) *
      (2 : ℚ) ^ f.quantum x := by
    intro m; field_simp
  unfold Format.near
  rw [e, e, abs_mul, abs_mul]
  exact mul_le_mul_of_nonneg_right h (abs_nonneg _)

/-- Multiples of a power of two, from that of the smallest number on. -/
def Format.Grid (f : Format) (g : ℚ) : Prop :=
  ∃ m e : Int, g = m * (2 : ℚ) ^ e ∧ |m| < 2 ^ f.p ∧ f.emin ≤ e

theorem rep_grid {x : ℚ} (h : f.Rep x) : f.Grid x := by
  obtain ⟨m, e, h1, h2, h3, _⟩ := h
  exact ⟨m, e, h1, h2, h3⟩

theorem grid_multiple {e q : Int} (m : Int) (h : q ≤ e) : ∃ n : Int, (m : ℚ) * 2 ^ e = n * 2 ^ q := by
  refine ⟨m * 2 ^ (e - q).toNat, ?_⟩
  push_cast
  rw [mul_assoc, ← zpow_natCast, ← zpow_add₀ (by norm_num)]
  congr 2
  omega

/-- No number of the format is nearer to `x` than the rounded number. -/
theorem near_nearest (hp : 1 ≤ f.p) {x g : ℚ} (hg : f.Grid g) : |f.near x - x| ≤ |g - x| := by
  obtain ⟨m, e, rfl, hm, he⟩ := hg
  rcases le_or_gt (f.quantum x) e with h | h
  · obtain ⟨n, hn⟩ := grid_multiple m h
    rw [hn]
    exact near_nearest_grid f x n
  · -- a finer grid: the number is small, and 2^(p-1) units lie between
    rcases quantum_cases f x with h1 | h1
    · omega
    · have hmq : |(m : ℚ) * 2 ^ e| ≤ (2 : ℚ) ^ (f.quantum x + f.p - 1) := by
        rw [abs_mul, abs_of_pos (zpow2_pos e)]
        have : |(m : ℚ)| ≤ 2 ^ f.p := by
          have : |m| ≤ 2 ^ f.p := hm.le
          exact_mod_cast this
        calc |(m : ℚ)| * 2 ^ e ≤ 2 ^ f.p * 2 ^ e :=
              mul_le_mul_of_nonneg_right this (zpow2_pos e).le
          _ = (2 : ℚ) ^ ((f.p : Int) + e) := by rw [zpow_add₀ (by norm_num), zpow_natCast]
          _ ≤ _ := zpow2_le (by omega)
      have hb : (2 : ℚ) ^ (f.quantum x + f.p - 1) = ((2 ^ (f.p - 1) : Int) : ℚ) * 2 ^ f.quantum x := by
        push_cast
        rw [← zpow_natCast, ← zpow_add₀ (by norm_num)]
        congr 1
        omega
      set B := (2 : ℚ) ^ (f.quantum x + f.p - 1)
      rw [abs_le] at hmq
      rcases le_total 0 x with hx | hx
      · rw [abs_of_nonneg hx] at h1
        have := near_nearest_grid f x (2 ^ (f.p - 1))
        rw [← hb, abs_of_nonpos (a := B - x) (by linarith)] at this
        rw [abs_of_nonpos (a := (m : ℚ) * 2 ^ e - x) (by linarith)]
        linarith
      · rw [abs_of_nonpos hx] at h1
        have := near_nearest_grid f x (-(2 ^ (f.p - 1)))
        have hb' : ((-(2 ^ (f.p - 1)) : Int) : ℚ) * 2 ^ f.quantum x = -B := by
          rw [hb]; push_cast; ring
        rw [hb', abs_of_nonneg (a := -B - x) (by linarith)] at this
        rw [abs_of_nonneg (a := (m : ℚ) * 2 ^ e - x) (by linarith)]
        linarith

theorem near_exact (hp : 1 ≤ f.p) {x : ℚ} (h : f.Grid x) : f.near x = x := by
  have := near_nearest f hp (x := x) h
  rw [sub_self, abs_zero] at this
  have := abs_eq_zero.mp (le_antisymm this (abs_nonneg _))
  linarith

/-- The rounded number is one of the format, up to the limit of the exponent. -/
theorem near_grid (hp : 1 ≤ f.p) (x : ℚ) : f.Grid (f.near x) := by
  have hq := zpow2_pos (f.quantum x)
  have h1 := abs_lt_quantum f x
  have h2 : |x / (2 : ℚ) ^ f.quantum x| < 2 ^ f.p := by
    rw [abs_div, abs_of_pos hq, div_lt_iff₀ hq, ← zpow_natCast, ← zpow_add₀ (by norm_num), add_comm]
    exact h1
  have h3 := roundInt_err (x / (2 : ℚ) ^ f.quantum x)
  set r := roundInt (x / (2 : ℚ) ^ f.quantum x) with hr
  have h4 : |(r : ℚ)| < 2 ^ f.p + 1 := by
    calc |(r : ℚ)| = |((r : ℚ) - x / (2 : ℚ) ^ f.quantum x) + x / (2 : ℚ) ^ f.quantum x| := by ring_nf
      _ ≤ _ := abs_add_le _ _
      _ < _ := by linarith
  have h5 : |r| ≤ 2 ^ f.p := by
    have : |r| < 2 ^ f.p + 1 := by exact_mod_cast h4
    omega
  rcases lt_or_eq_of_le h5 with h6 | h6
  · exact ⟨r, f.quantum x, by rw [hr]; rfl, h6, quantum_ge f x⟩
  · obtain ⟨s, hs⟩ : ∃ s : Int, r = s * 2 ^ f.p ∧ |s| = 1 := by
      rcases abs_choice r with h7 | h7
      · exact ⟨1, by rw [← h6, h7]; ring, rfl⟩
      · exact ⟨-1, by rw [← h6, h7]; ring, rfl⟩
    refine ⟨s * 2 ^ (f.p - 1), f.quantum x + 1, ?_, ?_, ?_⟩
    · have : f.near x = (r : ℚ) * 2 ^ f.quantum x := by rw [hr]; rfl
      rw [this, hs.1]
      push_cast
      rw [zpow_add_one₀ (by norm_num)]
      obtain ⟨k, hk⟩ : ∃ k, f.p = k + 1 := ⟨f.p - 1, by omega⟩
      rw [hk]
      simp only [Nat.add_sub_cancel]
      ring
    · rw [abs_mul, hs.2, one_mul, abs_of_pos (by positivity)]
      exact pow_lt_pow_right₀ (by norm_num) (by omega)
    · have := quantum_ge f x
      omega

theorem near_mono (hp : 1 ≤ f.p) {x y : ℚ} (h : x ≤ y) : f.near x ≤ f.near y := by
  by_contra hc
  push_neg at hc
  have h1 := near_nearest f hp (x := x) (near_grid f hp y)
  have h2 := near_nearest f hp (x := y) (near_grid f hp x)
  have h3 : x ≠ y := by rintro rfl; exact lt_irrefl _ hc
  have h4 : x < y := lt_of_le_of_ne h h3
  rw [abs_le] at h1 h2
  rcases abs_cases (f.near y - x) with ⟨e1, _⟩ | ⟨e1, _⟩ <;>
    rcases abs_cases (f.near x - y) with ⟨e2, _⟩ | ⟨e2, _⟩ <;>
    rw [e1] at h1 <;> rw [e2] at h2 <;> linarith

/-- Relative error of rounding in the range of normal numbers. -/
theorem near_rel {x : ℚ} (h : (2 : ℚ) ^ (f.emin + f.p - 1) ≤ |x|) :
    |f.near x - x| ≤ |x| / 2 ^ f.p := by
  refine le_trans (near_err f x) ?_
  have hb : (2 : ℚ) ^ (f.quantum x + f.p - 1) ≤ |x| := by
    rcases quantum_cases f x with h1 | h1
    · rw [h1]; exact h
    · exact h1
  rw [le_div_iff₀ (by positivity), ← zpow_natCast, ← zpow_add₀ (by norm_num)]
  refine le_trans (le_of_eq ?_) hb
  congr 1
  ring

/-- Absolute error below the normal numbers. -/
theorem near_sub {x : ℚ} (h : |x| < (2 : ℚ) ^ (f.emin + f.p - 1)) :
    |f.near x - x| ≤ (2 : ℚ) ^ (f.emin - 1) := by
  refine le_trans (near_err f x) ?_
  rcases quantum_cases f x with h1 | h1
  · rw [h1]
  · have h2 := zpow2_lt.mp (lt_of_le_of_lt h1 h)
    have := quantum_ge f x
    omega

theorem near_zero : f.near 0 = 0 := by
  unfold Format.near
  simp [show roundInt 0 = 0 from by simpa using roundInt_int 0]

theorem near_nonneg (hp : 1 ≤ f.p) {x : ℚ} (h : 0 ≤ x) : 0 ≤ f.near x := by
  rw [← near_zero f]
  exact near_mono f hp h

theorem grid_max (hp : 1 ≤ f.p) (h : f.emin ≤ f.emax) : f.Grid f.max := by
  refine ⟨2 ^ f.p - 1, f.emax, ?_, ?_, h⟩
  · unfold Format.max; push_cast; ring
  · have : (1 : Int) ≤ 2 ^ f.p := one_le_pow₀ (by norm_num)
    rw [abs_of_nonneg (by omega)]
    omega

/-- Numbers up to the largest one do not overflow. -/
theorem round_num (hp : 1 ≤ f.p) (he : f.emin ≤ f.emax) {x : ℚ} (h : |x| ≤ f.max) :
    f.round x = .num (f.near x) := by
  unfold Format.round
  rw [if_neg]
  rw [not_lt]
  have hg := near_exact f hp (grid_max f hp he)
  rw [abs_le] at h ⊢
  constructor
  · have := near_mono f hp h.1
    rw [near_neg, hg] at this
    exact this
  · have := near_mono f hp h.2
    rw [hg] at this
    exact this

end Gul14.Ieee
