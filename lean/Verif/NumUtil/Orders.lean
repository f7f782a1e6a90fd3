import Verif.Statistics.IeeeLemmas

/-!
# within_orders in IEEE arithmetic (C103), num_util.h:92-104
-/
namespace Gul14.NumUtil
open Gul14.Ieee Gul14.Statistics

/-- `std::pow(10, orders)` in a format: any function that is accurate to one unit in the last place where the power is
a normal number, does not return a small number where the power is too large, and never a negative number or NaN.
Only whole numbers of orders are considered. -/
structure Pow10 (g : Format) where
  run : Int → Fl
  num : ∀ k, (2 : ℚ) ^ (g.emin + g.p - 1) ≤ (10 : ℚ) ^ k → (1 + 2 / 2 ^ g.p) * (10 : ℚ) ^ k ≤ g.max →
    ∃ s, run k = .num s ∧ |s - (10 : ℚ) ^ k| ≤ 2 / 2 ^ g.p * (10 : ℚ) ^ k
  big : ∀ k, g.max < (1 + 2 / 2 ^ g.p) * (10 : ℚ) ^ k → run k = .inf false ∨ ∃ s, run k = .num s ∧ g.max / 2 ≤ s
  range : ∀ k, run k = .inf false ∨ ∃ s, run k = .num s ∧ 0 ≤ s

/-- within_orders, num_util.h:92-104, for a floating-point type with the format `f`.  The power, and with it the limit,
has the format `g`: that of double if `a` is a float and `orders` an integer or a double. -/
def withinOrdersI (f g : Format) (P : Pow10 g) (a b : Fl) (orders : Int) : Bool :=
  let difference := (f.sub a b).abs
  if Fl.eq difference (.num 0) then true
  else
    let maximum := flMax a.abs b.abs
    let limit := g.div (g.conv maximum) (P.run orders)
    Fl.lt difference limit

theorem flMax_num (a b : ℚ) : flMax (Fl.num a) (Fl.num b) = .num (Max.max a b) := by
  unfold flMax
  simp only [Fl.lt, decide_eq_true_eq]
  split
  · rename_i h; rw [max_eq_right h.le]
  · rename_i h; rw [max_eq_left (not_lt.mp h)]

theorem sub_abs_num (f : Format) (a b : ℚ) : (f.sub (.num a) (.num b)).abs = f.round |a - b| := by
  unfold Format.sub
  simp only [Fl.neg, Format.add]
  rw [round_abs, sub_eq_add_neg]

/-- Numbers that are different have a difference that is not zero. -/
theorem near_pos_of_ne {f : Format} (hf : Sane f) {a b : ℚ} (ha : f.Rep a) (hb : f.Rep b) (h : a ≠ b) :
    |a - b| - |a - b| / 2 ^ f.p ≤ f.near |a - b| ∧ f.near |a - b| ≤ |a - b| + |a - b| / 2 ^ f.p ∧
    0 < f.near |a - b| := by
  have hp : 1 ≤ f.p := by have := hf.p; omega
  have h1 := near_add hp (rep_grid f ha) (grid_neg f (rep_grid f hb))
  rw [← sub_eq_add_neg] at h1
  have hn : abs (f.near |a - b| - |a - b|) ≤ |a - b| / 2 ^ f.p := by
    rcases abs_cases (a - b) with ⟨e, -⟩ | ⟨e, -⟩
    · rw [e]; rw [e] at h1; exact h1
    · rw [e, near_neg]; rw [e] at h1
      have : -f.near (a - b) - -(a - b) = -(f.near (a - b) - (a - b)) := by ring
      rw [this, abs_neg]; exact h1
  have hpos : 0 < |a - b| := abs_pos.mpr (sub_ne_zero.mpr h)
  have hlt : |a - b| / 2 ^ f.p < |a - b| := by
    rw [div_lt_iff₀ (by positivity)]
    have : (2 : ℚ) ^ 1 ≤ 2 ^ f.p := pow_le_pow_right₀ (by norm_num) hp
    nlinarith
  rw [abs_le] at hn
  refine ⟨by linarith, by linarith, by linarith⟩

theorem withinOrdersI_ne {f g : Format} (h : Promotes f g) (P : Pow10 g) {a b : ℚ} (ha : f.Rep a) (hb : f.Rep b)
    (hne : a ≠ b) (k : Int) :
    withinOrdersI f g P (.num a) (.num b) k =
      Fl.lt (f.round |a - b|) (g.div (.num (Max.max |a| |b|)) (P.run k)) := by
  obtain ⟨-, -, hpos⟩ := near_pos_of_ne h.saneF ha hb hne
  have e1 : Fl.eq (f.round |a - b|) (.num 0) = false := by
    unfold Format.round
    split
    · rfl
    · simp [Fl.eq, hpos.ne']
  have hm : f.Rep (Max.max |a| |b|) := by
    rcases max_cases |a| |b| with ⟨e, -⟩ | ⟨e, -⟩ <;> rw [e]
    · exact rep_abs f ha
    · exact rep_abs f hb
  unfold withinOrdersI
  simp only [sub_abs_num, e1, Bool.false_eq_true, if_false, abs_num, flMax_num]
  rw [conv_of_rep h.saneG (h.rep hm)]

/-- **C103.**  The order of the numbers does not matter, whatever they are. -/
theorem c103_symmetric (f g : Format) (P : Pow10 g) (a b : Fl) (k : Int) :
    withinOrdersI f g P a b k = withinOrdersI f g P b a k := by
  cases a with
  | num x =>
    cases b with
    | num y =>
      unfold withinOrdersI
      simp only [sub_abs_num, abs_num, flMax_num]
      rw [abs_sub_comm, max_comm]
    | inf s => cases s <;> simp [withinOrdersI, Format.sub, Fl.neg, Format.add, Fl.abs, flMax, Fl.lt]
    | nan => simp [withinOrdersI, Format.sub, Fl.neg, Format.add, Fl.abs, Fl.eq, Fl.lt]
  | inf s =>
    cases b with
    | num y => cases s <;> simp [withinOrdersI, Format.sub, Fl.neg, Format.add, Fl.abs, flMax, Fl.lt]
    | inf t => cases s <;> cases t <;> simp [withinOrdersI, Format.sub, Fl.neg, Format.add, Fl.abs, flMax, Fl.lt]
    | nan => simp [withinOrdersI, Format.sub, Fl.neg, Format.add, Fl.abs, Fl.eq, Fl.lt]
  | nan => cases b <;> simp [withinOrdersI, Format.sub, Fl.neg, Format.add, Fl.abs, Fl.eq, Fl.lt]

/-- **C103.**  A number is within any number of orders of itself. -/
theorem c103_equal_partial (f g : Format) (P : Pow10 g) (a : ℚ) (k : Int) (hf : Sane f) :
    withinOrdersI f g P (.num a) (.num a) k = true := by
  have hm : (0 : ℚ) ≤ f.max := le_trans (by norm_num) hf.max
  unfold withinOrdersI
  simp only [sub_abs_num, sub_self, abs_zero, Format.round, near_zero]
  rw [if_neg (c := f.max < 0) (by linarith)]
  simp [Fl.eq]

/-- **C103.**  NaN is not within any number of orders of anything, and infinity not of anything else. -/
theorem c103_special (f g : Format) (P : Pow10 g) (a : Fl) (s : Bool) (k : Int) :
    withinOrdersI f g P .nan a k = false ∧ (a ≠ .inf s → withinOrdersI f g P (.inf s) a k = false) := by
  constructor
  · cases a <;> simp [withinOrdersI, Format.sub, Fl.neg, Format.add, Fl.abs, Fl.eq, Fl.lt]
  · intro h
    cases a with
    | num y =>
      cases s <;> simp only [withinOrdersI, Format.sub, Fl.neg, Format.add, Fl.abs, Fl.eq, flMax, Fl.lt, Bool.false_eq_true, if_false, Format.conv] <;>
        (rcases P.range k with e | ⟨x, e, -⟩ <;> rw [e] <;> simp [Format.div, Fl.lt])
    | inf t =>
      cases s <;> cases t <;> first | exact absurd rfl h | skip
      all_goals
        simp only [withinOrdersI, Format.sub, Fl.neg, Format.add, Fl.abs, Fl.eq, flMax, Fl.lt]
        rcases P.range k with e | ⟨x, e, -⟩ <;> rw [e] <;> simp [Format.conv, Format.div, Fl.lt, Fl.eq]
    | nan => simp [withinOrdersI, Format.sub, Fl.neg, Format.add, Fl.abs, Fl.eq, Fl.lt]

/-- Documented ("true if a and b are equal"), but false for infinity: the difference is NaN. -/
theorem c103_equal_violated (f g : Format) (P : Pow10 g) (s : Bool) (k : Int) :
    Fl.eq (.inf s) (.inf s) = true ∧ withinOrdersI f g P (.inf s) (.inf s) k = false := by
  cases s <;> simp [withinOrdersI, Format.sub, Fl.neg, Format.add, Fl.abs, Fl.eq, Fl.lt]

theorem u_small {f : Format} (h : 24 ≤ f.p) : (1 : ℚ) / 2 ^ f.p ≤ 1 / 1000 ∧ (0 : ℚ) < 1 / 2 ^ f.p := by
  refine ⟨?_, by positivity⟩
  apply one_div_le_one_div_of_le (by norm_num)
  calc (1000 : ℚ) ≤ 2 ^ 24 := by norm_num
    _ ≤ 2 ^ f.p := pow_le_pow_right₀ (by norm_num) h

theorem accept_algebra {u v d X x E : ℚ} (hv0 : 0 < v) (hvu : v ≤ u) (hu1 : u ≤ 1 / 1000) (hX0 : 0 < X) (hE : 0 < E)
    (hle : d ≤ (1 - 5 * u) * X - E) (hx : X ≤ x * (1 + 2 * v)) : d * (1 + u) < x * (1 - v) - E / 2 := by
  have hu0 : 0 < u := by linarith
  have huv : 0 < u * v := mul_pos hu0 hv0
  have huu : 0 < u * u := mul_pos hu0 hu0
  have m1 : d * ((1 + u) * (1 + 2 * v)) ≤ ((1 - 5 * u) * X - E) * ((1 + u) * (1 + 2 * v)) :=
    mul_le_mul_of_nonneg_right hle (by positivity)
  have m2 : X * (1 - v) ≤ x * (1 + 2 * v) * (1 - v) := mul_le_mul_of_nonneg_right hx (by linarith)
  have m3 : (1 - 5 * u) * ((1 + u) * (1 + 2 * v)) ≤ 1 - v := by
    have n1 : (1 - 5 * u) * (1 + u) ≤ 1 - 4 * u := by linarith
    have n2 := mul_le_mul_of_nonneg_right n1 (show (0 : ℚ) ≤ 1 + 2 * v by linarith)
    have n3 : (1 - 4 * u) * (1 + 2 * v) ≤ 1 - v := by linarith
    linarith
  have m4 : X * ((1 - 5 * u) * ((1 + u) * (1 + 2 * v))) ≤ X * (1 - v) := mul_le_mul_of_nonneg_left m3 hX0.le
  have m5 : E / 2 * (1 + 2 * v) < E * ((1 + u) * (1 + 2 * v)) := by
    have n1 : 0 < E * v := mul_pos hE hv0
    have n2 : 0 < E * u := mul_pos hE hu0
    have n3 : 0 < E * (u * v) := mul_pos hE huv
    linarith
  have k3 : d * (1 + u) * (1 + 2 * v) < (x * (1 - v) - E / 2) * (1 + 2 * v) := by linarith
  exact lt_of_mul_lt_mul_right k3 (by linarith)

theorem reject_algebra {u v d X x : ℚ} (hv0 : 0 < v) (hvu : v ≤ u) (hu1 : u ≤ 1 / 1000) (hx0 : 0 < x)
    (hge : (1 + 4 * u) * X ≤ d) (hx : x * (1 - 2 * v) ≤ X) : x ≤ d * (1 - u) := by
  have hu0 : 0 < u := by linarith
  have m1 : (1 + 4 * u) * X * (1 - u) ≤ d * (1 - u) := mul_le_mul_of_nonneg_right hge (by linarith)
  have m5 : 1 + 2 * u ≤ (1 + 4 * u) * (1 - u) := by nlinarith
  have m2 : x * (1 - 2 * v) * ((1 + 4 * u) * (1 - u)) ≤ X * ((1 + 4 * u) * (1 - u)) :=
    mul_le_mul_of_nonneg_right hx (by linarith)
  have m6 : (1 - 2 * u) * (1 + (2 * u + u / 2)) ≤ (1 - 2 * v) * ((1 + 4 * u) * (1 - u)) := by
    have n1 : 1 + (2 * u + u / 2) ≤ (1 + 4 * u) * (1 - u) := by nlinarith
    exact mul_le_mul (by linarith) n1 (by linarith) (by linarith)
  have m3 : 1 ≤ (1 - 2 * v) * ((1 + 4 * u) * (1 - u)) := by nlinarith
  have m4 := mul_le_mul_of_nonneg_left m3 hx0.le
  linarith

/-- **C103.**  Different numbers are told apart if their difference is clearly not `orders` orders of magnitude smaller
than the larger one, and taken for equal if it clearly is; only within a relative distance of some units of rounding
from the limit (and one smallest number) the answer is open. -/
theorem c103_accuracy {f g : Format} (h : Promotes f g) (hp : 24 ≤ f.p) (P : Pow10 g) {a b : ℚ} (ha : f.Rep a)
    (hb : f.Rep b) (hne : a ≠ b) (k : Int) (hk : 1 ≤ k) (hmax : (1 + 2 / 2 ^ g.p) * (10 : ℚ) ^ k ≤ g.max) :
    (|a - b| ≤ (1 - 5 / 2 ^ f.p) * (Max.max |a| |b| / 10 ^ k) - (2 : ℚ) ^ g.emin →
      withinOrdersI f g P (.num a) (.num b) k = true) ∧
    ((1 + 4 / 2 ^ f.p) * (Max.max |a| |b| / 10 ^ k) ≤ |a - b| →
      withinOrdersI f g P (.num a) (.num b) k = false) := by
  rw [withinOrdersI_ne h P ha hb hne]
  have hpf : 1 ≤ f.p := by omega
  have hpg : 1 ≤ g.p := le_trans hpf h.p
  have hM0 : 0 < Max.max |a| |b| := by
    by_contra hc
    have h1 := le_trans (le_max_left |a| |b|) (not_lt.mp hc)
    have h2 := le_trans (le_max_right |a| |b|) (not_lt.mp hc)
    exact hne (by rw [abs_nonpos_iff.mp h1, abs_nonpos_iff.mp h2])
  have hMf : Max.max |a| |b| ≤ f.max := max_le (rep_le_max f ha) (rep_le_max f hb)
  generalize Max.max |a| |b| = M at *
  obtain ⟨hD1, hD2, hDpos⟩ := near_pos_of_ne h.saneF ha hb hne
  have hgrid := near_grid f hpf |a - b|
  have ht10 : (10 : ℚ) ≤ 10 ^ k := by
    calc (10 : ℚ) = 10 ^ (1 : Int) := by norm_num
      _ ≤ 10 ^ k := zpow_le_zpow_right₀ (by norm_num) hk
  have hnorm : (2 : ℚ) ^ (g.emin + g.p - 1) ≤ (10 : ℚ) ^ k := by
    have h1 : (2 : ℚ) ^ (g.emin + g.p - 1) ≤ 2 ^ (0 : Int) := zpow2_le (by have := h.saneG.emin; omega)
    rw [zpow_zero] at h1
    linarith
  obtain ⟨s, hs, hserr⟩ := P.num k hnorm hmax
  obtain ⟨hu1, hu0⟩ := u_small hp
  have hvu : (1 : ℚ) / 2 ^ g.p ≤ 1 / 2 ^ f.p :=
    one_div_le_one_div_of_le (by positivity) (pow_le_pow_right₀ (by norm_num) h.p)
  have hv0 : (0 : ℚ) < 1 / 2 ^ g.p := by positivity
  rw [hs]
  have e1 : (5 : ℚ) / 2 ^ f.p = 5 * (1 / 2 ^ f.p) := by ring
  have e2 : (4 : ℚ) / 2 ^ f.p = 4 * (1 / 2 ^ f.p) := by ring
  have e3 : (2 : ℚ) / 2 ^ g.p = 2 * (1 / 2 ^ g.p) := by ring
  have e4 : |a - b| / 2 ^ f.p = |a - b| * (1 / 2 ^ f.p) := by ring
  rw [e1, e2]
  rw [e3] at hserr
  rw [e4] at hD1 hD2
  have e5 : ∀ x : ℚ, |x| / 2 ^ g.p = |x| * (1 / 2 ^ g.p) := fun x => by ring
  have hgen := near_gen g (M / s)
  rw [e5] at hgen
  have hmaxfg := h.max
  have hround : ∀ x : ℚ, |x| ≤ f.max → f.round x = .num (f.near x) := fun x hx => round_num f hpf h.saneF.emax hx
  have hroundg : ∀ x : ℚ, |x| ≤ g.max → g.round x = .num (g.near x) := fun x hx => round_num g hpg h.saneG.emax hx
  generalize (1 : ℚ) / 2 ^ f.p = u at *
  generalize (1 : ℚ) / 2 ^ g.p = v at *
  generalize hT : (10 : ℚ) ^ k = T at *
  rw [abs_le] at hserr
  have hs0 : 0 < s := by nlinarith
  have hx0 : 0 < M / s := div_pos hM0 hs0
  have hX0 : 0 < M / T := div_pos hM0 (by linarith)
  have hXT : M / T * T = M := div_mul_cancel₀ _ (by linarith)
  have hxs : M / s * s = M := div_mul_cancel₀ _ hs0.ne'
  have hxX1 : M / s * (1 - 2 * v) ≤ M / T := by
    have h1 : M / s * (T * (1 - 2 * v)) ≤ M / T * T := by
      rw [hXT]; nlinarith
    have h2 : (M / s * (1 - 2 * v)) * T ≤ M / T * T := by linarith
    exact le_of_mul_le_mul_right h2 (by linarith)
  have hxX2 : M / T ≤ M / s * (1 + 2 * v) := by
    have h2 : M / T * T ≤ (M / s * (1 + 2 * v)) * T := by
      rw [hXT]; nlinarith
    exact le_of_mul_le_mul_right h2 (by linarith)
  have hXM : M / T * 10 ≤ M := by nlinarith
  have hxmax : |M / s| ≤ g.max := by
    rw [abs_of_pos hx0]
    nlinarith
  have hdiv : g.div (.num M) (.num s) = .num (g.near (M / s)) := by
    simp only [Format.div]
    rw [if_neg hs0.ne', hroundg _ hxmax]
  rw [hdiv]
  have hem := zpow2_pos g.emin
  have hem1 : (2 : ℚ) ^ (g.emin - 1) = (2 : ℚ) ^ g.emin / 2 := by
    rw [zpow_sub₀ (by norm_num)]; norm_num
  rw [hem1, abs_of_pos hx0, abs_le] at hgen
  have hd0 : 0 < |a - b| := abs_pos.mpr (sub_ne_zero.mpr hne)
  constructor
  · intro hle
    have hsmall : |a - b| ≤ f.max := by nlinarith
    rw [hround _ (by rwa [abs_abs])]
    simp only [Fl.lt, decide_eq_true_eq]
    have k1 : f.near |a - b| ≤ |a - b| * (1 + u) := by linarith
    have k2 : M / s * (1 - v) - 2 ^ g.emin / 2 ≤ g.near (M / s) := by linarith
    have k4 := accept_algebra hv0 hvu hu1 hX0 hem hle hxX2
    linarith
  · intro hge
    -- the limit is not above the difference
    have k1 : |a - b| * (1 - u) ≤ f.near |a - b| := by linarith
    have k2 : M / s ≤ f.near |a - b| := by
      refine le_trans ?_ k1
      exact reject_algebra hv0 hvu hu1 hx0 hge hxX1
    have k3 : g.near (M / s) ≤ f.near |a - b| := by
      have := near_mono g hpg k2
      rwa [near_exact g hpg (h.grid hgrid)] at this
    unfold Format.round
    split
    · simp [Fl.lt]
    · simp only [Fl.lt, decide_eq_false_iff_not, not_lt]
      exact k3

/-- **C103.**  With more digits than the format has, only equal numbers are within the orders, however large the number
of digits is. -/
theorem c103_many_digits {f g : Format} (h : Promotes f g) (hp : 24 ≤ f.p) (hg : (2 : ℚ) ^ (f.p + 3) ≤ g.max)
    (P : Pow10 g) {a b : ℚ} (ha : f.Rep a) (hb : f.Rep b) (k : Int) (hk : (2 : ℚ) ^ (f.p + 2) ≤ (10 : ℚ) ^ k) :
    withinOrdersI f g P (.num a) (.num b) k = true ↔ a = b := by
  refine ⟨fun ht => ?_, fun e => by rw [e]; exact c103_equal_partial f g P b k h.saneF⟩
  by_contra hne
  rw [withinOrdersI_ne h P ha hb hne] at ht
  have hpf : 1 ≤ f.p := by omega
  have hpg : 1 ≤ g.p := le_trans hpf h.p
  obtain ⟨hD1, hD2, hDpos⟩ := near_pos_of_ne h.saneF ha hb hne
  have hgrid := near_grid f hpf |a - b|
  have hap := grid_apart f (rep_grid f ha) (rep_grid f hb) hne
  -- the difference is not much smaller than the larger number
  have hM : Max.max |a| |b| ≤ |a - b| * 2 ^ (f.p + 1) := by
    have h2p : (1 : ℚ) ≤ 2 ^ f.p := one_le_pow₀ (by norm_num)
    have hsum : Max.max |a| |b| ≤ |a - b| + Min.min |a| |b| := by
      rcases le_total |a| |b| with hh | hh
      · rw [max_eq_right hh, min_eq_left hh]
        have := abs_sub_abs_le_abs_sub b a
        rw [abs_sub_comm] at this
        linarith
      · rw [max_eq_left hh, min_eq_right hh]
        have := abs_sub_abs_le_abs_sub a b
        linarith
    rw [div_le_iff₀ (by positivity)] at hap
    rw [pow_succ]
    nlinarith [abs_nonneg (a - b)]
  have hM0 : 0 < Max.max |a| |b| := by
    by_contra hc
    have h1 := le_trans (le_max_left |a| |b|) (not_lt.mp hc)
    have h2 := le_trans (le_max_right |a| |b|) (not_lt.mp hc)
    exact hne (by rw [abs_nonpos_iff.mp h1, abs_nonpos_iff.mp h2])
  generalize Max.max |a| |b| = M at *
  obtain ⟨hu1, hu0⟩ := u_small hp
  have hvu : (1 : ℚ) / 2 ^ g.p ≤ 1 / 2 ^ f.p :=
    one_div_le_one_div_of_le (by positivity) (pow_le_pow_right₀ (by norm_num) h.p)
  have hv0 : (0 : ℚ) < 1 / 2 ^ g.p := by positivity
  have e4 : |a - b| / 2 ^ f.p = |a - b| * (1 / 2 ^ f.p) := by ring
  rw [e4] at hD1
  have e3 : (2 : ℚ) / 2 ^ g.p = 2 * (1 / 2 ^ g.p) := by ring
  have hW : (2 : ℚ) ^ (f.p + 2) = 2 ^ (f.p + 1) * 2 := by rw [pow_succ]
  have hW' : (2 : ℚ) ^ (f.p + 3) = 2 ^ (f.p + 1) * 4 := by rw [pow_succ, pow_succ]; ring
  have hWpos : (0 : ℚ) < 2 ^ (f.p + 1) := by positivity
  have hpow : P.run k = .inf false ∨ ∃ s, P.run k = .num s ∧ (2 : ℚ) ^ (f.p + 1) * (3 / 2) ≤ s := by
    by_cases hb : (1 + 2 / 2 ^ g.p) * (10 : ℚ) ^ k ≤ g.max
    · right
      have hnorm : (2 : ℚ) ^ (g.emin + g.p - 1) ≤ (10 : ℚ) ^ k := by
        have h1 : (2 : ℚ) ^ (g.emin + g.p - 1) ≤ 2 ^ ((f.p + 2 : Nat) : Int) := zpow2_le (by have := h.saneG.emin; omega)
        rw [zpow_natCast] at h1
        exact le_trans h1 hk
      obtain ⟨s, hs, hserr⟩ := P.num k hnorm hb
      refine ⟨s, hs, ?_⟩
      rw [e3, abs_le] at hserr
      rw [hW] at hk
      nlinarith
    · rcases P.big k (not_le.mp hb) with e | ⟨s, e, hs⟩
      · exact .inl e
      · exact .inr ⟨s, e, by linarith⟩
  rcases hpow with e | ⟨s, e, hs⟩
  · rw [e] at ht
    simp only [Format.div] at ht
    unfold Format.round at ht
    split at ht
    · simp [Fl.lt, not_lt.mpr (abs_nonneg (a - b))] at ht
    · simp only [Fl.lt, decide_eq_true_eq] at ht
      linarith
  · rw [e] at ht
    have hs0 : 0 < s := lt_of_lt_of_le (by positivity) hs
    have hx : M / s ≤ f.near |a - b| := by
      rw [div_le_iff₀ hs0]
      have hd0 : 0 < |a - b| := abs_pos.mpr (sub_ne_zero.mpr hne)
      have k1 : |a - b| * (1 - 1 / 2 ^ f.p) ≤ f.near |a - b| := by linarith
      have k2 : |a - b| * (1 - 1 / 2 ^ f.p) * (2 ^ (f.p + 1) * (3 / 2)) ≤ f.near |a - b| * s :=
        mul_le_mul k1 hs (by positivity) hDpos.le
      have k3 : |a - b| * 2 ^ (f.p + 1) ≤ |a - b| * 2 ^ (f.p + 1) * ((1 - 1 / 2 ^ f.p) * (3 / 2)) := by
        have : (1 : ℚ) ≤ (1 - 1 / 2 ^ f.p) * (3 / 2) := by linarith
        have h0 : 0 < |a - b| * 2 ^ (f.p + 1) := by positivity
        nlinarith
      linarith
    have k3 : g.near (M / s) ≤ f.near |a - b| := by
      have := near_mono g hpg hx
      rwa [near_exact g hpg (h.grid hgrid)] at this
    simp only [Format.div] at ht
    rw [if_neg hs0.ne'] at ht
    have hx0 := near_nonneg g hpg (div_pos hM0 hs0).le
    have hmaxfg := h.max
    unfold Format.round at ht
    split at ht
    · split at ht <;> simp [Fl.lt, not_lt.mpr (abs_nonneg (a - b))] at ht
    · rename_i hfin
      rw [abs_of_pos hDpos] at hfin
      split at ht
      · rename_i hbig
        rw [abs_of_nonneg hx0] at hbig
        linarith
      · simp only [Fl.lt, decide_eq_true_eq] at ht
        linarith

/-- A correctly rounded power meets the requirements. -/
def roundedPow10 (g : Format) (hg : Sane g) : Pow10 g where
  run k := g.round ((10 : ℚ) ^ k)
  num k hn hm := by
    have hp : 1 ≤ g.p := by have := hg.p; omega
    have h0 : (0 : ℚ) < 10 ^ k := zpow_pos (by norm_num) k
    have h2 : (0 : ℚ) < 2 / 2 ^ g.p := by positivity
    refine ⟨_, round_num g hp hg.emax (by rw [abs_of_pos h0]; nlinarith), ?_⟩
    have := near_rel g (x := (10 : ℚ) ^ k) (by rwa [abs_of_pos h0])
    rw [abs_of_pos h0] at this
    refine le_trans this ?_
    rw [div_mul_eq_mul_div]
    exact div_le_div_of_nonneg_right (by linarith) (by positivity)
  big k hm := by
    have hp : 1 ≤ g.p := by have := hg.p; omega
    have h0 : (0 : ℚ) < 10 ^ k := zpow_pos (by norm_num) k
    have hu := nu_le hg
    have hmx := hg.max
    have hu0 : (0 : ℚ) < 2 / 2 ^ g.p := by positivity
    have hn : (2 : ℚ) ^ (g.emin + g.p - 1) ≤ |(10 : ℚ) ^ k| := by
      have h1 : (2 : ℚ) ^ (g.emin + g.p - 1) ≤ 2 ^ (0 : Int) := zpow2_le (by have := hg.emin; omega)
      rw [zpow_zero] at h1
      rw [abs_of_pos h0]
      nlinarith
    have := near_rel g hn
    rw [abs_of_pos h0, abs_le] at this
    unfold Format.round
    split
    · left; simp [not_lt.mpr h0.le]
    · right
      refine ⟨_, rfl, ?_⟩
      have e : (10 : ℚ) ^ k / 2 ^ g.p = 10 ^ k * (2 / 2 ^ g.p) / 2 := by ring
      rw [e] at this
      nlinarith
  range k := by
    have hp : 1 ≤ g.p := by have := hg.p; omega
    have h0 : (0 : ℚ) < 10 ^ k := zpow_pos (by norm_num) k
    unfold Format.round
    split
    · left; simp [not_lt.mpr h0.le]
    · exact .inr ⟨_, rfl, near_nonneg g hp h0.le⟩

example : withinOrdersI binary64 binary64 (roundedPow10 _ sane64) (.num 23736384) (.num 23736228) 5 = true ∧
    withinOrdersI binary64 binary64 (roundedPow10 _ sane64) (.num 23736384) (.num 23735384) 5 = false ∧
    withinOrdersI binary32 binary64 (roundedPow10 _ sane64) (.num 1) (.num (1 + 1 / 2 ^ 23)) 400 = false ∧
    withinOrdersI binary32 binary64 (roundedPow10 _ sane64) (.num 0) (.num 1) 3 = false := by decide +kernel

example (P : Pow10 binary64) : withinOrdersI binary32 binary64 P (.num 3) (.num 5) 12 = false := by
  have h3 : binary32.Rep 3 := ⟨3, 0, by norm_num, by decide, by decide, by decide⟩
  have h5 : binary32.Rep 5 := ⟨5, 0, by norm_num, by decide, by decide, by decide⟩
  have := c103_many_digits promotes32 (by decide) (by decide +kernel) P h3 h5 12 (by decide +kernel)
  rw [Bool.eq_false_iff]
  intro h
  exact absurd (this.mp h) (by norm_num)

example (P : Pow10 binary64) : withinOrdersI binary32 binary64 P (.num 1000) (.num 1001) 2 = true := by
  have h3 : binary32.Rep 1000 := ⟨1000, 0, by norm_num, by decide, by decide, by decide⟩
  have h5 : binary32.Rep 1001 := ⟨1001, 0, by norm_num, by decide, by decide, by decide⟩
  exact (c103_accuracy promotes32 (by decide) P h3 h5 (by norm_num) 2 (by norm_num) (by decide +kernel)).1
    (by decide +kernel)

end Gul14.NumUtil
