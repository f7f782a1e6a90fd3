import Verif.Ieee.Arith

/-! # Propagation of relative errors -/
namespace Gul14.Ieee

/-- `y` approximates the positive number `x`, up to a factor between `L` and `H`. -/
structure Between (L H x y : ℚ) : Prop where
  pos : 0 < x
  lo : L * x ≤ y
  hi : y ≤ H * x

theorem Between.refl {x : ℚ} (h : 0 < x) : Between 1 1 x x := ⟨h, by linarith, by linarith⟩

theorem Between.y_pos {L H x y : ℚ} (h : Between L H x y) (hL : 0 < L) : 0 < y :=
  lt_of_lt_of_le (mul_pos hL h.pos) h.lo

theorem Between.weaken {L H L' H' x y : ℚ} (h : Between L H x y) (hL : L' ≤ L) (hH : H ≤ H') :
    Between L' H' x y :=
  ⟨h.pos, le_trans (mul_le_mul_of_nonneg_right hL h.pos.le) h.lo,
    le_trans h.hi (mul_le_mul_of_nonneg_right hH h.pos.le)⟩

theorem Between.mul {L H x y L' H' x' y' : ℚ} (h : Between L H x y) (h' : Between L' H' x' y')
    (hL : 0 < L) (hL' : 0 < L') : Between (L * L') (H * H') (x * x') (y * y') := by
  have hy := h.y_pos hL
  have hy' := h'.y_pos hL'
  refine ⟨mul_pos h.pos h'.pos, ?_, ?_⟩
  · calc L * L' * (x * x') = (L * x) * (L' * x') := by ring
      _ ≤ y * y' := mul_le_mul h.lo h'.lo (mul_pos hL' h'.pos).le hy.le
  · calc y * y' ≤ (H * x) * (H' * x') :=
          mul_le_mul h.hi h'.hi hy'.le (le_trans hy.le h.hi)
      _ = _ := by ring

theorem Between.div {L H x y c : ℚ} (h : Between L H x y) (hc : 0 < c) :
    Between L H (x / c) (y / c) := by
  refine ⟨div_pos h.pos hc, ?_, ?_⟩
  · rw [← mul_div_assoc]; exact div_le_div_of_nonneg_right h.lo hc.le
  · rw [← mul_div_assoc]; exact div_le_div_of_nonneg_right h.hi hc.le

theorem Between.scale {L H x y c : ℚ} (h : Between L H x y) (hc : 0 < c) :
    Between L H (c * x) (c * y) := by
  refine ⟨mul_pos hc h.pos, ?_, ?_⟩
  · have := mul_le_mul_of_nonneg_left h.lo hc.le
    linarith [show c * (L * x) = L * (c * x) by ring]
  · have := mul_le_mul_of_nonneg_left h.hi hc.le
    linarith [show c * (H * x) = H * (c * x) by ring]

/-- Rounding a number in the normal range. -/
theorem Between.round (f : Format) (hp : 1 ≤ f.p) (he : f.emin ≤ f.emax) {L H x y : ℚ}
    (h : Between L H x y) (hL : 0 < L) (lo : (2 : ℚ) ^ (f.emin + f.p - 1) ≤ L * x)
    (hi : H * x ≤ f.max) :
    ∃ z, f.round y = .num z ∧ Between (L * (1 - 1 / 2 ^ f.p)) (H * (1 + 1 / 2 ^ f.p)) x z := by
  have hy := h.y_pos hL
  have hab : |y| = y := abs_of_pos hy
  refine ⟨f.near y, round_num f hp he (by rw [hab]; exact le_trans h.hi hi), h.pos, ?_, ?_⟩
  all_goals
    have hr := near_rel f (x := y) (by rw [hab]; exact le_trans lo h.lo)
    rw [hab, abs_le] at hr
    have hu : (0 : ℚ) < 1 / 2 ^ f.p := by positivity
    have hu1 : (1 : ℚ) / 2 ^ f.p ≤ 1 := by
      rw [div_le_one (by positivity)]; exact one_le_pow₀ (by norm_num)
    rw [div_eq_mul_one_div] at hr
    generalize (1 : ℚ) / 2 ^ f.p = u at *
  · have := mul_le_mul_of_nonneg_right h.lo (show 0 ≤ 1 - u by linarith)
    linarith [show L * (1 - u) * x = L * x * (1 - u) by ring,
      show y * (1 - u) = y - y * u by ring]
  · have := mul_le_mul_of_nonneg_right h.hi (show 0 ≤ 1 + u by linarith)
    linarith [show H * (1 + u) * x = H * x * (1 + u) by ring,
      show y * (1 + u) = y + y * u by ring]

/-- Rounding in general: half a unit in the last place, or half of the smallest number. -/
theorem near_err_max (f : Format) {y B : ℚ} (hB : |y| ≤ B) :
    |f.near y - y| ≤ Max.max (B / 2 ^ f.p) ((2 : ℚ) ^ (f.emin - 1)) := by
  by_cases h : (2 : ℚ) ^ (f.emin + f.p - 1) ≤ |y|
  · refine le_trans (near_rel f h) (le_trans ?_ (le_max_left _ _))
    exact div_le_div_of_nonneg_right hB (by positivity)
  · exact le_trans (near_sub f (not_le.mp h)) (le_max_right _ _)

/-- Integers of at most `p` binary digits are numbers of the format. -/
theorem grid_int (f : Format) (h0 : f.emin ≤ 0) {m : Int} (hm : |m| < 2 ^ f.p) : f.Grid m :=
  ⟨m, 0, by simp, hm, h0⟩

theorem grid_pow10 (f : Format) (h0 : f.emin ≤ 0) (hp : 53 ≤ f.p) {k : Nat} (hk : k ≤ 22) :
    f.Grid ((10 : ℚ) ^ k) := by
  refine ⟨5 ^ k, k, ?_, ?_, by omega⟩
  · rw [zpow_natCast]; push_cast; rw [← mul_pow]; norm_num
  · rw [abs_of_nonneg (by positivity)]
    calc (5 : Int) ^ k ≤ 5 ^ 22 := pow_le_pow_right₀ (by norm_num) hk
      _ < 2 ^ 53 := by norm_num
      _ ≤ 2 ^ f.p := pow_le_pow_right₀ (by norm_num) hp

/-- Different numbers of a format are apart. -/
theorem grid_apart (f : Format) {g h : ℚ} (hg : f.Grid g) (hh : f.Grid h) (hne : g ≠ h) :
    Min.min |g| |h| / 2 ^ f.p ≤ |g - h| := by
  have key : ∀ {g h : ℚ} {m e m' e' : Int}, g = m * (2 : ℚ) ^ e → |m| < 2 ^ f.p →
      h = m' * (2 : ℚ) ^ e' → e ≤ e' → g ≠ h → |g| / 2 ^ f.p ≤ |g - h| := by
    intro g h m e m' e' hg hm hh hle hne
    obtain ⟨n, hn⟩ := grid_multiple m' hle
    rw [hn] at hh
    have hz := zpow2_pos e
    have hmn : m ≠ n := by rintro rfl; exact hne (by rw [hg, hh])
    have h1 : (1 : ℚ) ≤ |(m : ℚ) - n| := by
      have : (1 : Int) ≤ |m - n| := Int.one_le_abs (by omega)
      exact_mod_cast this
    have h2 : |(m : ℚ)| ≤ 2 ^ f.p := by
      have : |m| ≤ 2 ^ f.p := hm.le
      exact_mod_cast this
    have e1 : g - h = (m - n) * (2 : ℚ) ^ e := by rw [hg, hh]; ring
    rw [e1, hg, abs_mul, abs_mul, abs_of_pos hz, div_le_iff₀ (by positivity)]
    calc |(m : ℚ)| * 2 ^ e ≤ 2 ^ f.p * 2 ^ e := mul_le_mul_of_nonneg_right h2 hz.le
      _ ≤ 2 ^ f.p * (|(m : ℚ) - n| * 2 ^ e) := by
          apply mul_le_mul_of_nonneg_left _ (by positivity)
          nlinarith
      _ = _ := by ring
  obtain ⟨m, e, h1, h2, h3⟩ := hg
  obtain ⟨m', e', h1', h2', h3'⟩ := hh
  rcases le_total e e' with hle | hle
  · exact le_trans (div_le_div_of_nonneg_right (min_le_left _ _) (by positivity))
      (key h1 h2 h1' hle hne)
  · rw [abs_sub_comm]
    exact le_trans (div_le_div_of_nonneg_right (min_le_right _ _) (by positivity))
      (key h1' h2' h1 hle hne.symm)

/-- A number close to one of the format is rounded to it. -/
theorem near_stable (f : Format) (hp : 1 ≤ f.p) {g y : ℚ} (hg : f.Grid g)
    (h : |y - g| ≤ |g| / 2 ^ (f.p + 2)) : f.near y = g := by
  by_contra hne
  by_cases hg0 : g = 0
  · subst hg0
    simp at h
    subst h
    exact hne (near_zero f)
  have hgp : 0 < |g| := abs_pos.mpr hg0
  have h1 := near_nearest f hp (x := y) hg
  have h2 := grid_apart f hg (near_grid f hp y) (Ne.symm hne)
  rw [abs_sub_comm] at h
  have h3 : |g - f.near y| ≤ |g - y| + |y - f.near y| := abs_sub_le _ _ _
  rw [abs_sub_comm y] at h3
  have h4 : |g| - |f.near y| ≤ |g - f.near y| := abs_sub_abs_le_abs_sub _ _
  have e4 : |g| / 2 ^ (f.p + 2) = |g| / 2 ^ f.p / 4 := by rw [pow_add, div_div]; norm_num
  rw [e4] at h
  have hB : |g| / 2 ^ f.p ≤ |g| / 2 := by
    apply div_le_div_of_nonneg_left hgp.le (by norm_num)
    calc (2 : ℚ) = 2 ^ 1 := by norm_num
      _ ≤ 2 ^ f.p := pow_le_pow_right₀ (by norm_num) hp
  have hD : 0 < |g| / 2 ^ f.p := by positivity
  have h5 : 3 / 4 * |g| ≤ |f.near y| := by linarith
  have h6 : 3 / 4 * |g| ≤ Min.min |g| |f.near y| := le_min (by linarith) h5
  have h7 := div_le_div_of_nonneg_right h6 (show (0 : ℚ) ≤ 2 ^ f.p by positivity)
  rw [mul_div_assoc] at h7
  linarith

/-- Numbers up to the largest one are numbers of the format, not only of its grid. -/
theorem grid_rep (f : Format) (he : f.emin ≤ f.emax) {x : ℚ} (h : f.Grid x) (hx : |x| ≤ f.max) :
    f.Rep x := by
  obtain ⟨m, e, h1, h2, h3⟩ := h
  by_cases hle : e ≤ f.emax
  · exact ⟨m, e, h1, h2, h3, hle⟩
  · obtain ⟨n, hn⟩ := grid_multiple (e := e) (q := f.emax) m (by omega)
    refine ⟨n, f.emax, by rw [h1, hn], ?_, he, le_refl _⟩
    rw [h1, hn, abs_mul, abs_of_pos (zpow2_pos _)] at hx
    unfold Format.max at hx
    have := le_of_mul_le_mul_right hx (zpow2_pos _)
    have h5 : |n| ≤ 2 ^ f.p - 1 := by exact_mod_cast this
    omega

/-- A finite result of rounding is a number of the format. -/
theorem round_rep (f : Format) (hp : 1 ≤ f.p) (he : f.emin ≤ f.emax) {x r : ℚ}
    (h : f.round x = .num r) : f.Rep r := by
  unfold Format.round at h
  split at h
  · cases h
  · rename_i hc
    cases h
    exact grid_rep f he (near_grid f hp x) (not_lt.mp hc)

/-- Numbers from 2^(p+emax) on overflow. -/
theorem round_inf (f : Format) (hp : 1 ≤ f.p) {x : ℚ} (he : f.emin ≤ f.emax)
    (h : (2 : ℚ) ^ (f.p + f.emax) ≤ x) : f.round x = .inf false := by
  have hpos : (0 : ℚ) < (2 : ℚ) ^ (f.p + f.emax) := zpow2_pos _
  have hg : f.Grid ((2 : ℚ) ^ (f.p + f.emax)) := by
    refine ⟨1, f.p + f.emax, by simp, ?_, by omega⟩
    rw [abs_one]
    exact one_lt_pow₀ (by norm_num) (by omega)
  have h1 := near_mono f hp h
  rw [near_exact f hp hg] at h1
  unfold Format.round
  rw [if_pos, show decide (x < 0) = false from decide_eq_false (by linarith)]
  rw [abs_of_nonneg (by linarith)]
  refine lt_of_lt_of_le ?_ h1
  unfold Format.max
  rw [zpow_add₀ (by norm_num), zpow_natCast]
  have := zpow2_pos f.emax
  nlinarith

/-! ## Order and scaling -/

theorem quantum_normal (f : Format) {x : ℚ} (h : (2 : ℚ) ^ (f.emin + f.p - 1) ≤ |x|) :
    f.quantum x = ilog2 |x| - f.p + 1 := by
  have hx : x ≠ 0 := by
    rintro rfl
    rw [abs_zero] at h
    exact absurd h (not_le.mpr (zpow2_pos _))
  obtain ⟨-, h2⟩ := ilog2_spec (abs_pos.mpr hx)
  have := zpow2_lt.mp (lt_of_le_of_lt h h2)
  unfold Format.quantum
  rw [if_neg hx]
  omega

/-- Scaling with a power of two is exact as long as the numbers stay normal. -/
theorem near_scale (f : Format) {x : ℚ} (s : Int) (h1 : (2 : ℚ) ^ (f.emin + f.p - 1) ≤ |x|)
    (h2 : (2 : ℚ) ^ (f.emin + f.p - 1) ≤ |x * (2 : ℚ) ^ s|) :
    f.near (x * (2 : ℚ) ^ s) = f.near x * (2 : ℚ) ^ s := by
  have hs := zpow2_pos s
  have hx : 0 < |x| := lt_of_lt_of_le (zpow2_pos _) h1
  obtain ⟨i1, i2⟩ := ilog2_spec hx
  have hi : ilog2 |x * (2 : ℚ) ^ s| = ilog2 |x| + s := by
    rw [abs_mul, abs_of_pos hs]
    apply ilog2_unique
    · rw [zpow_add₀ (by norm_num)]
      exact mul_le_mul_of_nonneg_right i1 hs.le
    · rw [show ilog2 |x| + s + 1 = (ilog2 |x| + 1) + s by ring, zpow_add₀ (by norm_num) (ilog2 |x| + 1)]
      exact mul_lt_mul_of_pos_right i2 hs
  have hq : f.quantum (x * (2 : ℚ) ^ s) = f.quantum x + s := by
    rw [quantum_normal f h2, quantum_normal f h1, hi]; ring
  unfold Format.near
  rw [hq, zpow_add₀ (by norm_num)]
  have e : x * (2 : ℚ) ^ s / ((2 : ℚ) ^ f.quantum x * (2 : ℚ) ^ s) = x / (2 : ℚ) ^ f.quantum x := by
    have := zpow2_pos (f.quantum x)
    field_simp
  rw [e]
  ring

theorem round_abs (f : Format) (x : ℚ) : (f.round x).abs = f.round |x| := by
  have hn : |f.near x| = abs (f.near |x|) := by
    rcases abs_cases x with ⟨h, _⟩ | ⟨h, _⟩ <;> rw [h]
    rw [near_neg, abs_neg]
  unfold Format.round
  rw [← hn]
  split
  · simp [Fl.abs, not_lt.mpr (abs_nonneg x)]
  · rename_i hc
    simp only [Fl.abs]
    rcases abs_cases x with ⟨h, h0⟩ | ⟨h, h0⟩
    · rw [h] at hn ⊢
      congr 1
      unfold Format.near at *
      apply abs_of_nonneg
      have hq := zpow2_pos (f.quantum x)
      apply mul_nonneg _ hq.le
      have hd : 0 ≤ x / (2 : ℚ) ^ f.quantum x := div_nonneg h0 hq.le
      have h1 := roundInt_err (x / (2 : ℚ) ^ f.quantum x)
      rw [abs_le] at h1
      have : (-1 : ℚ) < roundInt (x / (2 : ℚ) ^ f.quantum x) := by linarith
      have : -1 < roundInt (x / (2 : ℚ) ^ f.quantum x) := by exact_mod_cast this
      exact_mod_cast (show 0 ≤ roundInt (x / (2 : ℚ) ^ f.quantum x) by omega)
    · rw [h, near_neg]
      congr 1
      apply abs_of_nonpos
      unfold Format.near
      have hq := zpow2_pos (f.quantum x)
      apply mul_nonpos_of_nonpos_of_nonneg _ hq.le
      have hd : x / (2 : ℚ) ^ f.quantum x < 0 := div_neg_of_neg_of_pos h0 hq
      have h1 := roundInt_err (x / (2 : ℚ) ^ f.quantum x)
      rw [abs_le] at h1
      have : (roundInt (x / (2 : ℚ) ^ f.quantum x) : ℚ) < 1 := by linarith
      have : roundInt (x / (2 : ℚ) ^ f.quantum x) < 1 := by exact_mod_cast this
      exact_mod_cast (show roundInt (x / (2 : ℚ) ^ f.quantum x) ≤ 0 by omega)

theorem round_le (f : Format) (hp : 1 ≤ f.p) {x y : ℚ} (hx : 0 ≤ x) (hy : 0 ≤ y)
    (h : f.near x ≤ f.near y) : Fl.le (f.round x) (f.round y) = true := by
  have h1 := near_nonneg f hp hx
  have h2 := near_nonneg f hp hy
  unfold Format.round
  rw [abs_of_nonneg h1, abs_of_nonneg h2]
  split
  · rw [if_pos (by linarith)]
    simp [Fl.le, not_lt.mpr hx, not_lt.mpr hy]
  · split
    · simp [Fl.le, not_lt.mpr hy]
    · simpa [Fl.le] using h

theorem round_le_iff (f : Format) (hp : 1 ≤ f.p) {x y : ℚ} (hx : 0 ≤ x) (hy : 0 ≤ y)
    (hm : f.near y ≤ f.max) :
    Fl.le (f.round x) (f.round y) = true ↔ f.near x ≤ f.near y := by
  refine ⟨fun h => ?_, round_le f hp hx hy⟩
  have h1 := near_nonneg f hp hx
  have h2 := near_nonneg f hp hy
  unfold Format.round at h
  rw [abs_of_nonneg h1, abs_of_nonneg h2, if_neg (not_lt.mpr hm)] at h
  split at h
  · simp [Fl.le, not_lt.mpr hx] at h
  · simpa [Fl.le] using h

theorem rep_abs (f : Format) {x : ℚ} (h : f.Rep x) : f.Rep |x| := by
  obtain ⟨m, e, rfl, h2, h3, h4⟩ := h
  refine ⟨|m|, e, ?_, by rwa [abs_abs], h3, h4⟩
  rw [abs_mul, abs_of_pos (zpow2_pos e)]
  push_cast
  rfl

theorem rep_le_max (f : Format) {x : ℚ} (h : f.Rep x) : |x| ≤ f.max := by
  obtain ⟨m, e, rfl, h2, h3, h4⟩ := h
  rw [abs_mul, abs_of_pos (zpow2_pos e)]
  unfold Format.max
  have h5 : |m| ≤ 2 ^ f.p - 1 := by omega
  have h6 : |(m : ℚ)| ≤ 2 ^ f.p - 1 := by exact_mod_cast h5
  exact mul_le_mul h6 (zpow2_le h4) (zpow2_pos e).le (le_trans (abs_nonneg _) h6)

/-- All numbers of the format are multiples of the smallest one. -/
theorem rep_multiple (f : Format) {x : ℚ} (h : f.Grid x) : ∃ n : Int, x = n * (2 : ℚ) ^ f.emin := by
  obtain ⟨m, e, rfl, h2, h3⟩ := h
  exact grid_multiple m h3

end Gul14.Ieee
