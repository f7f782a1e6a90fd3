import Verif.Ieee.Error

/-!
# within_ulp in IEEE arithmetic (C89), num_util.h:137-174
-/
namespace Gul14.Spec.Ulp
open Gul14.Ieee

/-- `y` is the number of the format next to `x`. -/
def Next (f : Format) (x y : ℚ) : Prop :=
  f.Rep x ∧ f.Rep y ∧ x < y ∧ ∀ z, f.Rep z → ¬ (x < z ∧ z < y)

/-- `y` lies `k` floating-point steps above `x`. -/
inductive Steps (f : Format) : Nat → ℚ → ℚ → Prop
  | here {x} : f.Rep x → Steps f 0 x x
  | step {k x y z} : Steps f k x y → Next f y z → Steps f (k + 1) x z

/-- The unit in the last place of a number `x ≠ 0`: with `p` binary digits, the leading one being
that of `x`, but not less than the smallest number. -/
def ulpOf (f : Format) (x : ℚ) : ℚ := Max.max ((2 : ℚ) ^ (ilog2 |x| - f.p + 1)) ((2 : ℚ) ^ f.emin)

end Gul14.Spec.Ulp

namespace Gul14.NumUtil
open Gul14.Ieee Gul14.Spec.Ulp

/-- std::max. std::max, num_util.h:159. -/
def flMax (a b : Fl) : Fl := if Fl.lt a b then b else a

/-- std::isnormal. std::isnormal, num_util.h:162. -/
def isNormal (f : Format) : Fl → Bool
  | .num x => (2 : ℚ) ^ (f.emin + f.p - 1) ≤ |x|
  | _ => false

/-- std::isfinite. std::isfinite, num_util.h:169. -/
def isFinite : Fl → Bool
  | .num _ => true
  | _ => false

/-- within_ulp, num_util.h:152-174.  `ulp` is an unsigned int. -/
def withinUlp (f : Format) (a b : Fl) (ulp : Nat) : Bool :=
  if Fl.eq a b then true
  else
    let diff := (f.sub a b).abs
    let maxval := flMax a.abs b.abs
    if isNormal f maxval then
      Fl.le diff (f.mul (f.mul (.num ((2 : ℚ) ^ (1 - f.p : Int))) (f.round ulp)) maxval)
    else if isFinite maxval then
      Fl.le diff (f.mul (.num ((2 : ℚ) ^ f.emin)) (f.round ulp))
    else false

theorem abs_num (x : ℚ) : (Fl.num x).abs = .num |x| := rfl

/-- The formats for which the claims are made. -/
structure Sane (f : Format) : Prop where
  p : 2 ≤ f.p
  emin : f.emin + 2 * f.p ≤ 2
  emax : f.emin ≤ f.emax
  max : (2 : ℚ) ^ 32 ≤ f.max

theorem sane32 : Sane binary32 := ⟨by decide, by decide, by decide, by decide +kernel⟩
theorem sane64 : Sane binary64 := ⟨by decide, by decide, by decide, by decide +kernel⟩
theorem sane80 : Sane extended := ⟨by decide, by decide, by decide, by decide +kernel⟩

theorem ulpOf_eq (f : Format) {x : ℚ} (hx : x ≠ 0) : ulpOf f x = (2 : ℚ) ^ f.quantum x := by
  unfold ulpOf Format.quantum
  rw [if_neg hx]
  rcases le_total f.emin (ilog2 |x| - f.p + 1) with h | h
  · rw [max_eq_right h, max_eq_left (zpow2_le h)]
  · rw [max_eq_left h, max_eq_right (zpow2_le h)]

section
variable (f : Format) (hs : Sane f)
include hs

/-- The distance of neighbours. -/
theorem next_gap {x y M : ℚ} (h : Next f x y) (hM : f.Rep M) (hx : |x| ≤ M) (hy : |y| ≤ M) :
    y - x ≤ (2 : ℚ) ^ f.quantum M := by
  obtain ⟨-, -, hxy, hno⟩ := h
  have hq := zpow2_pos (f.quantum M)
  have hM0 : 0 ≤ M := le_trans (abs_nonneg x) hx
  by_contra hc
  have hc := not_le.mp hc
  let n := ⌊x / (2 : ℚ) ^ f.quantum M⌋ + 1
  have h1 : x / (2 : ℚ) ^ f.quantum M < n := by
    have := Int.lt_floor_add_one (x / (2 : ℚ) ^ f.quantum M)
    show _ < ((⌊x / (2 : ℚ) ^ f.quantum M⌋ + 1 : Int) : ℚ)
    push_cast
    exact this
  have h2 : (n : ℚ) ≤ x / (2 : ℚ) ^ f.quantum M + 1 := by
    have := Int.floor_le (x / (2 : ℚ) ^ f.quantum M)
    show ((⌊x / (2 : ℚ) ^ f.quantum M⌋ + 1 : Int) : ℚ) ≤ _
    push_cast
    linarith
  rw [div_lt_iff₀ hq] at h1
  have h3 : (n : ℚ) * 2 ^ f.quantum M ≤ x + 2 ^ f.quantum M := by
    have := mul_le_mul_of_nonneg_right h2 hq.le
    rwa [add_mul, one_mul, div_mul_cancel₀ _ hq.ne'] at this
  refine hno (n * (2 : ℚ) ^ f.quantum M) ?_ ⟨h1, by linarith⟩
  have hlt := abs_lt_quantum f M
  have hMax := rep_le_max f hM
  rw [abs_of_nonneg hM0] at hlt hMax
  rw [abs_le] at hx hy
  have hz : |(n : ℚ) * 2 ^ f.quantum M| ≤ M := by
    rw [abs_le]; constructor <;> linarith
  apply grid_rep f hs.emax _ (le_trans hz hMax)
  refine ⟨n, f.quantum M, rfl, ?_, quantum_ge f M⟩
  rw [zpow_add₀ (by norm_num), zpow_natCast] at hlt
  rw [abs_mul, abs_of_pos hq] at hz
  have : |(n : ℚ)| * 2 ^ f.quantum M < 2 ^ f.p * 2 ^ f.quantum M := by
    rw [mul_comm (2 ^ f.p : ℚ)]; linarith
  have := lt_of_mul_lt_mul_right this hq.le
  exact_mod_cast this

theorem steps_gap {k : Nat} {x y : ℚ} (h : Steps f k x y) :
    x ≤ y ∧ f.Rep x ∧ f.Rep y ∧ ∀ M, f.Rep M → |x| ≤ M → |y| ≤ M →
      y - x ≤ k * (2 : ℚ) ^ f.quantum M := by
  induction h with
  | here h => exact ⟨le_refl _, h, h, fun M _ _ _ => by simp⟩
  | @step k x y z h1 h2 ih =>
    obtain ⟨a, b, c, d⟩ := ih
    have hyz := h2.2.2.1
    refine ⟨by linarith, b, h2.2.1, fun M hM hx hz => ?_⟩
    have hy : |y| ≤ M := by
      rw [abs_le] at *
      constructor <;> linarith
    have e1 := d M hM hx hy
    have e2 := next_gap f hs h2 hM hy hz
    push_cast
    linarith

/-- Rounding the number of units commutes with the multiplication by a unit. -/
theorem near_units (n : Nat) {Q : Int} (hQ : f.emin ≤ Q) :
    f.near ((n : ℚ) * (2 : ℚ) ^ Q) = f.near n * (2 : ℚ) ^ Q ∧
    ((n : ℚ) < 2 ^ f.p → f.near n = n) := by
  have h1p : 1 ≤ f.p := by have := hs.p; omega
  have small : (n : ℚ) < 2 ^ f.p → f.Grid ((n : ℚ) * (2 : ℚ) ^ Q) ∧ f.near n = n := by
    intro hn
    have hn' : |(n : Int)| < 2 ^ f.p := by
      rw [abs_of_nonneg (by omega)]; exact_mod_cast hn
    refine ⟨⟨n, Q, by simp, hn', hQ⟩, near_exact f h1p ?_⟩
    have := grid_int f (by have := hs.emin; omega) hn'
    simpa using this
  refine ⟨?_, fun h => (small h).2⟩
  by_cases hn : (n : ℚ) < 2 ^ f.p
  · rw [near_exact f h1p (small hn).1, (small hn).2]
  · have hn := not_lt.mp hn
    have hnn : (0 : ℚ) ≤ n := Nat.cast_nonneg n
    have e1 : (2 : ℚ) ^ (f.emin + f.p - 1) ≤ 2 ^ f.p := by
      rw [← zpow_natCast]; exact zpow2_le (by have := hs.emin; omega)
    have e2 : (2 : ℚ) ^ (f.emin + f.p - 1) ≤ 2 ^ f.p * (2 : ℚ) ^ Q := by
      rw [← zpow_natCast, ← zpow_add₀ (by norm_num)]; exact zpow2_le (by omega)
    apply near_scale
    · rw [abs_of_nonneg hnn]; linarith
    · rw [abs_mul, abs_of_pos (zpow2_pos Q), abs_of_nonneg hnn]
      exact le_trans e2 (mul_le_mul_of_nonneg_right hn (zpow2_pos Q).le)

/-- Both sides of the comparison for two different finite numbers. -/
theorem withinUlp_num {a b : ℚ} (hab : a ≠ b) (ulp : Nat) (hulp : ulp < 2 ^ 32) :
    withinUlp f (.num a) (.num b) ulp =
      Fl.le (f.round |a - b|) (f.round (f.near ulp *
        (if (2 : ℚ) ^ (f.emin + f.p - 1) ≤ Max.max |a| |b| then
          (2 : ℚ) ^ (1 - f.p : Int) * Max.max |a| |b| else (2 : ℚ) ^ f.emin))) := by
  have h1p : 1 ≤ f.p := by have := hs.p; omega
  have hmaxval : flMax (Fl.num |a|) (Fl.num |b|) = .num (Max.max |a| |b|) := by
    unfold flMax
    simp only [Fl.lt, decide_eq_true_eq]
    split
    · rename_i h; rw [max_eq_right h.le]
    · rename_i h; rw [max_eq_left (not_lt.mp h)]
  have hu : (ulp : ℚ) ≤ 2 ^ 32 := by exact_mod_cast hulp.le
  have hu0 : (0 : ℚ) ≤ ulp := Nat.cast_nonneg _
  have hr : f.round (ulp : ℚ) = .num (f.near ulp) :=
    round_num f h1p hs.emax (by rw [abs_of_nonneg hu0]; exact le_trans hu hs.max)
  have hdiff : (f.sub (.num a) (.num b)).abs = f.round |a - b| := by
    unfold Format.sub
    simp only [Fl.neg, Format.add]
    rw [round_abs, sub_eq_add_neg]
  unfold withinUlp
  rw [if_neg (by simpa [Fl.eq] using hab)]
  simp only [hdiff, abs_num, hmaxval, hr]
  have habs : |(Max.max |a| |b|)| = Max.max |a| |b| := abs_of_nonneg (le_trans (abs_nonneg a) (le_max_left _ _))
  by_cases hN : (2 : ℚ) ^ (f.emin + f.p - 1) ≤ Max.max |a| |b|
  · rw [if_pos hN, if_pos (by simpa [isNormal, habs] using hN)]
    -- epsilon * ulp is exact
    have hfirst : f.mul (.num ((2 : ℚ) ^ (1 - f.p : Int))) (.num (f.near ulp)) =
        .num (f.near ulp * (2 : ℚ) ^ (1 - f.p : Int)) := by
      simp only [Format.mul]
      have e1 := (near_units f hs ulp (Q := 1 - f.p) (by have := hs.emin; omega)).1
      have hg := near_grid f h1p ((ulp : ℚ) * (2 : ℚ) ^ (1 - f.p : Int))
      rw [e1] at hg
      have hn0 := near_nonneg f h1p hu0
      have hle1 : (2 : ℚ) ^ (1 - f.p : Int) ≤ 1 := by
        have := zpow2_le (a := (1 - f.p : Int)) (b := 0) (by omega)
        simpa using this
      have hnu : f.near ulp ≤ f.max := by
        have h := near_mono f h1p (le_trans hu hs.max)
        rwa [near_exact f h1p (grid_max f h1p hs.emax)] at h
      rw [mul_comm, round_num f h1p hs.emax, near_exact f h1p hg]
      rw [abs_of_nonneg (mul_nonneg hn0 (zpow2_pos _).le)]
      calc f.near ulp * (2 : ℚ) ^ (1 - f.p : Int) ≤ f.near ulp * 1 :=
            mul_le_mul_of_nonneg_left hle1 hn0
        _ ≤ f.max := by linarith
    rw [hfirst]
    simp only [Format.mul, mul_assoc]
  · rw [if_neg hN, if_neg (by simpa [isNormal, habs] using hN), if_pos (show isFinite _ = true from rfl)]
    simp only [Format.mul, mul_comm]

theorem max_ne_zero {a b : ℚ} (hab : a ≠ b) : 0 < Max.max |a| |b| := by
  by_contra h
  have h1 := le_max_left |a| |b|
  have h2 := le_max_right |a| |b|
  have e1 : a = 0 := abs_eq_zero.mp (le_antisymm (by linarith) (abs_nonneg a))
  have e2 : b = 0 := abs_eq_zero.mp (le_antisymm (by linarith) (abs_nonneg b))
  exact hab (by rw [e1, e2])

/-- Numbers that are at most `ulp` floating-point steps apart are within `ulp`. -/
theorem c89_steps {k ulp : Nat} {a b : ℚ} (h : Steps f k a b ∨ Steps f k b a) (hk : k ≤ ulp)
    (hulp : ulp < 2 ^ 32) : withinUlp f (.num a) (.num b) ulp = true := by
  have h1p : 1 ≤ f.p := by have := hs.p; omega
  by_cases hab : a = b
  · unfold withinUlp
    rw [if_pos (by simp [Fl.eq, hab])]
  rw [withinUlp_num f hs hab ulp hulp]
  have hrep : f.Rep a ∧ f.Rep b := by
    rcases h with h | h
    · exact ⟨(steps_gap f hs h).2.1, (steps_gap f hs h).2.2.1⟩
    · exact ⟨(steps_gap f hs h).2.2.1, (steps_gap f hs h).2.1⟩
  have hMrep : f.Rep (Max.max |a| |b|) := by
    rcases le_total |a| |b| with h | h
    · rw [max_eq_right h]; exact rep_abs f hrep.2
    · rw [max_eq_left h]; exact rep_abs f hrep.1
  have hMp := max_ne_zero f hs hab
  have hD : |a - b| ≤ k * (2 : ℚ) ^ f.quantum (Max.max |a| |b|) := by
    rcases h with h | h
    · obtain ⟨g1, -, -, g2⟩ := steps_gap f hs h
      rw [abs_sub_comm, abs_of_nonneg (by linarith)]
      exact g2 _ hMrep (le_max_left _ _) (le_max_right _ _)
    · obtain ⟨g1, -, -, g2⟩ := steps_gap f hs h
      rw [abs_of_nonneg (by linarith)]
      exact g2 _ hMrep (le_max_right _ _) (le_max_left _ _)
  generalize hMM : Max.max |a| |b| = M at *
  have hq := zpow2_pos (f.quantum M)
  have hD2 : |a - b| ≤ ulp * (2 : ℚ) ^ f.quantum M :=
    le_trans hD (mul_le_mul_of_nonneg_right (by exact_mod_cast hk) hq.le)
  have hu0 : (0 : ℚ) ≤ ulp := Nat.cast_nonneg _
  have hn0 := near_nonneg f h1p hu0
  obtain ⟨e1, -⟩ := near_units f hs ulp (quantum_ge f M)
  have hg := near_grid f h1p ((ulp : ℚ) * (2 : ℚ) ^ f.quantum M)
  rw [e1] at hg
  have hch := near_mono f h1p hD2
  rw [e1] at hch
  apply round_le f h1p (abs_nonneg _)
  · split
    · exact mul_nonneg hn0 (mul_nonneg (zpow2_pos _).le hMp.le)
    · exact mul_nonneg hn0 (zpow2_pos _).le
  · refine le_trans hch ?_
    rw [← near_exact f h1p hg]
    apply near_mono f h1p
    apply mul_le_mul_of_nonneg_left _ hn0
    have habs : |M| = M := abs_of_pos hMp
    split
    · rename_i hN
      have hb : (2 : ℚ) ^ (f.quantum M + f.p - 1) ≤ M := by
        rcases quantum_cases f M with h | h
        · rw [h]; exact hN
        · rwa [habs] at h
      calc (2 : ℚ) ^ f.quantum M = (2 : ℚ) ^ (1 - f.p : Int) * (2 : ℚ) ^ (f.quantum M + f.p - 1) := by
            rw [← zpow_add₀ (by norm_num)]; congr 1; ring
        _ ≤ _ := mul_le_mul_of_nonneg_left hb (zpow2_pos _).le
    · rename_i hN
      apply zpow2_le
      rcases quantum_cases f M with h | h
      · omega
      · rw [habs] at h
        have := zpow2_lt.mp (lt_of_le_of_lt h (not_le.mp hN))
        omega

/-- Conversely, numbers within `ulp` (up to 2^(p-1), i.e. 8388608 for float and every unsigned
int for double) differ by at most 2 · `ulp` units in the last place of the larger one.  Missing:
the factor 2 is not necessary according to the documentation, but see `c89_violated`. -/
theorem c89_distance_partial {ulp : Nat} {a b : ℚ} (ha : f.Rep a) (hb : f.Rep b) (hab : a ≠ b)
    (hulp : ulp < 2 ^ 32) (hp : ulp ≤ 2 ^ (f.p - 1))
    (h : withinUlp f (.num a) (.num b) ulp = true) :
    |a - b| ≤ 2 * ulp * ulpOf f (Max.max |a| |b|) := by
  have h1p : 1 ≤ f.p := by have := hs.p; omega
  rw [withinUlp_num f hs hab ulp hulp] at h
  have hMp := max_ne_zero f hs hab
  rw [ulpOf_eq f hMp.ne']
  have hMrep : f.Rep (Max.max |a| |b|) := by
    rcases le_total |a| |b| with h | h
    · rw [max_eq_right h]; exact rep_abs f hb
    · rw [max_eq_left h]; exact rep_abs f ha
  have hD2M : |a - b| ≤ 2 * Max.max |a| |b| := by
    have h1 := le_max_left |a| |b|
    have h2 := le_max_right |a| |b|
    have := abs_sub a b
    linarith
  generalize hMM : Max.max |a| |b| = M at *
  have habs : |M| = M := abs_of_pos hMp
  have hq := zpow2_pos (f.quantum M)
  have hu0 : (0 : ℚ) ≤ ulp := Nat.cast_nonneg _
  have hup : (ulp : ℚ) < 2 ^ f.p := by
    have : ulp < 2 ^ f.p := lt_of_le_of_lt hp (Nat.pow_lt_pow_right (by omega) (by omega))
    exact_mod_cast this
  have hnear := (near_units f hs ulp (quantum_ge f M)).2 hup
  rw [hnear] at h
  -- the difference is a multiple of the smallest number
  obtain ⟨D, hD⟩ : ∃ n : Int, |a - b| = n * (2 : ℚ) ^ f.emin := by
    obtain ⟨n1, h1⟩ := rep_multiple f (rep_grid f ha)
    obtain ⟨n2, h2⟩ := rep_multiple f (rep_grid f hb)
    refine ⟨|n1 - n2|, ?_⟩
    rw [h1, h2, ← sub_mul, abs_mul, abs_of_pos (zpow2_pos _)]
    push_cast
    rfl
  have hmax : M ≤ f.max := by have := rep_le_max f hMrep; rwa [habs] at this
  -- small differences are exact
  have exact : ∀ {G : ℚ}, |a - b| < (2 : ℚ) ^ (f.emin + f.p) → f.near |a - b| = |a - b| := by
    intro _ hlt
    apply near_exact f h1p
    refine ⟨D, f.emin, hD, ?_, le_refl _⟩
    have hz := zpow2_pos f.emin
    rw [zpow_add₀ (by norm_num), zpow_natCast, hD, mul_comm] at hlt
    have hlt := lt_of_mul_lt_mul_left hlt hz.le
    have hD0 : (0 : ℚ) ≤ D := by
      have := abs_nonneg (a - b)
      rw [hD] at this
      exact nonneg_of_mul_nonneg_left this hz
    have hD0' : 0 ≤ D := by exact_mod_cast hD0
    rw [abs_of_nonneg hD0']
    exact_mod_cast hlt
  by_cases hN : (2 : ℚ) ^ (f.emin + f.p - 1) ≤ M
  · rw [if_pos hN] at h
    have hlt := abs_lt_quantum f M
    rw [habs] at hlt
    -- M is at most (2^p - 1) units
    obtain ⟨m, hm⟩ : ∃ m : Int, M = m * (2 : ℚ) ^ f.quantum M := by
      have := near_exact f h1p (rep_grid f hMrep)
      exact ⟨_, this.symm⟩
    have hm1 : m ≤ 2 ^ f.p - 1 := by
      rw [zpow_add₀ (by norm_num), zpow_natCast, mul_comm] at hlt
      have : (m : ℚ) * 2 ^ f.quantum M < 2 ^ f.p * 2 ^ f.quantum M := by rw [← hm]; exact hlt
      have := lt_of_mul_lt_mul_right this hq.le
      have : m < 2 ^ f.p := by exact_mod_cast this
      omega
    have hm2 : (m : ℚ) ≤ 2 ^ f.p - 1 := by exact_mod_cast hm1
    set e := (2 : ℚ) ^ (1 - f.p : Int) with he
    have he1 : e * 2 ^ f.p = 2 := by
      rw [he, ← zpow_natCast, ← zpow_add₀ (by norm_num)]
      rw [show (1 - f.p : Int) + f.p = 1 by ring]
      norm_num
    have hep : 0 < e := zpow2_pos _
    set g := 2 * (ulp : ℚ) * 2 ^ f.quantum M with hg
    have hPle : ulp * (e * M) ≤ g - g / 2 ^ f.p := by
      have : ulp * (e * M) ≤ ulp * (e * ((2 ^ f.p - 1) * 2 ^ f.quantum M)) := by
        apply mul_le_mul_of_nonneg_left _ hu0
        apply mul_le_mul_of_nonneg_left _ hep.le
        exact le_trans (le_of_eq hm) (mul_le_mul_of_nonneg_right hm2 hq.le)
      refine le_trans this (le_of_eq ?_)
      have hpp : (0 : ℚ) < 2 ^ f.p := by positivity
      have he2 : e = 2 / 2 ^ f.p := by rw [eq_div_iff hpp.ne']; exact he1
      rw [he2, hg]
      field_simp
    have hP0 : 0 ≤ ulp * (e * M) := mul_nonneg hu0 (mul_nonneg hep.le hMp.le)
    have hPM : ulp * (e * M) ≤ M := by
      have h1 : (ulp : ℚ) * e ≤ 1 := by
        have : (ulp : ℚ) ≤ 2 ^ (f.p - 1) := by exact_mod_cast hp
        have h2 := mul_le_mul_of_nonneg_right this hep.le
        have h3 : (2 : ℚ) ^ (f.p - 1) * e = 1 := by
          rw [he, ← zpow_natCast, ← zpow_add₀ (by norm_num)]
          rw [show ((f.p - 1 : Nat) : Int) + (1 - f.p : Int) = 0 by omega]
          norm_num
        linarith
      have := mul_le_mul_of_nonneg_right h1 hMp.le
      linarith [mul_assoc (ulp : ℚ) e M]
    rw [round_le_iff f h1p (abs_nonneg _) hP0 (by
      have := near_mono f h1p (le_trans hPM hmax)
      rwa [near_exact f h1p (grid_max f h1p hs.emax)] at this)] at h
    have hgGrid : f.Grid g := by
      refine ⟨ulp, f.quantum M + 1, ?_, ?_, by have := quantum_ge f M; omega⟩
      · rw [hg, zpow_add₀ (by norm_num), zpow_one]; push_cast; ring
      · rw [abs_of_nonneg (by omega)]; exact_mod_cast hup
    have hg0 : 0 ≤ g := mul_nonneg (mul_nonneg (by norm_num) hu0) hq.le
    by_cases hPn : (2 : ℚ) ^ (f.emin + f.p - 1) ≤ ulp * (e * M)
    · -- normal limit: strictly below g
      have hr := near_rel f (x := ulp * (e * M)) (by rwa [abs_of_nonneg hP0])
      rw [abs_of_nonneg hP0, abs_le] at hr
      have hPg : ulp * (e * M) / 2 ^ f.p ≤ g / 2 ^ f.p := by
        apply div_le_div_of_nonneg_right _ (by positivity)
        have : 0 ≤ g / 2 ^ f.p := by positivity
        linarith
      by_contra hc
      have hc := not_le.mp hc
      have hmn := near_mono f h1p hc.le
      rw [near_exact f h1p hgGrid] at hmn
      -- equality throughout would be needed
      have h3 : f.near (ulp * (e * M)) ≤ g := by linarith
      have h4 : f.near (ulp * (e * M)) = g := le_antisymm h3 (le_trans hmn h)
      have h5 : ulp * (e * M) / 2 ^ f.p = g / 2 ^ f.p := by linarith
      have h6 : ulp * (e * M) = g := by
        have hpp : (0 : ℚ) < 2 ^ f.p := by positivity
        rwa [div_left_inj' hpp.ne'] at h5
      have h7 : g / 2 ^ f.p ≤ 0 := by linarith
      have h8 : g ≤ 0 := by
        have hpp : (0 : ℚ) < 2 ^ f.p := by positivity
        rwa [div_le_iff₀ hpp, zero_mul] at h7
      have h9 : g = 0 := le_antisymm h8 hg0
      have : 0 < ulp * (e * M) := lt_of_lt_of_le (zpow2_pos _) hPn
      linarith
    · -- subnormal limit: all numbers in question are multiples of the smallest one
      have hPn := not_le.mp hPn
      have hlim : f.near (ulp * (e * M)) ≤ (2 : ℚ) ^ (f.emin + f.p - 1) := by
        have hG : f.Grid ((2 : ℚ) ^ (f.emin + f.p - 1)) := by
          refine ⟨1, f.emin + f.p - 1, by simp, ?_, by omega⟩
          rw [abs_one]; exact one_lt_pow₀ (by norm_num) (by omega)
        have := near_mono f h1p hPn.le
        rwa [near_exact f h1p hG] at this
      have hsmall : |a - b| < (2 : ℚ) ^ (f.emin + f.p) := by
        by_contra hc
        have hc := not_lt.mp hc
        have hG : f.Grid ((2 : ℚ) ^ (f.emin + f.p)) := by
          refine ⟨1, f.emin + f.p, by simp, ?_, by omega⟩
          rw [abs_one]; exact one_lt_pow₀ (by norm_num) (by omega)
        have := near_mono f h1p hc
        rw [near_exact f h1p hG] at this
        have hlt : (2 : ℚ) ^ (f.emin + f.p - 1) < (2 : ℚ) ^ (f.emin + f.p) := zpow2_lt.mpr (by omega)
        linarith
      rw [exact (G := 0) hsmall] at h
      refine le_trans h ?_
      have hPg : ulp * (e * M) ≤ g := by
        have : 0 ≤ g / 2 ^ f.p := by positivity
        linarith
      have := near_mono f h1p hPg
      rwa [near_exact f h1p hgGrid] at this
  · rw [if_neg hN] at h
    have hN := not_le.mp hN
    have hQ : f.quantum M = f.emin := by
      rcases quantum_cases f M with h | h
      · exact h
      · rw [habs] at h
        have := zpow2_lt.mp (lt_of_le_of_lt h hN)
        have := quantum_ge f M
        omega
    rw [hQ]
    have hz := zpow2_pos f.emin
    have hsmall : |a - b| < (2 : ℚ) ^ (f.emin + f.p) := by
      have : (2 : ℚ) ^ (f.emin + f.p) = 2 * (2 : ℚ) ^ (f.emin + f.p - 1) := by
        rw [show f.emin + (f.p : Int) = (f.emin + f.p - 1) + 1 by ring, zpow_add₀ (by norm_num)]
        rw [zpow_one]; ring_nf
      linarith
    have hgr : f.Grid ((ulp : ℚ) * (2 : ℚ) ^ f.emin) := by
      refine ⟨ulp, f.emin, by simp, ?_, le_refl _⟩
      rw [abs_of_nonneg (by omega)]; exact_mod_cast hup
    rw [round_le_iff f h1p (abs_nonneg _) (mul_nonneg hu0 hz.le) (by
      rw [near_exact f h1p hgr]
      have h1 : (ulp : ℚ) ≤ 2 ^ 32 := by exact_mod_cast hulp.le
      have h2 : (2 : ℚ) ^ f.emin ≤ 1 := by
        have := zpow2_le (a := f.emin) (b := 0) (by have := hs.emin; omega)
        simpa using this
      calc (ulp : ℚ) * (2 : ℚ) ^ f.emin ≤ ulp * 1 := mul_le_mul_of_nonneg_left h2 hu0
        _ ≤ f.max := by linarith [hs.max]),
      near_exact f h1p hgr, exact (G := 0) hsmall] at h
    have : 0 ≤ (ulp : ℚ) * (2 : ℚ) ^ f.emin := mul_nonneg hu0 hz.le
    linarith

/-- With `ulp` = 0 exactly the equal numbers are within. -/
theorem c89_zero {a b : ℚ} (ha : f.Rep a) (hb : f.Rep b) :
    withinUlp f (.num a) (.num b) 0 = true ↔ a = b := by
  constructor
  · intro h
    by_contra hab
    have := c89_distance_partial f hs ha hb hab (by norm_num) (by positivity) h
    simp at this
    exact hab (by linarith)
  · rintro rfl
    unfold withinUlp
    rw [if_pos (by simp [Fl.eq])]

end

/-- NaN is within no distance of anything, an infinity only of itself. -/
theorem c89_special (f : Format) (b : Fl) (ulp : Nat) (s : Bool) :
    withinUlp f .nan b ulp = false ∧ withinUlp f b .nan ulp = false ∧
    withinUlp f (.inf s) b ulp = decide (b = .inf s) ∧
    withinUlp f b (.inf s) ulp = decide (b = .inf s) := by
  cases b with
  | nan => simp [withinUlp, Fl.eq, flMax, Fl.abs, Fl.lt, isNormal, isFinite]
  | inf t =>
    cases s <;> cases t <;>
      simp [withinUlp, Fl.eq, flMax, Fl.abs, Fl.lt, isNormal, isFinite]
  | num x =>
    refine ⟨?_, ?_, ?_, ?_⟩ <;>
      simp [withinUlp, Fl.eq, flMax, Fl.abs, Fl.lt, isNormal, isFinite, Format.sub, Fl.neg,
        Format.add, Fl.le]

/-- The arguments can be exchanged. -/
theorem c89_symmetric (f : Format) (a b : Fl) (ulp : Nat) :
    withinUlp f a b ulp = withinUlp f b a ulp := by
  cases a with
  | nan => rw [(c89_special f b ulp true).1, (c89_special f b ulp true).2.1]
  | inf s => rw [(c89_special f b ulp s).2.2.1, (c89_special f b ulp s).2.2.2]
  | num x =>
    cases b with
    | nan => rw [(c89_special f _ ulp true).1, (c89_special f _ ulp true).2.1]
    | inf s => rw [(c89_special f _ ulp s).2.2.1, (c89_special f _ ulp s).2.2.2]
    | num y =>
      have h1 : (f.sub (.num x) (.num y)).abs = (f.sub (.num y) (.num x)).abs := by
        unfold Format.sub
        simp only [Fl.neg, Format.add]
        rw [round_abs, round_abs, ← sub_eq_add_neg, ← sub_eq_add_neg, abs_sub_comm]
      have h2 : flMax (Fl.num |x|) (Fl.num |y|) = flMax (Fl.num |y|) (Fl.num |x|) := by
        unfold flMax
        simp only [Fl.lt, decide_eq_true_eq]
        rcases lt_trichotomy |x| |y| with h | h | h
        · rw [if_pos h, if_neg (by linarith)]
        · rw [h]
        · rw [if_neg (by linarith), if_pos h]
      have h3 : Fl.eq (.num x) (.num y) = Fl.eq (.num y) (.num x) := by
        simp only [Fl.eq]; exact Bool.beq_comm
      unfold withinUlp
      rw [h3, h1]
      rw [abs_num, abs_num, h2]

/-- Neighbours in the normal range. -/
theorem next_unit (f : Format) (n Q : Int) (hQ : f.emin ≤ Q) (hQ2 : Q ≤ f.emax) (hn : 2 ^ (f.p - 1) ≤ n)
    (hn2 : n + 1 < 2 ^ f.p) (hp : 1 ≤ f.p) :
    Next f (n * (2 : ℚ) ^ Q) ((n + 1 : Int) * (2 : ℚ) ^ Q) := by
  have hq := zpow2_pos Q
  have hn0 : 0 ≤ n := le_trans (by positivity) hn
  refine ⟨⟨n, Q, rfl, by rw [abs_of_nonneg hn0]; omega, hQ, hQ2⟩,
    ⟨n + 1, Q, rfl, by rw [abs_of_nonneg (by omega)]; exact hn2, hQ, hQ2⟩, ?_, ?_⟩
  · apply mul_lt_mul_of_pos_right _ hq
    push_cast; linarith
  · rintro z ⟨m, e, rfl, hm, he, he2⟩ ⟨h1, h2⟩
    have hzn : (2 : ℚ) ^ (Q + f.p - 1) ≤ (n : ℚ) * 2 ^ Q := by
      have e1 : (2 : ℚ) ^ (Q + f.p - 1) = 2 ^ (f.p - 1) * (2 : ℚ) ^ Q := by
        rw [← zpow_natCast, ← zpow_add₀ (by norm_num)]; congr 1; omega
      rw [e1]
      exact mul_le_mul_of_nonneg_right (by exact_mod_cast hn) hq.le
    have hQe : Q ≤ e := by
      by_contra hc
      have hme : (m : ℚ) * 2 ^ e < (2 : ℚ) ^ (e + f.p) := by
        rw [zpow_add₀ (by norm_num), zpow_natCast, mul_comm]
        apply mul_lt_mul_of_pos_left _ (zpow2_pos e)
        have : m < 2 ^ f.p := lt_of_le_of_lt (le_abs_self m) hm
        exact_mod_cast this
      have := zpow2_lt.mp (lt_of_le_of_lt hzn (lt_trans h1 hme))
      omega
    obtain ⟨k, hk⟩ := grid_multiple m hQe
    rw [hk] at h1 h2
    have a1 := lt_of_mul_lt_mul_right h1 hq.le
    have a2 := lt_of_mul_lt_mul_right h2 hq.le
    have a1' : n < k := by exact_mod_cast a1
    have a2' : k < n + 1 := by exact_mod_cast a2
    omega

/-- Documented, but false: `ulp` is the allowed number of floating-point steps.  The largest double
below 2 and the one three steps below it are within 2. -/
theorem c89_violated :
    ∃ a b : ℚ, Steps binary64 3 a b ∧ withinUlp binary64 (.num a) (.num b) 2 = true := by
  refine ⟨(2 ^ 53 - 4 : Int) * (2 : ℚ) ^ (-52 : Int), (2 ^ 53 - 1 : Int) * (2 : ℚ) ^ (-52 : Int), ?_,
    by decide +kernel⟩
  have s : ∀ n : Int, 2 ^ 52 ≤ n → n + 1 < 2 ^ 53 →
      Next binary64 (n * (2 : ℚ) ^ (-52 : Int)) ((n + 1 : Int) * (2 : ℚ) ^ (-52 : Int)) :=
    fun n h1 h2 => next_unit binary64 n (-52) (by decide) (by decide) h1 h2 (by decide)
  have h1 := s (2 ^ 53 - 4) (by norm_num) (by norm_num)
  have h2 := s (2 ^ 53 - 3) (by norm_num) (by norm_num)
  have h3 := s (2 ^ 53 - 2) (by norm_num) (by norm_num)
  exact .step (.step (.step (.here h1.1) h1) h2) h3

/-- Numbers that meet the hypotheses of `c89_steps` and `c89_distance_partial`. -/
example : Steps binary64 1 ((2 ^ 52 : Int) * (2 : ℚ) ^ (-52 : Int)) ((2 ^ 52 + 1 : Int) * (2 : ℚ) ^ (-52 : Int)) ∧
    withinUlp binary64 (.num 1) (.num (1 + 1 / 2 ^ 52)) 1 = true ∧
    withinUlp binary64 (.num 1) (.num (1 + 1 / 2 ^ 51)) 1 = false ∧
    withinUlp binary32 (.num 0) (.num (1 / 2 ^ 149)) 1 = true ∧
    withinUlp binary32 (.num 0) (.num (1 / 2 ^ 149)) 0 = false := by
  have h := next_unit binary64 (2 ^ 52) (-52) (by decide) (by decide) (by decide) (by decide) (by decide)
  exact ⟨.step (.here h.1) h, by decide +kernel⟩

end Gul14.NumUtil
