import Mathlib.Tactic.NormNum
import Mathlib.Tactic.Linarith
import Mathlib.Tactic.Ring
import Mathlib.Tactic.FieldSimp
import Verif.Date.Parse
import Verif.Ieee.Error

/-! # Seconds read as long double are exact to the tick -/
namespace Gul14.Date
open Gul14.Ieee

theorem ext_p : (1 : Nat) ≤ extended.p := by decide
theorem ext_e : extended.emin ≤ extended.emax := by decide
theorem ext_0 : extended.emin ≤ 0 := by decide

theorem ext_big {x : ℚ} (h : |x| ≤ 2 ^ 80) : |x| ≤ extended.max := by
  refine le_trans h ?_
  show (2 : ℚ) ^ 80 ≤ ((2 : ℚ) ^ 64 - 1) * (2 : ℚ) ^ (16320 : Int)
  have h1 : (2 : ℚ) ^ (80 : Int) ≤ (2 : ℚ) ^ (16320 : Int) := zpow2_le (by norm_num)
  have h2 : (2 : ℚ) ^ (80 : Int) = (2 : ℚ) ^ 80 := by norm_cast
  rw [h2] at h1
  have h3 := zpow2_pos 16320
  generalize (2 : ℚ) ^ (16320 : Int) = E at *
  have h4 : E * 1 ≤ E * ((2 : ℚ) ^ 64 - 1) := mul_le_mul_of_nonneg_left (by norm_num) h3.le
  calc (2 : ℚ) ^ 80 ≤ E := h1
    _ = E * 1 := (mul_one E).symm
    _ ≤ E * ((2 : ℚ) ^ 64 - 1) := h4
    _ = _ := mul_comm _ _

theorem ext_int {m : Int} (h : |m| < 2 ^ 64) : extended.Grid m := grid_int extended ext_0 h

theorem ext_round_int {m : Int} (h : |m| < 2 ^ 64) : extended.round m = .num m := by
  rw [round_num extended ext_p ext_e, near_exact extended ext_p (ext_int h)]
  apply ext_big
  have : |(m : ℚ)| < 2 ^ 64 := by exact_mod_cast h
  linarith [show (2 : ℚ) ^ 64 ≤ 2 ^ 80 by norm_num]

theorem ext_round {x : ℚ} (h : |x| ≤ 2 ^ 80) : extended.round x = .num (extended.near x) :=
  round_num extended ext_p ext_e (ext_big h)

/-- Numbers below a power of two. -/
theorem ext_err {x : ℚ} {k : Int} (hk : -16000 ≤ k) (h : |x| < (2 : ℚ) ^ k) :
    |extended.near x - x| ≤ (2 : ℚ) ^ (k - 65) := by
  refine le_trans (near_err extended x) (zpow2_le ?_)
  rcases quantum_cases extended x with h1 | h1
  · rw [h1]; show (-16445 : Int) - 1 ≤ _; omega
  · have h2 := lt_of_le_of_lt h1 h
    rw [zpow2_lt] at h2
    have : (extended.p : Int) = 64 := rfl
    omega

/-- The distance of a rounded number from a nearby integer. -/
theorem ext_near_int {x : ℚ} {m : Int} (h : |m| < 2 ^ 64) : |extended.near x - m| ≤ 2 * |x - m| := by
  have h1 := near_nearest extended ext_p (x := x) (ext_int h)
  have h2 : |(m : ℚ) - x| = |x - m| := abs_sub_comm _ _
  rw [h2] at h1
  calc |extended.near x - m| = |(extended.near x - x) + (x - m)| := by congr 1; ring
    _ ≤ |extended.near x - x| + |x - m| := abs_add_le _ _
    _ ≤ _ := by linarith

/-- A number next to an integer is rounded to it. -/
theorem roundTicks_near (T : Nat) (S P : ℚ) (k : Int) (hm : extended.mul (.num S) (extended.round T) = .num P)
    (hk : |P - k| ≤ 3 / 8) (h0 : -(2 ^ 62) < k) (h1 : k < 2 ^ 62 * 3 / 2) : roundTicks T (.num S) = .ok k := by
  have hk' := abs_le.mp hk
  have h0' : -(2 ^ 62 : ℚ) < k := by exact_mod_cast h0
  have h1' : (k : ℚ) < 2 ^ 62 * 3 / 2 := by
    have : k * 2 < 2 ^ 62 * 3 := by omega
    have : (k : ℚ) * 2 < 2 ^ 62 * 3 := by exact_mod_cast this
    linarith
  unfold roundTicks
  simp only [hm]
  rw [if_pos (by constructor <;> norm_num at * <;> linarith)]
  have g38 : extended.near (3 / 8) = 3 / 8 := by
    apply near_exact extended ext_p
    exact ⟨3, -3, by norm_num, by norm_num [extended], by decide⟩
  have g58 : extended.near (5 / 8) = 5 / 8 := by
    apply near_exact extended ext_p
    exact ⟨5, -3, by norm_num, by norm_num [extended], by decide⟩
  have small : ∀ x : ℚ, |x| ≤ 2 → extended.round x = .num (extended.near x) := fun x hx =>
    ext_round (le_trans hx (by norm_num))
  by_cases hP : (k : ℚ) ≤ P
  · have hf : ⌊P⌋ = k := by rw [Int.floor_eq_iff]; constructor <;> linarith
    have e0 : extended.sub (.num P) (.num k) = .num (extended.near (P + -k)) :=
      small _ (by rw [abs_le]; constructor <;> linarith)
    have e1 : extended.sub (.num ((k + 1 : Int) : ℚ)) (.num P) = .num (extended.near (((k + 1 : Int) : ℚ) + -P)) :=
      small _ (by rw [abs_le]; push_cast; constructor <;> linarith)
    have b0 : extended.near (P + -k) ≤ 3 / 8 := by
      rw [← g38]; exact near_mono extended ext_p (by linarith)
    have b1 : 5 / 8 ≤ extended.near (((k + 1 : Int) : ℚ) + -P) := by
      rw [← g58]; exact near_mono extended ext_p (by push_cast; linarith)
    simp only [hf, e0, e1, Fl.eq, Fl.lt]
    rw [if_neg (by simp only [beq_iff_eq]; intro h; linarith), if_pos (by simp only [decide_eq_true_eq]; linarith)]
    rfl
  · rw [not_le] at hP
    have hf : ⌊P⌋ = k - 1 := by rw [Int.floor_eq_iff]; push_cast; constructor <;> linarith
    have e0 : extended.sub (.num P) (.num ((k - 1 : Int) : ℚ)) = .num (extended.near (P + -((k - 1 : Int) : ℚ))) :=
      small _ (by rw [abs_le]; push_cast; constructor <;> linarith)
    have e1 : extended.sub (.num ((k - 1 + 1 : Int) : ℚ)) (.num P)
        = .num (extended.near (((k - 1 + 1 : Int) : ℚ) + -P)) :=
      small _ (by rw [abs_le]; push_cast; constructor <;> linarith)
    have b0 : 5 / 8 ≤ extended.near (P + -((k - 1 : Int) : ℚ)) := by
      rw [← g58]; exact near_mono extended ext_p (by push_cast; linarith)
    have b1 : extended.near (((k - 1 + 1 : Int) : ℚ) + -P) ≤ 3 / 8 := by
      rw [← g38]; exact near_mono extended ext_p (by push_cast; linarith)
    simp only [hf, e0, e1, Fl.eq, Fl.lt]
    rw [if_neg (by simp only [beq_iff_eq]; intro h; linarith), if_neg (by simp only [decide_eq_true_eq]; linarith)]
    show Res.ok (k - 1 + 1) = Res.ok k
    congr 1; omega

/-- The number that is read as `i` seconds and `f` units of 10^-w, in ticks of 1/T second. -/
theorem roundTicks_exact (T w i f : Nat) (k : Int) (hT : T ≤ 10 ^ 17) (hw : w ≤ 18) (hi : i < 60) (hf : f < 10 ^ w)
    (hk : k * 10 ^ w = ((i * 10 ^ w + f) * T : Nat)) :
    roundTicks T (extended.add (extended.round i) (extended.div (extended.round f)
      (extended.round ((10 : ℚ) ^ w)))) = .ok k := by
  have hp : (0 : ℚ) < 10 ^ w := by positivity
  have hpw : (10 : ℚ) ^ w ≤ 10 ^ 18 := pow_le_pow_right₀ (by norm_num) hw
  have hff : (f : ℚ) < 10 ^ w := by exact_mod_cast hf
  have hii : (i : ℚ) < 60 := by exact_mod_cast hi
  have hTT : (T : ℚ) ≤ 10 ^ 17 := by exact_mod_cast hT
  have nat_round : ∀ n : Nat, n < 2 ^ 64 → extended.round n = .num n := fun n hn => by
    have := ext_round_int (m := (n : Int)) (by rw [abs_of_nonneg (by omega)]; exact_mod_cast hn)
    simpa using this
  have hf64 : f < 2 ^ 64 := by
    have : (f : ℚ) < (2 : ℚ) ^ 64 := by
      refine lt_of_lt_of_le hff (le_trans hpw (by norm_num))
    exact_mod_cast this
  rw [nat_round i (by omega), nat_round f hf64]
  have r10 : extended.round ((10 : ℚ) ^ w) = .num ((10 : ℚ) ^ w) := by
    have h : |(10 : ℚ) ^ w| ≤ 2 ^ 80 := by rw [abs_of_pos hp]; exact le_trans hpw (by norm_num)
    rw [ext_round h, near_exact extended ext_p (grid_pow10 extended ext_0 (by decide) (by omega))]
  rw [r10]
  -- the quotient
  have hq0 : 0 ≤ (f : ℚ) / 10 ^ w := by positivity
  have hq1 : (f : ℚ) / 10 ^ w < 1 := by rw [div_lt_one hp]; exact hff
  have ediv : extended.div (.num f) (.num ((10 : ℚ) ^ w)) = .num (extended.near (f / 10 ^ w)) := by
    show (if (10 : ℚ) ^ w = 0 then _ else _) = _
    rw [if_neg (by positivity)]
    exact ext_round (by rw [abs_of_nonneg hq0]; exact le_trans hq1.le (by norm_num))
  rw [ediv]
  have eq1 := ext_err (x := (f : ℚ) / 10 ^ w) (k := 0) (by norm_num) (by rw [abs_of_nonneg hq0]; simpa using hq1)
  generalize hQ : extended.near ((f : ℚ) / 10 ^ w) = Q at *
  have hQ0 : 0 ≤ Q := by rw [← hQ]; exact near_nonneg extended ext_p hq0
  have n65 : (2 : ℚ) ^ (0 - 65 : Int) = 1 / 36893488147419103232 := by norm_num
  have n59 : (2 : ℚ) ^ (6 - 65 : Int) = 1 / 576460752303423488 := by norm_num
  rw [n65] at eq1
  have eq1' := abs_le.mp eq1
  -- the sum
  have eadd : extended.add (.num i) (.num Q) = .num (extended.near (i + Q)) :=
    ext_round (by
      have : (0 : ℚ) ≤ i := by positivity
      rw [abs_of_nonneg (by linarith)]
      have : (61 : ℚ) ≤ 2 ^ 80 := by norm_num
      linarith)
  have es := ext_err (x := (i : ℚ) + Q) (k := 6) (by norm_num) (by
      have : (0 : ℚ) ≤ i := by positivity
      have : (2 : ℚ) ^ (6 : Int) = 64 := by norm_num
      rw [abs_of_nonneg (by linarith), this]
      linarith)
  rw [n59] at es
  rw [eadd]
  generalize hS : extended.near ((i : ℚ) + Q) = S at *
  have es' := abs_le.mp es
  -- the exact value
  have hkq : (k : ℚ) = (i + f / 10 ^ w) * T := by
    have : (k : ℚ) * 10 ^ w = (i * 10 ^ w + f) * T := by exact_mod_cast hk
    field_simp
    linarith
  have hT0 : (0 : ℚ) ≤ T := by positivity
  have hdist : |S * T - k| ≤ 3 / 16 := by
    have hd : |S - (i + f / 10 ^ w)| ≤ 1 / 576460752303423488 + 1 / 36893488147419103232 := by
      rw [abs_le]; constructor <;> linarith
    have : S * T - k = (S - (i + f / 10 ^ w)) * T := by rw [hkq]; ring
    rw [this, abs_mul, abs_of_nonneg hT0]
    calc _ ≤ (1 / 576460752303423488 + 1 / 36893488147419103232) * (10 ^ 17 : ℚ) :=
          mul_le_mul hd hTT hT0 (by norm_num)
      _ ≤ _ := by norm_num
  have hk0 : 0 ≤ k := by
    have : (0 : ℚ) ≤ k := by rw [hkq]; positivity
    exact_mod_cast this
  have hk1 : (k : ℚ) ≤ 60 * 10 ^ 17 := by
    rw [hkq]
    refine mul_le_mul ?_ hTT hT0 (by norm_num)
    have : (i : ℚ) ≤ 59 := by exact_mod_cast (show i ≤ 59 by omega)
    linarith
  have hk2 : k ≤ 60 * 10 ^ 17 := by exact_mod_cast hk1
  have hkabs : |k| < 2 ^ 64 := by rw [abs_of_nonneg hk0]; omega
  have hmul : extended.mul (.num S) (extended.round T) = .num (extended.near (S * T)) := by
    rw [nat_round T (by omega)]
    refine ext_round ?_
    have hd := abs_le.mp hdist
    have hkk : (0 : ℚ) ≤ k := by exact_mod_cast hk0
    have n80 : (10 : ℚ) ^ 20 ≤ 2 ^ 80 := by norm_num
    have n20 : (60 : ℚ) * 10 ^ 17 + 1 ≤ 10 ^ 20 := by norm_num
    have n0 : (1 : ℚ) ≤ 10 ^ 20 := by norm_num
    generalize (2 : ℚ) ^ 80 = A at *
    generalize (10 : ℚ) ^ 20 = B at *
    rw [abs_le]
    constructor <;> linarith
  exact roundTicks_near T S _ k hmul (le_trans (ext_near_int hkabs) (by linarith)) (by omega) (by omega)

end Gul14.Date
