import Mathlib.Tactic.NormNum
import Mathlib.Tactic.Linarith
import Mathlib.Tactic.Ring
import Mathlib.Tactic.FieldSimp
import Mathlib.Tactic.Positivity
import Verif.Date.ParseSeconds

/-! # The number of ticks that is read differs by less than one from the number in the text -/
namespace Gul14.Date
open Gul14.Ieee

/-- The rounding to ticks. -/
theorem roundTicks_half {T : Nat} {S : Fl} {P : ℚ} {s : Int} (hm : extended.mul S (extended.round T) = .num P)
    (h : roundTicks T S = .ok s) : |(s : ℚ) - P| ≤ 5 / 8 ∧ (⌊P⌋ = s ∨ ⌊P⌋ + 1 = s) ∧ P < 2 ^ 63 := by
  unfold roundTicks at h
  simp only [hm] at h
  have g38 : extended.near (3 / 8) = 3 / 8 := by
    apply near_exact extended ext_p
    exact ⟨3, -3, by norm_num, by norm_num [extended], by decide⟩
  have g58 : extended.near (5 / 8) = 5 / 8 := by
    apply near_exact extended ext_p
    exact ⟨5, -3, by norm_num, by norm_num [extended], by decide⟩
  have small : ∀ x : ℚ, |x| ≤ 2 → extended.round x = .num (extended.near x) := fun x hx =>
    ext_round (le_trans hx (by norm_num))
  split at h
  · rename_i hP
    have f0 := Int.floor_le P
    have f1 := Int.lt_floor_add_one P
    have hs : s = ⌊P⌋ ∨ s = ⌊P⌋ + 1 := by
      split at h
      · simp only [Res.pure_eq, Res.ok.injEq] at h
        split at h <;> omega
      · simp only [Res.pure_eq, Res.ok.injEq] at h
        split at h <;> omega
    refine ⟨?_, by omega, by norm_num; linarith⟩
    have e0 : extended.sub (.num P) (.num (⌊P⌋ : ℚ)) = .num (extended.near (P + -(⌊P⌋ : ℚ))) :=
      small _ (by rw [abs_le]; constructor <;> linarith)
    have e1 : extended.sub (.num ((⌊P⌋ + 1 : Int) : ℚ)) (.num P) = .num (extended.near (((⌊P⌋ + 1 : Int) : ℚ) + -P)) :=
      small _ (by rw [abs_le]; push_cast; constructor <;> linarith)
    simp only [e0, e1, Fl.eq, Fl.lt, beq_iff_eq, decide_eq_true_eq] at h
    rcases lt_or_ge (5 / 8) (P - ⌊P⌋) with c | c
    · have b0 : 5 / 8 ≤ extended.near (P + -(⌊P⌋ : ℚ)) := by rw [← g58]; exact near_mono extended ext_p (by linarith)
      have b1 : extended.near (((⌊P⌋ + 1 : Int) : ℚ) + -P) ≤ 3 / 8 := by
        rw [← g38]; exact near_mono extended ext_p (by push_cast; linarith)
      rw [if_neg (by intro h; linarith), if_neg (by linarith)] at h
      cases h
      push_cast
      rw [abs_le]; constructor <;> linarith
    · rcases lt_or_ge (P - ⌊P⌋) (3 / 8) with c' | c'
      · have b0 : extended.near (P + -(⌊P⌋ : ℚ)) ≤ 3 / 8 := by rw [← g38]; exact near_mono extended ext_p (by linarith)
        have b1 : 5 / 8 ≤ extended.near (((⌊P⌋ + 1 : Int) : ℚ) + -P) := by
          rw [← g58]; exact near_mono extended ext_p (by push_cast; linarith)
        rw [if_neg (by intro h; linarith), if_pos (by linarith)] at h
        cases h
        rw [abs_le]; constructor <;> linarith
      · rcases hs with rfl | rfl
        · rw [abs_le]; constructor <;> linarith
        · push_cast; rw [abs_le]; constructor <;> linarith
  · cases h

theorem roundTicks_num {T : Nat} {S : Fl} {s : Int} (h : roundTicks T S = .ok s) : ∃ P, extended.mul S (extended.round T) = .num P := by
  unfold roundTicks at h
  rcases hm : extended.mul S (extended.round T) with P | b | _ <;> simp only [hm] at h
  · exact ⟨P, rfl⟩
  all_goals cases h

theorem ext_tiny : (2 : ℚ) ^ (extended.emin - 1) ≤ 1 / 2 ^ 64 := by
  have : (2 : ℚ) ^ (extended.emin - 1) ≤ (2 : ℚ) ^ (-64 : Int) := zpow2_le (by decide)
  refine le_trans this ?_
  norm_num

theorem ext_rel {y B : ℚ} (h1 : 1 ≤ B) (hB : |y| ≤ B) : |extended.near y - y| ≤ B / 2 ^ 64 := by
  refine le_trans (near_err_max extended hB) (max_le ?_ (le_trans ext_tiny ?_))
  · exact le_of_eq rfl
  · gcongr

/-- `i` seconds and `f` units of 10^-k, in ticks of 1/T second: the result is less than one tick off. -/
theorem roundTicks_close {T i f k : Nat} {s : Int} (hT0 : 0 < T) (hT : T ≤ 10 ^ 15) (hi : i < 10 ^ 19) (hf : f < 10 ^ k) (hk : k ≤ 19)
    (h : roundTicks T (extended.add (extended.round i) (extended.div (extended.round f) (extended.round ((10 : ℚ) ^ k)))) = .ok s)
    : 0 ≤ s ∧ (s * 10 ^ k - ((i * 10 ^ k + f) * T : Nat)).natAbs < (if s < 2 ^ 57 then 1 else 2) * 10 ^ k := by
  have hp : (0 : ℚ) < 10 ^ k := by positivity
  have hpw : (10 : ℚ) ^ k ≤ 10 ^ 19 := pow_le_pow_right₀ (by norm_num) hk
  have hff : (f : ℚ) < 10 ^ k := by exact_mod_cast hf
  have hTT : (T : ℚ) ≤ 10 ^ 15 := by exact_mod_cast hT
  have hT1 : (1 : ℚ) ≤ T := by exact_mod_cast hT0
  have hi0 : (0 : ℚ) ≤ i := by positivity
  have nat_grid : ∀ n : Nat, n < 2 ^ 64 → extended.near n = n := fun n hn => by
    have := near_exact extended ext_p (ext_int (m := (n : Int)) (by rw [abs_of_nonneg (by omega)]; exact_mod_cast hn))
    simpa using this
  have nat_round : ∀ n : Nat, n < 2 ^ 64 → extended.round n = .num n := fun n hn => by
    have := ext_round_int (m := (n : Int)) (by rw [abs_of_nonneg (by omega)]; exact_mod_cast hn)
    simpa using this
  have hi64 : i + 1 < 2 ^ 64 := by omega
  have hf64 : f < 2 ^ 64 := by
    have : (f : ℚ) < (2 : ℚ) ^ 64 := lt_of_lt_of_le hff (le_trans hpw (by norm_num))
    exact_mod_cast this
  have r10 : extended.round ((10 : ℚ) ^ k) = .num ((10 : ℚ) ^ k) := by
    have h : |(10 : ℚ) ^ k| ≤ 2 ^ 80 := by rw [abs_of_pos hp]; exact le_trans hpw (by norm_num)
    rw [ext_round h, near_exact extended ext_p (grid_pow10 extended ext_0 (by decide) (by omega))]
  rw [nat_round i (by omega), nat_round f hf64, r10] at h
  have hq0 : 0 ≤ (f : ℚ) / 10 ^ k := by positivity
  have hq1 : (f : ℚ) / 10 ^ k ≤ 1 := by rw [div_le_one hp]; exact hff.le
  have ediv : extended.div (.num f) (.num ((10 : ℚ) ^ k)) = .num (extended.near (f / 10 ^ k)) := by
    show (if (10 : ℚ) ^ k = 0 then _ else _) = _
    rw [if_neg (by positivity)]
    exact ext_round (by rw [abs_of_nonneg hq0]; exact le_trans hq1 (by norm_num))
  rw [ediv] at h
  have eQ := ext_rel (y := (f : ℚ) / 10 ^ k) (B := 1) le_rfl (by rw [abs_of_nonneg hq0]; exact hq1)
  have hQ0 : 0 ≤ extended.near ((f : ℚ) / 10 ^ k) := near_nonneg extended ext_p hq0
  have hQ1 : extended.near ((f : ℚ) / 10 ^ k) ≤ 1 := by
    have := near_mono extended ext_p hq1
    rwa [show extended.near 1 = 1 by simpa using nat_grid 1 (by norm_num)] at this
  generalize extended.near ((f : ℚ) / 10 ^ k) = Q at *
  have hiq : (i : ℚ) + 1 < 2 ^ 64 := by exact_mod_cast hi64
  have n80 : (2 : ℚ) ^ 64 ≤ 2 ^ 80 := by norm_num
  have eadd : extended.add (.num i) (.num Q) = .num (extended.near (i + Q)) :=
    ext_round (by rw [abs_of_nonneg (by linarith)]; linarith)
  rw [eadd] at h
  have eS := ext_rel (y := (i : ℚ) + Q) (B := i + 1) (by linarith) (by rw [abs_of_nonneg (by linarith)]; linarith)
  have hS0 : (i : ℚ) ≤ extended.near (i + Q) := by
    have := near_mono extended ext_p (show (i : ℚ) ≤ i + Q by linarith)
    rwa [nat_grid i (by omega)] at this
  have hS1 : extended.near (i + Q) ≤ i + 1 := by
    have := near_mono extended ext_p (show (i : ℚ) + Q ≤ ((i + 1 : Nat) : ℚ) by push_cast; linarith)
    rw [nat_grid (i + 1) hi64] at this
    push_cast at this
    exact this
  generalize extended.near ((i : ℚ) + Q) = S at *
  obtain ⟨P, hP⟩ := roundTicks_num h
  obtain ⟨k1, k2, k3⟩ := roundTicks_half hP h
  have n35 : ((2 : ℚ) ^ 64) * 10 ^ 15 ≤ extended.max := by
    show ((2 : ℚ) ^ 64) * 10 ^ 15 ≤ ((2 : ℚ) ^ 64 - 1) * (2 : ℚ) ^ (16320 : Int)
    have h1 : (2 : ℚ) ^ (120 : Int) ≤ (2 : ℚ) ^ (16320 : Int) := zpow2_le (by norm_num)
    have h2 : (2 : ℚ) ^ (120 : Int) = (2 : ℚ) ^ 120 := by norm_cast
    rw [h2] at h1
    generalize (2 : ℚ) ^ (16320 : Int) = E at *
    have h3 : (2 : ℚ) ^ 64 * 10 ^ 15 ≤ 1 * (2 : ℚ) ^ 120 := by norm_num
    refine le_trans h3 (mul_le_mul (by norm_num) h1 (by positivity) (by norm_num))
  have hST0 : 0 ≤ S * T := mul_nonneg (by linarith) (by linarith)
  have hPe : P = extended.near (S * T) := by
    rw [nat_round T (by omega)] at hP
    have : extended.mul (.num S) (.num T) = .num (extended.near (S * T)) := by
      refine round_num extended ext_p ext_e (le_trans ?_ n35)
      rw [abs_of_nonneg hST0]
      exact mul_le_mul (by linarith) hTT (by linarith) (by positivity)
    rw [this] at hP
    cases hP; rfl
  have hP0 : 0 ≤ P := hPe ▸ near_nonneg extended ext_p hST0
  have hs0 : 0 ≤ s := by
    have : 0 ≤ ⌊P⌋ := Int.floor_nonneg.mpr hP0
    omega
  refine ⟨hs0, ?_⟩
  -- the errors for a product less than B
  have main : ∀ (B : Nat) (D : ℚ), B ≤ 2 ^ 63 → 10 ^ 15 ≤ B → (i : ℚ) * T < B → 5 / 8 + (2 * B + 3 * 10 ^ 15 : ℚ) / 2 ^ 64 < D →
      |(s : ℚ) - (i + f / 10 ^ k) * T| < D := by
    intro B D hB hB' hiT hD
    have hBq : (10 : ℚ) ^ 15 ≤ B := by exact_mod_cast hB'
    have hST : S * T ≤ B + 10 ^ 15 := by
      have h1 : S * T ≤ (i + 1) * T := mul_le_mul_of_nonneg_right hS1 (by linarith)
      have : ((i : ℚ) + 1) * T = i * T + T := by ring
      rw [this] at h1
      linarith
    have eP := ext_rel (y := S * T) (B := B + 10 ^ 15) (by linarith) (by rw [abs_of_nonneg hST0]; exact hST)
    rw [← hPe] at eP
    have eQ' := abs_le.mp eQ
    have eS' := abs_le.mp eS
    have eP' := abs_le.mp eP
    have k1' := abs_le.mp k1
    have hD1 : |S - (i + f / 10 ^ k)| ≤ (i + 2) / 2 ^ 64 := by
      have : ((i : ℚ) + 2) / 2 ^ 64 = (i + 1) / 2 ^ 64 + 1 / 2 ^ 64 := by ring
      rw [this, abs_le]; constructor <;> linarith
    have hDT : |S * T - (i + f / 10 ^ k) * T| ≤ (B + 2 * 10 ^ 15) / 2 ^ 64 := by
      have : S * T - (i + f / 10 ^ k) * T = (S - (i + f / 10 ^ k)) * T := by ring
      rw [this, abs_mul, abs_of_nonneg (show (0 : ℚ) ≤ T by linarith)]
      refine le_trans (mul_le_mul_of_nonneg_right hD1 (by linarith)) ?_
      have : ((i : ℚ) + 2) / 2 ^ 64 * T = (i * T + 2 * T) / 2 ^ 64 := by ring
      rw [this]
      gcongr
    have hDT' := abs_le.mp hDT
    have : (2 * B + 3 * 10 ^ 15 : ℚ) / 2 ^ 64 = (B + 2 * 10 ^ 15) / 2 ^ 64 + (B + 10 ^ 15) / 2 ^ 64 := by ring
    rw [abs_lt]; constructor <;> linarith
  -- products are monotone
  have low : ∀ B : Nat, B < 2 ^ 64 → (B : ℚ) ≤ i * T → (B : Int) ≤ ⌊P⌋ := by
    intro B hB hc
    have h1 : (B : ℚ) ≤ S * T := le_trans hc (mul_le_mul_of_nonneg_right hS0 (by linarith))
    have h2 := near_mono extended ext_p h1
    rw [nat_grid B hB, ← hPe] at h2
    exact Int.le_floor.mpr (by push_cast; exact h2)
  obtain ⟨D, hD1, hD2⟩ : ∃ D : Nat, (if s < 2 ^ 57 then 1 else 2) = D ∧ |(s : ℚ) - (i + f / 10 ^ k) * T| < D := by
    split
    · rename_i hb
      refine ⟨1, rfl, main (2 ^ 57) _ (by norm_num) (by norm_num) ?_ (by norm_num)⟩
      by_contra hc
      have := low (2 ^ 57) (by norm_num) (not_lt.mp hc)
      push_cast at this
      omega
    · refine ⟨2, rfl, main (2 ^ 63) _ (by norm_num) (by norm_num) ?_ (by norm_num)⟩
      by_contra hc
      have := low (2 ^ 63) (by norm_num) (not_lt.mp hc)
      have h3 := Int.floor_le P
      have h4 : ((2 ^ 63 : Nat) : ℚ) ≤ (⌊P⌋ : ℚ) := by exact_mod_cast this
      push_cast at h4
      linarith
  rw [hD1]
  have e : (((i * 10 ^ k + f) * T : Nat) : ℚ) = (i + f / 10 ^ k) * T * 10 ^ k := by
    push_cast
    field_simp
  have : |((s * 10 ^ k - ((i * 10 ^ k + f) * T : Nat) : Int) : ℚ)| < ((D * 10 ^ k : Int) : ℚ) := by
    push_cast [e]
    push_cast at e
    rw [e]
    have : (s : ℚ) * 10 ^ k - (i + f / 10 ^ k) * T * 10 ^ k = ((s : ℚ) - (i + f / 10 ^ k) * T) * 10 ^ k := by ring
    rw [this, abs_mul, abs_of_pos hp]
    exact mul_lt_mul_of_pos_right hD2 hp
  have h9 : |s * 10 ^ k - ((i * 10 ^ k + f) * T : Nat)| < D * 10 ^ k := by exact_mod_cast this
  zify
  exact h9

end Gul14.Date
