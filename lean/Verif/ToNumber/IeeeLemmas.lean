import Verif.ToNumber.Ieee
import Verif.Ieee.Error

/-! Error analysis of the final arithmetic of to_number. -/
namespace Gul14.ToNumber
open Gul14.Ieee

/-- Unit roundoff of long double. -/
abbrev u64 : ℚ := 1 / 2 ^ 64

theorem lo_half (k : Nat) (hk : k ≤ 23) : (1 / 2 : ℚ) ≤ (1 - u64) ^ k :=
  le_trans (by norm_num) (pow_le_pow_of_le_one (by norm_num) (by norm_num) hk)

theorem hi_small (k : Nat) (hk : k ≤ 23) : (1 + u64 : ℚ) ^ k ≤ 11 / 10 :=
  le_trans (pow_le_pow_right₀ (by norm_num) hk) (by norm_num)

/-- Powers whose halves are normal numbers of long double, with space above. -/
def Fits (base : ℚ) (N : Nat) : Prop :=
  ∀ t ≤ N, (2 : ℚ) ^ (-16382 : ℤ) ≤ 1 / 2 * base ^ t ∧ 11 / 10 * base ^ t ≤ extended.max

theorem fits_pos : Fits 10 4932 := by
  intro t ht
  constructor
  · have h1 : (1 : ℚ) ≤ 10 ^ t := one_le_pow₀ (by norm_num)
    have h2 : (2 : ℚ) ^ (-16382 : ℤ) ≤ 1 / 2 * 1 := by decide +kernel
    exact le_trans h2 (mul_le_mul_of_nonneg_left h1 (by norm_num))
  · have h1 : (10 : ℚ) ^ t ≤ 10 ^ 4932 := pow_le_pow_right₀ (by norm_num) ht
    have h2 : 11 / 10 * (10 : ℚ) ^ 4932 ≤ extended.max := by decide +kernel
    exact le_trans (mul_le_mul_of_nonneg_left h1 (by norm_num)) h2

theorem fits_neg : Fits (1 / 10) 4931 := by
  intro t ht
  constructor
  · have h1 : (1 / 10 : ℚ) ^ 4931 ≤ (1 / 10) ^ t := pow_le_pow_of_le_one (by norm_num) (by norm_num) ht
    have h2 : (2 : ℚ) ^ (-16382 : ℤ) ≤ 1 / 2 * (1 / 10) ^ 4931 := by decide +kernel
    exact le_trans h2 (mul_le_mul_of_nonneg_left h1 (by norm_num))
  · have h1 : (1 / 10 : ℚ) ^ t ≤ 1 := pow_le_one₀ (by norm_num) (by norm_num)
    have h2 : (11 / 10 * 1 : ℚ) ≤ extended.max := by decide +kernel
    exact le_trans (mul_le_mul_of_nonneg_left h1 (by norm_num)) h2

theorem round_ext {k N t : Nat} {base y : ℚ} (hf : Fits base N) (ht : t ≤ N) (hk : k ≤ 22)
    (h : Between ((1 - u64) ^ k) ((1 + u64) ^ k) (base ^ t) y) :
    ∃ z, extended.round y = .num z ∧
      Between ((1 - u64) ^ (k + 1)) ((1 + u64) ^ (k + 1)) (base ^ t) z := by
  obtain ⟨f1, f2⟩ := hf t ht
  have hl := lo_half k (by omega)
  have hh := hi_small k (by omega)
  obtain ⟨z, h1, h2⟩ := h.round extended (by decide) (by decide) (lt_of_lt_of_le (by norm_num) hl)
    (by
      have e : extended.emin + extended.p - 1 = (-16382 : ℤ) := by decide
      rw [e]
      exact le_trans f1 (mul_le_mul_of_nonneg_right hl h.pos.le))
    (by
      exact le_trans (mul_le_mul_of_nonneg_right hh h.pos.le) f2)
  refine ⟨z, h1, ?_⟩
  rw [pow_succ, pow_succ]
  exact h2

theorem pow10Loop_between (base : ℚ) (hb : 0 < base) (limit : Fl) (N : Nat) (hf : Fits base N) :
    ∀ fuel x bit t r, bit ≤ 9 → x < 2 ^ (9 - bit) → 9 - bit < fuel → t + 16 * 2 ^ bit * x = N →
      Between ((1 - u64) ^ (1 + 2 * bit)) ((1 + u64) ^ (1 + 2 * bit)) (base ^ t) r →
      ∃ y, ieeePow10Loop base limit fuel x bit (.num r) = .num y ∧
        Between ((1 - u64) ^ 19) ((1 + u64) ^ 19) (base ^ N) y := by
  intro fuel
  induction fuel with
  | zero => intro x bit t r _ _ h; omega
  | succ fuel ih =>
    intro x bit t r hbit hx hfu ht hr
    have weak : ∀ k m, k ≤ m → ∀ {t y},
        Between ((1 - u64) ^ k) ((1 + u64) ^ k) (base ^ t) y →
        Between ((1 - u64) ^ m) ((1 + u64) ^ m) (base ^ t) y := by
      intro k m hkm t y h
      exact h.weaken (pow_le_pow_of_le_one (by norm_num) (by norm_num) hkm)
        (pow_le_pow_right₀ (by norm_num) hkm)
    unfold ieeePow10Loop
    by_cases hx0 : x = 0
    · subst hx0
      rw [if_neg (by omega)]
      simp at ht
      subst ht
      exact ⟨r, rfl, weak _ _ (by omega) hr⟩
    · rw [if_pos (by omega)]
      have hb9 : bit ≠ 9 := by
        rintro rfl
        simp at hx
        omega
      rw [if_neg hb9]
      have hx2 : x / 2 < 2 ^ (9 - (bit + 1)) := by
        rw [show 9 - bit = 9 - (bit + 1) + 1 by omega, pow_succ] at hx
        omega
      have hdm := Nat.div_add_mod x 2
      by_cases hodd : x % 2 = 1
      · rw [if_pos hodd]
        -- the table entry
        have hs : 16 * 2 ^ bit ≤ N := by
          have : 16 * 2 ^ bit * 1 ≤ 16 * 2 ^ bit * x := Nat.mul_le_mul_left _ (by omega)
          omega
        have hts : t + 16 * 2 ^ bit ≤ N := by
          have : 16 * 2 ^ bit * 1 ≤ 16 * 2 ^ bit * x := Nat.mul_le_mul_left _ (by omega)
          omega
        obtain ⟨c, hc1, hc2⟩ := round_ext (k := 0) hf hs (by omega)
          (by simpa using Between.refl (pow_pos hb (16 * 2 ^ bit)))
        have hm := hr.mul hc2 (lt_of_lt_of_le (by norm_num) (lo_half (1 + 2 * bit) (by omega)))
          (by norm_num)
        rw [← pow_add, ← pow_add, ← pow_add] at hm
        obtain ⟨z, hz1, hz2⟩ := round_ext (k := 1 + 2 * bit + (0 + 1)) hf hts (by omega) hm
        have hmul : extended.mul (.num r) (binaryPower base bit) = .num z := by
          unfold binaryPower
          rw [hc1]
          exact hz1
        rw [hmul]
        refine ih (x / 2) (bit + 1) (t + 16 * 2 ^ bit) z (by omega) hx2 (by omega) ?_ ?_
        · rw [← ht]
          conv => rhs; rw [← hdm, hodd]
          ring
        · exact weak _ _ (by omega) hz2
      · rw [if_neg hodd]
        refine ih (x / 2) (bit + 1) t r (by omega) hx2 (by omega) ?_ (weak _ _ (by omega) hr)
        rw [← ht]
        conv => rhs; rw [← hdm, show x % 2 = 0 by omega]
        ring

theorem pow10_between {E : Int} (h1 : -4931 ≤ E) (h2 : E ≤ 4932) :
    ∃ y, ieeePow10 E = .ok (.num y) ∧
      Between ((1 - u64) ^ 19) ((1 + u64) ^ 19) ((10 : ℚ) ^ E) y := by
  have main : ∀ (base : ℚ) (limit : Fl) (N : Nat), 0 < base → Fits base N → N < 8192 →
      ∃ y, ieeePow10Loop base limit 11 (N / 16) 0 (directPower base (N % 16)) = .num y ∧
        Between ((1 - u64) ^ 19) ((1 + u64) ^ 19) (base ^ N) y := by
    intro base limit N hb hf hN
    have hdm := Nat.div_add_mod N 16
    obtain ⟨c, hc1, hc2⟩ := round_ext (k := 0) (t := N % 16) hf (by omega) (by omega)
      (by simpa using Between.refl (pow_pos hb (N % 16)))
    unfold directPower
    rw [hc1]
    exact pow10Loop_between base hb limit N hf 11 (N / 16) 0 (N % 16) c (by omega)
      (by norm_num; omega) (by omega) (by omega) hc2
  unfold ieeePow10
  by_cases hE : E < 0
  · rw [if_pos hE, int32, if_pos (by unfold intMax; omega)]
    obtain ⟨n, hn⟩ : ∃ n : Nat, -E = n := ⟨(-E).toNat, by omega⟩
    simp only [Res.map_ok, Res.bind_ok, hn, Int.toNat_natCast]
    obtain ⟨y, hy1, hy2⟩ := main (1 / 10) (.num 0) n (by norm_num)
      (fun t ht => fits_neg t (by omega)) (by omega)
    refine ⟨y, by rw [hy1], ?_⟩
    have e : (10 : ℚ) ^ E = (1 / 10) ^ n := by
      rw [show E = -(n : Int) by omega, zpow_neg, zpow_natCast, one_div, inv_pow]
    rw [e]; exact hy2
  · rw [if_neg hE]
    obtain ⟨n, hn⟩ : ∃ n : Nat, E = n := ⟨E.toNat, by omega⟩
    subst hn
    simp only [Res.bind_ok, Int.toNat_natCast]
    obtain ⟨y, hy1, hy2⟩ := main 10 (.inf false) n (by norm_num)
      (fun t ht => fits_pos t (by omega)) (by omega)
    refine ⟨y, by rw [hy1], ?_⟩
    rw [zpow_natCast]; exact hy2

/-- The quotient in double or long double. -/
theorem quotient_between {C : Format} (hC : C = binary64 ∨ C = extended) {accu j : Nat}
    (hj : j ≤ 18) (ha : 10 ^ j ≤ accu) (hb : accu < 10 ^ (j + 1)) :
    ∃ v, C.div (C.round (accu : ℚ)) (C.round ((10 ^ j : Nat) : ℚ)) = .num v ∧
      Between ((1 - 1 / 2 ^ 53) ^ 2) ((1 + 1 / 2 ^ 53) ^ 2) ((accu : ℚ) / 10 ^ j) v ∧
      (C = extended → Between (1 - u64) (1 + u64) ((accu : ℚ) / 10 ^ j) v) := by
  have hp : 53 ≤ C.p := by rcases hC with rfl | rfl <;> decide
  have he0 : C.emin ≤ -1000 := by rcases hC with rfl | rfl <;> decide
  have he : C.emin ≤ C.emax := by rcases hC with rfl | rfl <;> decide
  have hmax : (10 : ℚ) ^ 21 ≤ C.max := by rcases hC with rfl | rfl <;> decide +kernel
  have hmin : (2 : ℚ) ^ (C.emin + C.p - 1) ≤ 1 / 2 := by rcases hC with rfl | rfl <;> decide +kernel
  have hu : (1 : ℚ) / 2 ^ C.p ≤ 1 / 2 ^ 53 := by
    rcases hC with rfl | rfl <;> decide +kernel
  have hup : (0 : ℚ) < 1 / 2 ^ C.p := by positivity
  have hpj : (0 : ℚ) < 10 ^ j := by positivity
  have ha' : (10 : ℚ) ^ j ≤ accu := by exact_mod_cast ha
  have hb' : (accu : ℚ) < 10 ^ (j + 1) := by exact_mod_cast hb
  have h1j : (1 : ℚ) ≤ 10 ^ j := one_le_pow₀ (by norm_num)
  have hj19 : (10 : ℚ) ^ (j + 1) ≤ 10 ^ 19 := pow_le_pow_right₀ (by norm_num) (by omega)
  have hj18 : (10 : ℚ) ^ j ≤ 10 ^ 18 := pow_le_pow_right₀ (by norm_num) (by omega)
  have hapos : (0 : ℚ) < accu := by linarith
  -- the divisor is exact
  have hm : C.round ((10 ^ j : Nat) : ℚ) = .num (10 ^ j) := by
    push_cast
    rw [round_num C (by omega) he (by rw [abs_of_pos hpj]; norm_num at hj18 hmax; linarith),
      near_exact C (by omega) (grid_pow10 C (by omega) hp (by omega))]
  rw [hm]
  have hq1 : (1 : ℚ) ≤ accu / 10 ^ j := by rwa [le_div_iff₀ hpj, one_mul]
  have hq2 : (accu : ℚ) / 10 ^ j ≤ 10 := by
    rw [div_le_iff₀ hpj]
    calc (accu : ℚ) ≤ 10 ^ (j + 1) := hb'.le
      _ = _ := by rw [pow_succ]; ring
  have step : ∀ {L H : ℚ} {a}, Between L H (accu : ℚ) a → 1 / 2 ≤ L → H ≤ 2 →
      ∃ v, C.div (.num a) (.num (10 ^ j)) = .num v ∧
        Between (L * (1 - 1 / 2 ^ C.p)) (H * (1 + 1 / 2 ^ C.p)) ((accu : ℚ) / 10 ^ j) v := by
    intro L H a h hL hH
    have hd := h.div hpj
    obtain ⟨v, v1, v2⟩ := hd.round C (by omega) he (by linarith)
      (by
        have := mul_le_mul_of_nonneg_right hL hd.pos.le
        linarith)
      (by
        have := mul_le_mul_of_nonneg_right hH hd.pos.le
        norm_num at hmax
        linarith)
    refine ⟨v, ?_, v2⟩
    unfold Format.div
    simp only [if_neg hpj.ne', v1]
  by_cases hext : C = extended
  · -- the dividend is exact
    have hea : C.round (accu : ℚ) = .num accu := by
      rw [round_num C (by omega) he (by rw [abs_of_pos hapos]; norm_num at hj19 hmax; linarith)]
      have : C.near (accu : ℚ) = accu := by
        apply near_exact C (by omega)
        have h64 : accu < 2 ^ 64 :=
          calc accu < 10 ^ (j + 1) := hb
            _ ≤ 10 ^ 19 := Nat.pow_le_pow_right (by omega) (by omega)
            _ < 2 ^ 64 := by norm_num
        have := grid_int C (by omega) (m := (accu : Int)) (by
          rw [hext]
          show |(accu : Int)| < 2 ^ 64
          rw [abs_of_nonneg (by omega)]
          exact_mod_cast h64)
        simpa using this
      rw [this]
    rw [hea]
    obtain ⟨v, v1, v2⟩ := step (Between.refl hapos) (by norm_num) (by norm_num)
    refine ⟨v, v1, v2.weaken ?_ ?_, fun _ => v2.weaken ?_ ?_⟩
    · rw [hext]; show _ ≤ 1 * (1 - 1 / (2 : ℚ) ^ 64); norm_num
    · rw [hext]; show 1 * (1 + 1 / (2 : ℚ) ^ 64) ≤ _; norm_num
    · rw [hext]; show _ ≤ 1 * (1 - 1 / (2 : ℚ) ^ 64); norm_num
    · rw [hext]; show 1 * (1 + 1 / (2 : ℚ) ^ 64) ≤ _; norm_num
  · have hC' : C = binary64 := by rcases hC with h | h; exact h; exact absurd h hext
    obtain ⟨a, a1, a2⟩ := (Between.refl hapos).round C (by omega) he (by norm_num)
      (by linarith) (by norm_num at hj19 hmax; linarith)
    rw [a1]
    rw [hC'] at a2
    have a3 : Between (1 - 1 / 2 ^ 53) (1 + 1 / 2 ^ 53) (accu : ℚ) a := by
      refine a2.weaken ?_ ?_
      · show _ ≤ 1 * (1 - 1 / (2 : ℚ) ^ 53); linarith
      · show 1 * (1 + 1 / (2 : ℚ) ^ 53) ≤ _; linarith
    obtain ⟨v, v1, v2⟩ := step a3 (by norm_num) (by norm_num)
    refine ⟨v, v1, v2.weaken ?_ ?_, fun h => absurd h hext⟩
    · rw [hC', pow_two]; exact le_refl _
    · rw [hC', pow_two]; exact le_refl _

/-- The long double number before the last conversion: the quotient times the power of ten. -/
theorem finish_between {C : Format} (hC : C = binary64 ∨ C = extended) (F : Format) {accu j : Nat}
    (hj : j ≤ 18) (ha : 10 ^ j ≤ accu) (hb : accu < 10 ^ (j + 1)) {E : Int} (h1 : -4931 ≤ E)
    (h2 : E ≤ 4932) {q : ℚ} (hq : q = (10 : ℚ) ^ E * ((accu : ℚ) / 10 ^ j))
    (hmax : q * (1 + 1 / 2 ^ 50) ≤ extended.max) :
    ∃ y, ieeeFinish C F E accu (10 ^ j) = .ok (ofFl (F.round y)) ∧
      Between ((1 - 1 / 2 ^ 53) ^ 2 * (1 - u64) ^ 20) ((1 + 1 / 2 ^ 53) ^ 2 * (1 + u64) ^ 20) q y ∧
      (C = extended → Between ((1 - u64) ^ 21) ((1 + u64) ^ 21) q y) := by
  obtain ⟨p, p1, p2⟩ := pow10_between h1 h2
  obtain ⟨v, v1, v2, v3⟩ := quotient_between hC hj ha hb
  have hpj : (0 : ℚ) < 10 ^ j := by positivity
  have hq1 : (1 : ℚ) ≤ accu / 10 ^ j := by
    rw [le_div_iff₀ hpj, one_mul]; exact_mod_cast ha
  have hE : (10 : ℚ) ^ (-4931 : ℤ) ≤ q := by
    rw [hq]
    have t1 : (10 : ℚ) ^ (-4931 : ℤ) ≤ (10 : ℚ) ^ E := zpow_le_zpow_right₀ (by norm_num) h1
    have t2 : (0 : ℚ) < (10 : ℚ) ^ E := zpow_pos (by norm_num) _
    have := mul_le_mul_of_nonneg_left hq1 t2.le
    linarith
  have hE2 : (2 : ℚ) ^ (extended.emin + extended.p - 1) ≤ 1 / 2 * (10 : ℚ) ^ (-4931 : ℤ) := by
    decide +kernel
  have fin : ∀ {L H : ℚ}, Between L H ((accu : ℚ) / 10 ^ j) v → 0 < L →
      1 / 2 ≤ L * (1 - u64) ^ 19 → H * (1 + u64) ^ 19 ≤ 1 + 1 / 2 ^ 50 →
      ∃ y, extended.round (p * v) = .num y ∧
        Between (L * (1 - u64) ^ 20) (H * (1 + u64) ^ 20) q y := by
    intro L H h hL hL' hH'
    have hm := h.mul p2 hL (lt_of_lt_of_le (by norm_num) (lo_half 19 (by omega)))
    rw [mul_comm ((accu : ℚ) / 10 ^ j), ← hq, mul_comm v] at hm
    obtain ⟨y, y1, y2⟩ := hm.round extended (by decide) (by decide)
      (lt_of_lt_of_le (by norm_num) hL')
      (le_trans hE2 (le_trans (mul_le_mul_of_nonneg_left hE (by norm_num))
        (mul_le_mul_of_nonneg_right hL' hm.pos.le)))
      (le_trans (mul_le_mul_of_nonneg_right hH' hm.pos.le) (by rw [mul_comm]; exact hmax))
    refine ⟨y, y1, ?_⟩
    have e1 : L * (1 - u64) ^ 20 = L * (1 - u64) ^ 19 * (1 - 1 / 2 ^ extended.p) := by
      show _ = L * (1 - u64) ^ 19 * (1 - u64)
      rw [pow_succ]; ring
    have e2 : H * (1 + u64) ^ 20 = H * (1 + u64) ^ 19 * (1 + 1 / 2 ^ extended.p) := by
      show _ = H * (1 + u64) ^ 19 * (1 + u64)
      rw [pow_succ]; ring
    rw [e1, e2]
    exact y2
  obtain ⟨y, y1, y2⟩ := fin v2 (by norm_num) (by norm_num) (by norm_num)
  refine ⟨y, ?_, y2, fun hext => ?_⟩
  · unfold ieeeFinish
    rw [p1, v1]
    simp only [Res.map_ok, Format.mul, y1, Format.conv]
  · obtain ⟨y', y1', y2'⟩ := fin (v3 hext) (by norm_num) (by norm_num) (by norm_num)
    rw [y1] at y1'
    cases y1'
    refine y2'.weaken ?_ ?_
    · rw [pow_succ]; exact le_of_eq (mul_comm _ _)
    · rw [pow_succ _ 20]; exact le_of_eq (mul_comm _ _)

end Gul14.ToNumber
