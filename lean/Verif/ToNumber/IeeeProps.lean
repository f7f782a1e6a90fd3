import Verif.ToNumber.IeeeLemmas

/-!
# Accuracy of to_number in IEEE arithmetic (C87, C88)

`Format.Rep` says what the numbers of a format are, `Format.near` rounds to the nearest of them
(`near_nearest`); the statements below only use the former.
-/
namespace Gul14.ToNumber
open Gul14.Ieee Gul14.Spec

/-- A result with a sign. -/
def signedResult (neg : Bool) (v : FVal) : Res (Option FVal) :=
  .ok (some (if neg then v.neg else v))

theorem number_between {C : Format} (hC : C = binary64 ∨ C = extended) (F : Format) (neg : Bool)
    {s : Str} {n : Nat} {k e : Int} (h : FloatNumeral s n k e) (hlen : s.length < 2 ^ 31)
    (he : -2 ^ 31 < e ∧ e < 2 ^ 31) {V : ℚ} (hV : V = n * (10 : ℚ) ^ k)
    (hlo : (10 : ℚ) ^ (-4931 : ℤ) ≤ V) (hhi : V * (1 + 1 / 2 ^ 50) ≤ extended.max) :
    ∃ y, toFloatWith (ieeeFinish C F) (sign neg ++ s) = signedResult neg (ofFl (F.round y)) ∧
      0 < y ∧ |y - V| ≤ V * ((2 + 1 / 50) / 2 ^ 53) ∧
      (C = extended → |y - V| ≤ V * (40 / 2 ^ 64)) ∧
      (C = extended → significantDigits s ≤ 19 → |y - V| ≤ V * ((21 + 1 / 100) / 2 ^ 64)) := by
  have hVp : 0 < V := lt_of_lt_of_le (zpow_pos (by norm_num) _) hlo
  have hn : n ≠ 0 := by
    rintro rfl
    rw [hV] at hVp
    simp at hVp
  obtain ⟨E, accu, j, hj, ha, hb, g1, g2, g3, g4, g5, g6, -⟩ :=
    (numeral_digits h hlen (by unfold intMax; omega) (by unfold intMax; omega)).2 hn
  rw [← hV] at g1 g2 g4 g5 g6
  have ten : (1 : ℚ) < 10 := by norm_num
  have hE1 : -4931 < E + 1 := (zpow_lt_zpow_iff_right₀ ten).1 (lt_of_le_of_lt hlo g2)
  have hE2 : E < 4933 := by
    have t1 : V ≤ extended.max := le_trans (le_mul_of_one_le_right hVp.le (by norm_num)) hhi
    have t2 : extended.max < (10 : ℚ) ^ (4933 : ℤ) := by decide +kernel
    exact (zpow_lt_zpow_iff_right₀ ten).1 (lt_of_le_of_lt g1 (lt_of_le_of_lt t1 t2))
  generalize hq : (10 : ℚ) ^ E * ((accu : ℚ) / 10 ^ j) = q at *
  obtain ⟨y, y1, y2, y3⟩ := finish_between hC F hj ha hb (by omega) (show E ≤ 4932 by omega)
    hq.symm (le_trans (mul_le_mul_of_nonneg_right g4 (by norm_num)) hhi)
  have hqp := y2.pos
  have bound : ∀ {L H δ : ℚ}, Between L H q y → 0 < L → 1 ≤ H → H - 1 ≤ δ →
      (1 - δ) * (1 + 1 / 10 ^ 18) ≤ L → |y - V| ≤ V * δ := by
    intro L H δ hbw hL0 hH0 hH hL
    have a1 : y ≤ V * H := by
      have := mul_le_mul_of_nonneg_left g4 (show 0 ≤ H by linarith)
      have := hbw.hi
      linarith
    have a2 : V * (1 - δ) ≤ y := by
      have b1 : V ≤ q * (1 + 1 / 10 ^ 18) := by linarith
      by_cases hd : 0 ≤ 1 - δ
      · have b2 := mul_le_mul_of_nonneg_right b1 hd
        have b3 := mul_le_mul_of_nonneg_left hL hqp.le
        have b4 := hbw.lo
        linarith [show q * (1 + 1 / 10 ^ 18) * (1 - δ) = q * ((1 - δ) * (1 + 1 / 10 ^ 18)) by ring,
          mul_comm q L]
      · have := mul_nonneg hVp.le (show 0 ≤ -(1 - δ) by linarith)
        have := hbw.y_pos hL0
        linarith
    have a3 := mul_le_mul_of_nonneg_left hH hVp.le
    rw [abs_le]
    constructor
    · linarith
    · linarith
  refine ⟨y, ?_, y2.y_pos (by norm_num), bound y2 (by norm_num) (by norm_num) (by norm_num)
    (by norm_num), fun hext => bound (y3 hext) (by norm_num) (by norm_num) (by norm_num)
    (by norm_num), fun hext hs => ?_⟩
  · rw [toFloatWith_sign _ neg s (floatNumeral_head h), g3, int32,
      if_pos (by unfold intMax; omega)]
    simp only [Res.bind_ok, y1, Res.map_ok, signedResult, Option.map_some]
  · have hqV := g6 hs
    have b1 := (y3 hext).lo
    have b2 := (y3 hext).hi
    rw [hqV] at b1 b2
    have b3 : (1 + u64 : ℚ) ^ 21 ≤ 1 + (21 + 1 / 100) / 2 ^ 64 := by norm_num
    have b4 : 1 - (21 + 1 / 100) / 2 ^ 64 ≤ (1 - u64 : ℚ) ^ 21 := by norm_num
    have b5 := le_trans b2 (mul_le_mul_of_nonneg_right b3 hVp.le)
    have b6 := le_trans (mul_le_mul_of_nonneg_right b4 hVp.le) b1
    generalize (21 + 1 / 100 : ℚ) / 2 ^ 64 = δ at *
    rw [abs_le]
    constructor <;> linarith

theorem number_zero (C F : Format) (neg : Bool) {s : Str} {k e : Int} (h : FloatNumeral s 0 k e)
    (hlen : s.length < 2 ^ 31) (he : -2 ^ 31 < e ∧ e < 2 ^ 31) :
    toFloatWith (ieeeFinish C F) (sign neg ++ s) = .ok (some (.num 0)) := by
  rw [toFloatWith_sign _ neg s (floatNumeral_head h),
    (numeral_digits h hlen (by unfold intMax; omega) (by unfold intMax; omega)).1 rfl]
  cases neg <;> simp [FVal.neg]

/-- The conversion to the result type. -/
theorem number_accuracy {F : Format} (hp : 1 ≤ F.p) (heF : F.emin ≤ F.emax) (neg : Bool)
    {V y δ : ℚ} (hV : 0 < V) (hy : 0 < y) (h : |y - V| ≤ V * δ) (hδ : δ ≤ 1 / 2 ^ 50)
    (hmax : V * (1 + 1 / 2 ^ 50) ≤ F.max) :
    ∃ r, signedResult neg (ofFl (F.round y)) = .ok (some (.num (signed neg r))) ∧ F.Rep r ∧ 0 ≤ r ∧
      |r - V| ≤ V * δ + Max.max (V * (1 + δ) / 2 ^ F.p) ((2 : ℚ) ^ (F.emin - 1)) := by
  have h' := abs_le.mp h
  have hδV := mul_le_mul_of_nonneg_left hδ hV.le
  have hy2 : y ≤ V * (1 + δ) := by linarith
  have hym : |y| ≤ F.max := by rw [abs_of_pos hy]; linarith
  have hr := round_num F hp heF hym
  refine ⟨F.near y, ?_, round_rep F hp heF hr, near_nonneg F hp hy.le, ?_⟩
  · rw [hr]
    cases neg <;> rfl
  · have h1 := near_err_max F (y := y) (B := V * (1 + δ)) (by rw [abs_of_pos hy]; exact hy2)
    have h2 : |F.near y - V| ≤ |F.near y - y| + |y - V| := abs_sub_le _ _ _
    linarith

/-! ## C87: accuracy -/

/-- to_number<double> of any numeral (with optional sign) that denotes zero or a number from
10^-4931 to the largest double: the result is a double that differs from the denoted number by
less than 3.03 · 2^-53 times this number (about three units in the last place; in the subnormal
range by half of the smallest double plus 2.03 · 2^-53 times the number). -/
theorem c87_double (neg : Bool) (s : Str) (n : Nat) (k e : Int) (h : FloatNumeral s n k e)
    (hlen : s.length < 2 ^ 31) (he : -2 ^ 31 < e ∧ e < 2 ^ 31) (V : ℚ) (hV : V = n * (10 : ℚ) ^ k)
    (hrange : V = 0 ∨ ((10 : ℚ) ^ (-4931 : ℤ) ≤ V ∧ V * (1 + 1 / 2 ^ 50) ≤ binary64.max)) :
    ∃ r, toNumberDouble (sign neg ++ s) = .ok (some (.num (signed neg r))) ∧ binary64.Rep r ∧
      0 ≤ r ∧ |r - V| ≤ V * (203 / 100) / 2 ^ 53 + Max.max (V / 2 ^ 53) (1 / 2 ^ 1075) := by
  rcases hrange with h0 | ⟨h1, h2⟩
  · have hn : n = 0 := by
      rw [hV] at h0
      rcases mul_eq_zero.mp h0 with h | h
      · exact_mod_cast h
      · exact absurd h (zpow_ne_zero _ (by norm_num))
    subst hn
    refine ⟨0, ?_, ⟨0, 0, by simp, by simp, by decide, by decide⟩, le_refl _, ?_⟩
    · unfold toNumberDouble
      rw [number_zero _ _ neg h hlen he]
      cases neg <;> simp [signed]
    · rw [h0]; simp
  · have hVp : 0 < V := lt_of_lt_of_le (zpow_pos (by norm_num) _) h1
    have hmm : binary64.max ≤ extended.max := by decide +kernel
    obtain ⟨y, y1, y2, y3, -⟩ := number_between (.inl rfl) binary64 neg h hlen he hV h1
      (le_trans h2 hmm)
    obtain ⟨r, r1, r2, r3, r4⟩ := number_accuracy (F := binary64) (by decide) (by decide) neg hVp y2 y3
      (by norm_num) h2
    refine ⟨r, y1.trans r1, r2, r3, le_trans r4 ?_⟩
    have e1 : (2 : ℚ) ^ (binary64.emin - 1) = 1 / 2 ^ 1075 := by
      show (2 : ℚ) ^ (-1075 : ℤ) = _
      rw [zpow_neg, one_div]; rfl
    have e2 : V * (1 + (2 + 1 / 50) / 2 ^ 53) / 2 ^ binary64.p ≤ V / 2 ^ 53 + V * ((1 / 100) / 2 ^ 53) := by
      show V * (1 + (2 + 1 / 50) / 2 ^ 53) / 2 ^ 53 ≤ _
      have : V * ((2 + 1 / 50) / 2 ^ 53 / 2 ^ 53) ≤ V * ((1 / 100) / 2 ^ 53) :=
        mul_le_mul_of_nonneg_left (by norm_num) hVp.le
      calc _ = V / 2 ^ 53 + V * ((2 + 1 / 50) / 2 ^ 53 / 2 ^ 53) := by ring
        _ ≤ _ := by linarith
    rw [e1]
    have hd : 0 ≤ V * ((1 / 100) / 2 ^ 53) := by positivity
    have : Max.max (V * (1 + (2 + 1 / 50) / 2 ^ 53) / 2 ^ binary64.p) ((1 : ℚ) / 2 ^ 1075) ≤
        Max.max (V / 2 ^ 53) (1 / 2 ^ 1075) + V * ((1 / 100) / 2 ^ 53) := by
      apply max_le
      · exact le_trans e2 (add_le_add_left (le_max_left _ _) _)
      · exact le_trans (le_max_right _ _) (le_add_of_nonneg_right hd)
    generalize Max.max (V / 2 ^ 53) ((1 : ℚ) / 2 ^ 1075) = M at *
    have e3 : V * (203 / 100) / 2 ^ 53 = V * ((2 + 1 / 50) / 2 ^ 53) + V * ((1 / 100) / 2 ^ 53) := by ring
    rw [e3]
    linarith

/-- to_number<float> likewise: half a unit in the last place and a tiny bit. -/
theorem c87_float (neg : Bool) (s : Str) (n : Nat) (k e : Int) (h : FloatNumeral s n k e)
    (hlen : s.length < 2 ^ 31) (he : -2 ^ 31 < e ∧ e < 2 ^ 31) (V : ℚ) (hV : V = n * (10 : ℚ) ^ k)
    (hrange : V = 0 ∨ ((10 : ℚ) ^ (-4931 : ℤ) ≤ V ∧ V * (1 + 1 / 2 ^ 50) ≤ binary32.max)) :
    ∃ r, toNumberFloat (sign neg ++ s) = .ok (some (.num (signed neg r))) ∧ binary32.Rep r ∧
      0 ≤ r ∧ |r - V| ≤ V / 2 ^ 51 + Max.max (V / 2 ^ 24) (1 / 2 ^ 150) := by
  rcases hrange with h0 | ⟨h1, h2⟩
  · have hn : n = 0 := by
      rw [hV] at h0
      rcases mul_eq_zero.mp h0 with h | h
      · exact_mod_cast h
      · exact absurd h (zpow_ne_zero _ (by norm_num))
    subst hn
    refine ⟨0, ?_, ⟨0, 0, by simp, by simp, by decide, by decide⟩, le_refl _, ?_⟩
    · unfold toNumberFloat
      rw [number_zero _ _ neg h hlen he]
      cases neg <;> simp [signed]
    · rw [h0]; simp
  · have hVp : 0 < V := lt_of_lt_of_le (zpow_pos (by norm_num) _) h1
    have hmm : binary32.max ≤ extended.max := by decide +kernel
    obtain ⟨y, y1, y2, y3, -⟩ := number_between (.inl rfl) binary32 neg h hlen he hV h1
      (le_trans h2 hmm)
    obtain ⟨r, r1, r2, r3, r4⟩ := number_accuracy (F := binary32) (by decide) (by decide) neg hVp y2 y3
      (by norm_num) h2
    refine ⟨r, y1.trans r1, r2, r3, le_trans r4 ?_⟩
    have e1 : (2 : ℚ) ^ (binary32.emin - 1) = 1 / 2 ^ 150 := by
      show (2 : ℚ) ^ (-150 : ℤ) = _
      rw [zpow_neg, one_div]; rfl
    have e2 : V * (1 + (2 + 1 / 50) / 2 ^ 53) / 2 ^ binary32.p ≤ V / 2 ^ 24 + V * (1 / 2 ^ 53) := by
      show V * (1 + (2 + 1 / 50) / 2 ^ 53) / 2 ^ 24 ≤ _
      have : V * ((2 + 1 / 50) / 2 ^ 53 / 2 ^ 24) ≤ V * (1 / 2 ^ 53) :=
        mul_le_mul_of_nonneg_left (by norm_num) hVp.le
      calc _ = V / 2 ^ 24 + V * ((2 + 1 / 50) / 2 ^ 53 / 2 ^ 24) := by ring
        _ ≤ _ := by linarith
    rw [e1]
    have hd : 0 ≤ V * (1 / 2 ^ 53) := by positivity
    have : Max.max (V * (1 + (2 + 1 / 50) / 2 ^ 53) / 2 ^ binary32.p) ((1 : ℚ) / 2 ^ 150) ≤
        Max.max (V / 2 ^ 24) (1 / 2 ^ 150) + V * (1 / 2 ^ 53) := by
      apply max_le
      · exact le_trans e2 (add_le_add_left (le_max_left _ _) _)
      · exact le_trans (le_max_right _ _) (le_add_of_nonneg_right hd)
    generalize Max.max (V / 2 ^ 24) ((1 : ℚ) / 2 ^ 150) = M at *
    have e3 : V * ((2 + 1 / 50) / 2 ^ 53) + V * (1 / 2 ^ 53) ≤ V / 2 ^ 51 := by
      calc _ = V * ((2 + 1 / 50) / 2 ^ 53 + 1 / 2 ^ 53) := by ring
        _ ≤ V * (1 / 2 ^ 51) := mul_le_mul_of_nonneg_left (by norm_num) hVp.le
        _ = _ := by ring
    linarith

/-- to_number<long double> of numerals from 10^-4931 to the largest long double: up to 19
significant digits the relative error is at most 22.02 · 2^-64, otherwise 41.01 · 2^-64. -/
theorem c87_long_double (neg : Bool) (s : Str) (n : Nat) (k e : Int) (h : FloatNumeral s n k e)
    (hlen : s.length < 2 ^ 31) (he : -2 ^ 31 < e ∧ e < 2 ^ 31) (V : ℚ) (hV : V = n * (10 : ℚ) ^ k)
    (hrange : V = 0 ∨ ((10 : ℚ) ^ (-4931 : ℤ) ≤ V ∧ V * (1 + 1 / 2 ^ 50) ≤ extended.max)) :
    ∃ r, toNumberLongDouble (sign neg ++ s) = .ok (some (.num (signed neg r))) ∧ extended.Rep r ∧
      0 ≤ r ∧ |r - V| ≤ V * (41 + 1 / 100) / 2 ^ 64 ∧
      (significantDigits s ≤ 19 → |r - V| ≤ V * (22 + 1 / 50) / 2 ^ 64) := by
  rcases hrange with h0 | ⟨h1, h2⟩
  · have hn : n = 0 := by
      rw [hV] at h0
      rcases mul_eq_zero.mp h0 with h | h
      · exact_mod_cast h
      · exact absurd h (zpow_ne_zero _ (by norm_num))
    subst hn
    refine ⟨0, ?_, ⟨0, 0, by simp, by simp, by decide, by decide⟩, le_refl _, ?_, fun _ => ?_⟩
    · unfold toNumberLongDouble
      rw [number_zero _ _ neg h hlen he]
      cases neg <;> simp [signed]
    · rw [h0]; simp
    · rw [h0]; simp
  · have hVp : 0 < V := lt_of_lt_of_le (zpow_pos (by norm_num) _) h1
    obtain ⟨y, y1, y2, -, y4, y5⟩ := number_between (.inr rfl) extended neg h hlen he hV h1 h2
    have sub : (2 : ℚ) ^ (extended.emin - 1) ≤ (10 : ℚ) ^ (-4931 : ℤ) / 2 ^ 64 := by decide +kernel
    have sub' : ∀ δ, 0 ≤ δ → (2 : ℚ) ^ (extended.emin - 1) ≤ V * (1 + δ) / 2 ^ 64 := by
      intro δ hδ
      refine le_trans sub (div_le_div_of_nonneg_right ?_ (by positivity))
      exact le_trans h1 (le_mul_of_one_le_right hVp.le (by linarith))
    have p64 : (2 : ℚ) ^ extended.p = 2 ^ 64 := rfl
    obtain ⟨r, r1, r2, r3, r4⟩ := number_accuracy (F := extended) (by decide) (by decide) neg hVp y2
      (y4 rfl) (by norm_num) h2
    refine ⟨r, y1.trans r1, r2, r3, le_trans r4 ?_, fun hs => ?_⟩
    · rw [p64, max_eq_left (sub' _ (by norm_num))]
      calc _ = V * (40 / 2 ^ 64 + (1 + 40 / 2 ^ 64) / 2 ^ 64) := by ring
        _ ≤ V * ((41 + 1 / 100) / 2 ^ 64) := mul_le_mul_of_nonneg_left (by norm_num) hVp.le
        _ = _ := by ring
    · obtain ⟨r', r1', r2', r3', r4'⟩ := number_accuracy (F := extended) (by decide) (by decide) neg hVp
        y2 (y5 rfl hs) (by norm_num) h2
      have : r' = r := by
        have e := r1'.symm.trans r1
        cases neg <;> simp [signed] at e <;> exact e
      subst this
      refine le_trans r4' ?_
      rw [p64, max_eq_left (sub' _ (by norm_num))]
      calc _ = V * ((21 + 1 / 100) / 2 ^ 64 + (1 + (21 + 1 / 100) / 2 ^ 64) / 2 ^ 64) := by ring
        _ ≤ V * ((22 + 1 / 50) / 2 ^ 64) := mul_le_mul_of_nonneg_left (by norm_num) hVp.le
        _ = _ := by ring

/-- Numbers too large for float or double (but not for long double) are read as infinity. -/
theorem c87_overflow (neg : Bool) (s : Str) (n : Nat) (k e : Int) (h : FloatNumeral s n k e)
    (hlen : s.length < 2 ^ 31) (he : -2 ^ 31 < e ∧ e < 2 ^ 31) (V : ℚ) (hV : V = n * (10 : ℚ) ^ k)
    (hmax : V * (1 + 1 / 2 ^ 50) ≤ extended.max) :
    ((2 : ℚ) ^ 128 * (1 + 1 / 2 ^ 50) ≤ V → toNumberFloat (sign neg ++ s) = .ok (some (.inf neg))) ∧
    ((2 : ℚ) ^ 1024 * (1 + 1 / 2 ^ 50) ≤ V →
      toNumberDouble (sign neg ++ s) = .ok (some (.inf neg))) := by
  have main : ∀ F : Format, 1 ≤ F.p → F.emin ≤ F.emax → 0 ≤ F.p + F.emax →
      (2 : ℚ) ^ (F.p + F.emax) * (1 + 1 / 2 ^ 50) ≤ V →
      toFloatWith (ieeeFinish binary64 F) (sign neg ++ s) = .ok (some (.inf neg)) := by
    intro F hp heF h0 hV1
    have hone : (1 : ℚ) ≤ (2 : ℚ) ^ (F.p + F.emax) := one_le_zpow₀ (by norm_num) h0
    have hV2 : 1 ≤ V := by linarith
    have hVp : 0 < V := by linarith
    have ht : (10 : ℚ) ^ (-4931 : ℤ) ≤ 1 := by decide +kernel
    obtain ⟨y, y1, y2, y3, -⟩ := number_between (.inl rfl) F neg h hlen he hV (le_trans ht hV2) hmax
    rw [y1, round_inf F hp heF]
    · cases neg <;> rfl
    · rw [abs_le] at y3
      have a : (1 : ℚ) ≤ (1 + 1 / 2 ^ 50) * (1 - (2 + 1 / 50) / 2 ^ 53) := by norm_num
      have b := mul_le_mul_of_nonneg_left a (show 0 ≤ (2 : ℚ) ^ (F.p + F.emax) by linarith)
      have c := mul_le_mul_of_nonneg_right hV1 (show (0 : ℚ) ≤ 1 - (2 + 1 / 50) / 2 ^ 53 by norm_num)
      generalize (2 : ℚ) ^ (F.p + F.emax) = T at *
      linarith
  constructor
  · intro hx
    apply main binary32 (by decide) (by decide) (by decide)
    exact hx
  · intro hx
    apply main binary64 (by decide) (by decide) (by decide)
    exact hx

/-! ## C88: representable numbers -/

/-- Every numeral that denotes a float (in the specification's sense: an integer of less than 24
binary digits times a power of two, within the limits of the exponent) is read by to_number<float>
as exactly that number, however it is spelled. -/
theorem c88_float (neg : Bool) (s : Str) (n : Nat) (k e : Int) (h : FloatNumeral s n k e)
    (hlen : s.length < 2 ^ 31) (he : -2 ^ 31 < e ∧ e < 2 ^ 31) (V : ℚ) (hV : V = n * (10 : ℚ) ^ k)
    (hrep : binary32.Rep V) :
    toNumberFloat (sign neg ++ s) = .ok (some (.num (signed neg V))) := by
  have hV0 : 0 ≤ V := by rw [hV]; exact mul_nonneg (Nat.cast_nonneg _) (zpow_nonneg (by norm_num) _)
  obtain ⟨m, x, r1, r2, r3, r4⟩ := hrep
  change |m| < 2 ^ 24 at r2
  change -149 ≤ x at r3
  change x ≤ 104 at r4
  have hg : binary32.Grid V := ⟨m, x, r1, r2, r3⟩
  by_cases hz : V = 0
  · have hn : n = 0 := by
      rw [hV] at hz
      rcases mul_eq_zero.mp hz with h | h
      · exact_mod_cast h
      · exact absurd h (zpow_ne_zero _ (by norm_num))
    subst hn
    unfold toNumberFloat
    rw [number_zero _ _ neg h hlen he, hz]
    cases neg <;> simp [signed]
  · have hVp : 0 < V := lt_of_le_of_ne hV0 (Ne.symm hz)
    have hm : 1 ≤ m := by
      by_contra hc
      have : (m : ℚ) ≤ 0 := by exact_mod_cast (show m ≤ 0 by omega)
      have := mul_nonpos_of_nonpos_of_nonneg this (zpow2_pos x).le
      rw [← r1] at this
      linarith
    have hlo : (10 : ℚ) ^ (-4931 : ℤ) ≤ V := by
      have a1 : (10 : ℚ) ^ (-4931 : ℤ) ≤ (2 : ℚ) ^ (-149 : ℤ) := by decide +kernel
      have a2 : (2 : ℚ) ^ (-149 : ℤ) ≤ (2 : ℚ) ^ x := zpow2_le r3
      have a3 : (1 : ℚ) ≤ m := by exact_mod_cast hm
      rw [r1]
      exact le_trans a1 (le_trans a2 (le_mul_of_one_le_left (zpow2_pos x).le a3))
    have hmax : V ≤ binary32.max := by
      have a1 : (m : ℚ) ≤ 2 ^ 24 - 1 := by
        have : m ≤ 2 ^ 24 - 1 := by have := le_abs_self m; omega
        exact_mod_cast this
      have a2 : (2 : ℚ) ^ x ≤ (2 : ℚ) ^ (104 : ℤ) := zpow2_le r4
      rw [r1]
      exact mul_le_mul a1 a2 (zpow2_pos x).le (by decide +kernel)
    have hmm : binary32.max * (1 + 1 / 2 ^ 50) ≤ extended.max := by decide +kernel
    obtain ⟨y, y1, y2, y3, -⟩ := number_between (.inl rfl) binary32 neg h hlen he hV hlo
      (le_trans (mul_le_mul_of_nonneg_right hmax (by norm_num)) hmm)
    have hn := near_stable binary32 (by decide) hg (y := y) (by
      refine le_trans y3 ?_
      rw [abs_of_pos hVp]
      show _ ≤ V / 2 ^ 26
      rw [div_eq_mul_one_div]
      exact mul_le_mul_of_nonneg_left (by decide +kernel) hVp.le)
    unfold toNumberFloat
    rw [y1]
    unfold Format.round
    rw [hn, if_neg (by rw [abs_of_pos hVp]; exact not_lt.mpr hmax)]
    cases neg <;> rfl

/-- For double a part holds: if the denoted number V is a double and its mantissa `d` in scientific
notation is a double, too (V = d · 10^E as 2.5 · 10^7 or 5 · 10^-1), and the digits form an integer
below 2^53, it is read exactly. -/
theorem c88_double_partial (neg : Bool) (s : Str) (n : Nat) (k e : Int) (h : FloatNumeral s n k e)
    (hlen : s.length < 2 ^ 31) (he : -2 ^ 31 < e ∧ e < 2 ^ 31) (V : ℚ) (hV : V = n * (10 : ℚ) ^ k)
    (hsig : significantDigits s ≤ 19) (hn53 : n < 2 ^ 53) (hrep : binary64.Rep V)
    (d : ℚ) (E : Int) (hd : V = d * (10 : ℚ) ^ E) (hd1 : 1 ≤ d) (hd2 : d < 10)
    (hdrep : binary64.Rep d) :
    toNumberDouble (sign neg ++ s) = .ok (some (.num (signed neg V))) := by
  have tenp : ∀ x : Int, (0 : ℚ) < (10 : ℚ) ^ x := fun x => zpow_pos (by norm_num) x
  have ten : (1 : ℚ) < 10 := by norm_num
  have hVp : 0 < V := by rw [hd]; exact mul_pos (by linarith) (tenp E)
  have hn : n ≠ 0 := by
    rintro rfl
    rw [hV] at hVp
    simp at hVp
  obtain ⟨E', accu, j, hj, ha, hb, g1, g2, g3, -, -, g6, g7⟩ :=
    (numeral_digits h hlen (by unfold intMax; omega) (by unfold intMax; omega)).2 hn
  rw [← hV] at g1 g2 g6
  have hacc := g7 hsig
  subst hacc
  have g6 := g6 hsig
  have hEE : E' = E := by
    have a1 : (10 : ℚ) ^ E ≤ V := by rw [hd]; exact le_mul_of_one_le_left (tenp E).le hd1
    have a2 : V < (10 : ℚ) ^ (E + 1) := by
      rw [hd, zpow_add₀ (by norm_num), zpow_one, mul_comm]
      exact mul_lt_mul_of_pos_left hd2 (tenp E)
    have b1 := (zpow_lt_zpow_iff_right₀ ten).1 (lt_of_le_of_lt a1 g2)
    have b2 := (zpow_lt_zpow_iff_right₀ ten).1 (lt_of_le_of_lt g1 a2)
    omega
  subst hEE
  have hdq : (accu : ℚ) / 10 ^ j = d := by
    rw [hd, mul_comm] at g6
    exact mul_right_cancel₀ (tenp E').ne' g6
  -- limits
  obtain ⟨m, x, r1, r2, r3, r4⟩ := hrep
  change |m| < 2 ^ 53 at r2
  change -1074 ≤ x at r3
  change x ≤ 971 at r4
  have hg : binary64.Grid V := ⟨m, x, r1, r2, r3⟩
  have hm : 1 ≤ m := by
    by_contra hc
    have : (m : ℚ) ≤ 0 := by exact_mod_cast (show m ≤ 0 by omega)
    have := mul_nonpos_of_nonpos_of_nonneg this (zpow2_pos x).le
    rw [← r1] at this
    linarith
  have hlo : (10 : ℚ) ^ (-4931 : ℤ) ≤ V := by
    have a1 : (10 : ℚ) ^ (-4931 : ℤ) ≤ (2 : ℚ) ^ (-1074 : ℤ) := by decide +kernel
    have a2 : (2 : ℚ) ^ (-1074 : ℤ) ≤ (2 : ℚ) ^ x := zpow2_le r3
    have a3 : (1 : ℚ) ≤ m := by exact_mod_cast hm
    rw [r1]
    exact le_trans a1 (le_trans a2 (le_mul_of_one_le_left (zpow2_pos x).le a3))
  have hmax : V ≤ binary64.max := by
    have a1 : (m : ℚ) ≤ 2 ^ 53 - 1 := by
      have : m ≤ 2 ^ 53 - 1 := by have := le_abs_self m; omega
      exact_mod_cast this
    have a2 : (2 : ℚ) ^ x ≤ (2 : ℚ) ^ (971 : ℤ) := zpow2_le r4
    rw [r1]
    exact mul_le_mul a1 a2 (zpow2_pos x).le (by decide +kernel)
  have hE1 : -4931 < E' + 1 := (zpow_lt_zpow_iff_right₀ ten).1 (lt_of_le_of_lt hlo g2)
  have hE2 : E' < 4932 := by
    have t2 : binary64.max < (10 : ℚ) ^ (4932 : ℤ) := by decide +kernel
    exact (zpow_lt_zpow_iff_right₀ ten).1 (lt_of_le_of_lt g1 (lt_of_le_of_lt hmax t2))
  -- the quotient is exact
  have hmax20 : (10 : ℚ) ^ 20 ≤ binary64.max := by decide +kernel
  have hpj : (0 : ℚ) < 10 ^ j := by positivity
  have hr1 : binary64.round (accu : ℚ) = .num accu := by
    have ha : (accu : ℚ) < 2 ^ 53 := by exact_mod_cast hn53
    have hG : binary64.Grid (accu : ℚ) := by
      have := grid_int binary64 (by decide) (m := (accu : Int)) (by
        show |(accu : Int)| < 2 ^ 53
        rw [abs_of_nonneg (by omega)]
        exact_mod_cast hn53)
      simpa using this
    have hb : (2 : ℚ) ^ 53 ≤ 10 ^ 20 := by norm_num
    rw [round_num binary64 (by decide) (by decide), near_exact binary64 (by decide) hG]
    rw [abs_of_nonneg (Nat.cast_nonneg _)]
    exact le_trans ha.le (le_trans hb hmax20)
  have hr2 : binary64.round ((10 ^ j : Nat) : ℚ) = .num (10 ^ j) := by
    push_cast
    have hj18 : (10 : ℚ) ^ j ≤ 10 ^ 20 := pow_le_pow_right₀ (by norm_num) (by omega)
    rw [round_num binary64 (by decide) (by decide) (by
      rw [abs_of_pos hpj]; exact le_trans hj18 hmax20),
      near_exact binary64 (by decide) (grid_pow10 binary64 (by decide) (by decide) (by omega))]
  have hr3 : binary64.div (.num accu) (.num (10 ^ j)) = .num d := by
    unfold Format.div
    simp only [if_neg hpj.ne', hdq]
    rw [round_num binary64 (by decide) (by decide),
      near_exact binary64 (by decide) (rep_grid binary64 hdrep)]
    have : (10 : ℚ) ≤ 10 ^ 20 := by norm_num
    rw [abs_of_nonneg (by linarith)]
    exact le_trans (le_trans hd2.le this) hmax20
  -- the product
  obtain ⟨p, p1, p2⟩ := pow10_between (E := E') (by omega) (by omega)
  have hmm : binary64.max * 2 ≤ extended.max := by decide +kernel
  have hprod := p2.scale (c := d) (by linarith)
  rw [← hd] at hprod
  have hL : (1 / 2 : ℚ) ≤ (1 - u64) ^ 19 := lo_half 19 (by omega)
  have hH : (1 + u64 : ℚ) ^ 19 ≤ 2 := le_trans (hi_small 19 (by omega)) (by norm_num)
  obtain ⟨y, y1, y2⟩ := hprod.round extended (by decide) (by decide)
    (lt_of_lt_of_le (by norm_num) hL)
    (by
      have a1 : (2 : ℚ) ^ (extended.emin + extended.p - 1) ≤ 1 / 2 * (10 : ℚ) ^ (-4931 : ℤ) := by
        decide +kernel
      exact le_trans a1 (le_trans (mul_le_mul_of_nonneg_left hlo (by norm_num))
        (mul_le_mul_of_nonneg_right hL hVp.le)))
    (le_trans (mul_le_mul_of_nonneg_right hH hVp.le)
      (le_trans (by rw [mul_comm]; exact mul_le_mul_of_nonneg_right hmax (by norm_num)) hmm))
  have hy : |y - V| ≤ |V| / 2 ^ (binary64.p + 2) := by
    show |y - V| ≤ |V| / 2 ^ 55
    have b1 : (1 - 1 / 2 ^ 55 : ℚ) ≤ (1 - u64) ^ 19 * (1 - 1 / 2 ^ extended.p) := by
      show _ ≤ (1 - u64) ^ 19 * (1 - 1 / 2 ^ 64)
      norm_num
    have b2 : (1 + u64) ^ 19 * (1 + 1 / 2 ^ extended.p) ≤ (1 + 1 / 2 ^ 55 : ℚ) := by
      show (1 + u64) ^ 19 * (1 + 1 / 2 ^ 64) ≤ _
      norm_num
    have c1 := le_trans (mul_le_mul_of_nonneg_right b1 hVp.le) y2.lo
    have c2 := le_trans y2.hi (mul_le_mul_of_nonneg_right b2 hVp.le)
    rw [abs_of_pos hVp, abs_le, div_eq_mul_one_div]
    generalize (1 : ℚ) / 2 ^ 55 = u at *
    constructor <;> linarith
  have hnear := near_stable binary64 (by decide) hg hy
  unfold toNumberDouble
  rw [toFloatWith_sign _ neg s (floatNumeral_head h), g3, int32, if_pos (by unfold intMax; omega)]
  simp only [Res.bind_ok, ieeeFinish, p1, Res.map_ok, hr1, hr2, hr3, Format.mul, mul_comm p d, y1,
    Format.conv, Option.map_some]
  have hround : binary64.round y = .num V := by
    unfold Format.round
    rw [hnear, if_neg (by rw [abs_of_pos hVp]; exact not_lt.mpr hmax)]
  rw [hround]
  cases neg <;> rfl

/-- A numeral of digits only. -/
theorem digitsNumeral (s : Str) (n : Nat) (h0 : s ≠ []) (h : DecNumeral s n) :
    FloatNumeral s n 0 0 := by
  have := FloatNumeral.int (b := s) (ex := []) h0 h .none
  simpa using this

/-- Expected, but false for double: the integer 109 is read as the next larger double. -/
theorem c88_double_violated :
    ∃ s n k e, FloatNumeral s n k e ∧ (n : ℚ) * (10 : ℚ) ^ k = 109 ∧ binary64.Rep 109 ∧
      toNumberDouble s = .ok (some (.num (109 + 1 / 2 ^ 46))) := by
  refine ⟨bytes "109", 109, 0, 0, digitsNumeral _ _ (by decide) ?_, by norm_num,
    ⟨109, 0, by norm_num, by decide, by decide, by decide⟩, by decide +kernel⟩
  rw [decNumeral_iff]; exact ⟨by unfold Digits; decide, by decide⟩

/-- Expected, but false for long double: the integer 105 is read as the next smaller number. -/
theorem c88_long_double_violated :
    ∃ s n k e, FloatNumeral s n k e ∧ (n : ℚ) * (10 : ℚ) ^ k = 105 ∧ extended.Rep 105 ∧
      toNumberLongDouble s = .ok (some (.num (105 - 1 / 2 ^ 57))) := by
  refine ⟨bytes "105", 105, 0, 0, digitsNumeral _ _ (by decide) ?_, by norm_num,
    ⟨105, 0, by norm_num, by decide, by decide, by decide⟩, by decide +kernel⟩
  rw [decNumeral_iff]; exact ⟨by unfold Digits; decide, by decide⟩

/-- Numerals that meet the hypotheses: 12.5 (C87, C88 for float), 25 (C88 for double). -/
example : FloatNumeral (bytes "12.5") 125 (-1) 0 ∧ binary32.Rep (125 * (10 : ℚ) ^ (-1 : ℤ)) ∧
    toNumberFloat (sign true ++ bytes "12.5") = .ok (some (.num (-25 / 2))) := by
  refine ⟨?_, ⟨25, -1, by norm_num, by decide, by decide, by decide⟩, by decide +kernel⟩
  have b : bytes "12.5" = bytes "12" ++ [46] ++ bytes "5" ++ [] := by decide
  rw [b]
  have := FloatNumeral.point (b := bytes "12") (a := bytes "5") (ex := []) (n := 125) (by decide)
    (by rw [decNumeral_iff]; exact ⟨by unfold Digits; decide, by decide⟩) .none
  exact this

example : FloatNumeral (bytes "25") 25 0 0 ∧ (25 : ℚ) = 5 / 2 * (10 : ℚ) ^ (1 : ℤ) ∧
    binary64.Rep (5 / 2) ∧ toNumberDouble (bytes "25") = .ok (some (.num 25)) := by
  refine ⟨digitsNumeral _ _ (by decide) ?_, by norm_num,
    ⟨5, -1, by norm_num, by decide, by decide, by decide⟩, by decide +kernel⟩
  rw [decNumeral_iff]; exact ⟨by unfold Digits; decide, by decide⟩

/-- Large, subnormal and overflowing numbers. -/
example : toNumberDouble (bytes "1.1e300") = .ok (some (.num (7397360404771986 * 2 ^ 944))) ∧
    toNumberDouble (bytes "3e-324") = .ok (some (.num (1 / 2 ^ 1074))) ∧
    toNumberDouble (bytes "2e-324") = .ok (some (.num 0)) ∧
    toNumberFloat (bytes "-1e39") = .ok (some (.inf true)) := by decide +kernel

example : toNumberDouble (bytes "109") = .ok (some (.num (109 + 1 / 2 ^ 46))) := by decide +kernel
example : toNumberDouble (bytes "0.1") = .ok (some (.num (3602879701896397 / 2 ^ 55))) := by
  decide +kernel
example : toNumberFloat (bytes "109") = .ok (some (.num 109)) := by decide +kernel
example : toNumberDouble (bytes "1e-320") = .ok (some (.num (2024 / 2 ^ 1074))) := by
  decide +kernel
example : toNumberLongDouble (bytes "105") ≠ .ok (some (.num 105)) := by decide +kernel

end Gul14.ToNumber
