import Verif.ToNumber.IeeeProps

/-!
# Floating-point numbers written by cat (C15) and read by to_number (C120)

A floating-point number is its sign `neg` and its magnitude.
-/
namespace Gul14.ToNumber
open Gul14.Ieee Gul14.Spec Gul14.Text

theorem lastDigits_spec {s : Str} {a : Nat} (h : DecNumeral s a) (w : Nat) : ∀ n,
    DecNumeral (s ++ lastDigits w n) (a * 10 ^ w + n % 10 ^ w) ∧ (lastDigits w n).length = w := by
  induction w with
  | zero => intro n; simpa [lastDigits, Nat.mod_one] using h
  | succ w ih =>
    intro n
    obtain ⟨h1, h2⟩ := ih (n / 10)
    have hc : (UInt8.ofNat (48 + n % 10)).toNat = 48 + n % 10 := by
      rw [UInt8.toNat_ofNat']; omega
    refine ⟨?_, by simp [lastDigits, h2]⟩
    have := DecNumeral.snoc (c := UInt8.ofNat (48 + n % 10)) h1 (by omega) (by omega)
    rw [hc] at this
    rw [lastDigits, ← List.append_assoc]
    have e : a * 10 ^ (w + 1) + n % 10 ^ (w + 1) = 10 * (a * 10 ^ w + n / 10 % 10 ^ w) + (48 + n % 10 - 48) := by
      rw [show 10 ^ (w + 1) = 10 * 10 ^ w by rw [pow_succ]; ring, Nat.mod_mul]
      have : a * (10 * 10 ^ w) = 10 * (a * 10 ^ w) := by ring
      omega
    rw [e]
    exact this

theorem decNat_length (fuel : Nat) : ∀ n k, 0 < k → n < 10 ^ k → (decNat fuel n).length ≤ k := by
  induction fuel with
  | zero => intro n k _ _; simp [decNat]
  | succ f ih =>
    intro n k hk hn
    unfold decNat
    split
    · simp only [List.length_singleton]; omega
    · obtain ⟨k, rfl⟩ := Nat.exists_eq_add_of_lt hk
      simp only [Nat.zero_add] at hn ⊢
      have hk0 : 0 < k := by
        rcases Nat.eq_zero_or_pos k with rfl | h
        · simp at hn; omega
        · exact h
      have := ih (n / 10) k hk0 (by rw [Nat.pow_succ] at hn; omega)
      simp only [List.length_append, List.length_singleton]
      omega

/-- Nothing before the first digit but a zero alone. -/
theorem decNat_head (fuel : Nat) : ∀ n, n < fuel → 0 < n → ∃ c t, decNat fuel n = c :: t ∧ c ≠ 48 := by
  induction fuel with
  | zero => intro n h _; omega
  | succ f ih =>
    intro n h h0
    unfold decNat
    split
    · rename_i h10
      refine ⟨_, _, rfl, fun e => ?_⟩
      have := congrArg UInt8.toNat e
      rw [UInt8.toNat_ofNat'] at this
      simp at this
      omega
    · obtain ⟨c, t, e, hc⟩ := ih (n / 10) (by omega) (by omega)
      exact ⟨c, t ++ [UInt8.ofNat (48 + n % 10)], by rw [e]; rfl, hc⟩

/-- The text of a number. -/
theorem fixed_parts {q : ℚ} (hq : 0 ≤ q) : ∃ (b a : Str) (n : Nat), fixedText (.num q) = b ++ [46] ++ a ∧ b ≠ [] ∧
    (b = [48] ∨ b.head? ≠ some 48) ∧ a.length = 6 ∧ DecNumeral (b ++ a) n ∧ (n : Int) = roundInt (q * 1000000) ∧
    ∀ k, 6 < k → n < 10 ^ k → b.length ≤ k := by
  have h0 : 0 ≤ roundInt (q * 1000000) := by
    have h1 := roundInt_err (q * 1000000)
    rw [abs_le] at h1
    have h2 : (0 : ℚ) ≤ q * 1000000 := by positivity
    have h3 : (-1 : ℚ) < roundInt (q * 1000000) := by linarith [h1.1]
    have : (-1 : Int) < roundInt (q * 1000000) := by exact_mod_cast h3
    omega
  generalize hN : (roundInt (q * 1000000)).toNat = N
  have hd := decNat_spec (N / 1000000 + 1) (N / 1000000) (by omega)
  have hl := lastDigits_spec hd.1 6 (N % 1000000)
  refine ⟨decNat (N / 1000000 + 1) (N / 1000000), lastDigits 6 (N % 1000000), N, ?_, hd.2, ?_, hl.2, ?_, by omega, ?_⟩
  · simp only [fixedText, hN]
  · rcases Nat.eq_zero_or_pos (N / 1000000) with h | h
    · left; rw [h]; rfl
    · right
      obtain ⟨c, t, e, hc⟩ := decNat_head (N / 1000000 + 1) (N / 1000000) (by omega) h
      rw [e]
      simpa using hc
  · have e : N / 1000000 * 10 ^ 6 + N % 1000000 % 10 ^ 6 = N := by norm_num; omega
    rw [e] at hl
    exact hl.1
  · intro k hk hn
    have := decNat_length (N / 1000000 + 1) (N / 1000000) k (by omega) (by omega)
    exact this

/-- C15 for floating-point arguments: a minus sign if the sign bit is set, at least one digit without superfluous zeros, the decimal point
and six digits.  They denote a multiple `n / 1000000` of a millionth, and no other multiple is nearer to the number. -/
theorem c15_float_text (neg : Bool) (q : ℚ) (hq : 0 ≤ q) : ∃ (b a : Str) (n : Nat),
    cat [.flt neg (.num q)] = sign neg ++ (b ++ [46] ++ a) ∧ b ≠ [] ∧ (b = [48] ∨ b.head? ≠ some 48) ∧ a.length = 6 ∧
      DecNumeral (b ++ a) n ∧ ∀ m : Int, |(n : ℚ) / 1000000 - q| ≤ |(m : ℚ) / 1000000 - q| := by
  obtain ⟨b, a, n, h1, h2, h3, h4, h5, h6, -⟩ := fixed_parts hq
  refine ⟨b, a, n, ?_, h2, h3, h4, h5, fun m => ?_⟩
  · show (if neg then 45 :: fixedText (.num q) else fixedText (.num q)) = _
    rw [h1]
    cases neg <;> rfl
  · have h := roundInt_nearest (q * 1000000) m
    rw [← h6] at h
    have e : ∀ x : ℚ, |x / 1000000 - q| = |x - q * 1000000| / 1000000 := by
      intro x
      rw [show x / 1000000 - q = (x - q * 1000000) / 1000000 by field_simp, abs_div]
      norm_num
    rw [e, e]
    exact div_le_div_of_nonneg_right (by exact_mod_cast h) (by norm_num)

/-- The text as a numeral. -/
theorem fixed_numeral (neg : Bool) {q : ℚ} (hq : 0 ≤ q) (hm : q ≤ 2 ^ 1024) : ∃ (s : Str) (n : Nat),
    cat [.flt neg (.num q)] = sign neg ++ s ∧ FloatNumeral s n (-6) 0 ∧ s.length < 2 ^ 31 ∧ (n : Int) = roundInt (q * 1000000) := by
  obtain ⟨b, a, n, h1, h2, -, h4, h5, h6, h7⟩ := fixed_parts hq
  refine ⟨b ++ [46] ++ a, n, ?_, ?_, ?_, h6⟩
  · show (if neg then 45 :: fixedText (.num q) else fixedText (.num q)) = _
    rw [h1]
    cases neg <;> rfl
  · have := FloatNumeral.point (b := b) (a := a) (ex := []) (by simp [h2]) h5 .none
    rw [h4] at this
    simpa using this
  · have hn : n < 10 ^ 316 := by
      have e := roundInt_err (q * 1000000)
      rw [← h6, abs_le] at e
      have : (n : ℚ) ≤ 2 ^ 1024 * 1000000 + 1 := by
        have := e.2
        push_cast at this
        linarith
      have h' : (n : ℚ) < 10 ^ 316 := lt_of_le_of_lt this (by decide +kernel)
      exact_mod_cast h'
    have := h7 316 (by omega) hn
    simp only [List.length_append, List.length_singleton, h4]
    omega

/-- The value of the text. -/
theorem fixed_value {q : ℚ} {n : Nat} (h : (n : Int) = roundInt (q * 1000000)) :
    |(n : ℚ) * (10 : ℚ) ^ (-6 : ℤ) - q| ≤ 1 / 2000000 ∧ (n : ℚ) * (10 : ℚ) ^ (-6 : ℤ) = n / 1000000 := by
  have e := roundInt_err (q * 1000000)
  rw [← h] at e
  push_cast at e
  have h6 : (10 : ℚ) ^ (-6 : ℤ) = 1 / 1000000 := by norm_num
  rw [h6]
  rw [abs_le] at e
  refine ⟨abs_le.mpr ⟨by linarith [e.1], by linarith [e.2]⟩, by ring⟩

/-- All but the ten largest doubles. -/
theorem double_below (neg : Bool) (q : ℚ) (hq : 0 ≤ q) (hm : q ≤ (2 ^ 53 - 10) * 2 ^ 971) :
    ∃ r, toNumberDouble (cat [.flt neg (.num q)]) = .ok (some (.num (signed neg r))) ∧ binary64.Rep r ∧ 0 ≤ r ∧
      |r - q| ≤ 51 / 100000000 + q / 2 ^ 51 := by
  obtain ⟨s, n, h1, h2, h3, h4⟩ := fixed_numeral neg hq (le_trans hm (by decide +kernel))
  obtain ⟨v1, v2⟩ := fixed_value h4
  rw [v2] at v1
  have v1' := abs_le.mp v1
  have hV : (n : ℚ) / 1000000 = 0 ∨ 1 / 1000000 ≤ (n : ℚ) / 1000000 := by
    rcases Nat.eq_zero_or_pos n with h | h
    · left; simp [h]
    · right
      have : (1 : ℚ) ≤ n := by exact_mod_cast h
      linarith
  obtain ⟨r, r1, r2, r3, r4⟩ := c87_double neg s n (-6) 0 h2 h3 (by norm_num) (n / 1000000) v2.symm (by
    rcases hV with h | h
    · exact Or.inl h
    · refine Or.inr ⟨le_trans (by decide +kernel) h, ?_⟩
      have hmx : (((2 : ℚ) ^ 53 - 10) * 2 ^ 971 + 1) * (1 + 1 / 2 ^ 50) ≤ binary64.max := by decide +kernel
      generalize ((2 : ℚ) ^ 53 - 10) * 2 ^ 971 = B at *
      refine le_trans (mul_le_mul_of_nonneg_right ?_ (by norm_num)) hmx
      linarith [v1'.2])
  refine ⟨r, by rw [h1]; exact r1, r2, r3, ?_⟩
  generalize (n : ℚ) / 1000000 = V at *
  have hr : |r - V| ≤ V * (304 / 100) / 2 ^ 53 + 1 / 2 ^ 1075 := by
    have hV0 : 0 ≤ V := by rcases hV with h | h <;> linarith
    have : Max.max (V / 2 ^ 53) (1 / 2 ^ 1075) ≤ V / 2 ^ 53 + 1 / 2 ^ 1075 :=
      max_le (by linarith [show (0 : ℚ) ≤ 1 / 2 ^ 1075 by positivity]) (by linarith [show (0 : ℚ) ≤ V / 2 ^ 53 by positivity])
    have h3 : V * (203 / 100) / 2 ^ 53 + V / 2 ^ 53 ≤ V * (304 / 100) / 2 ^ 53 := by
      have : (0 : ℚ) ≤ V / 2 ^ 53 := by positivity
      have e1 : V * (203 / 100) / 2 ^ 53 = V / 2 ^ 53 * (203 / 100) := by ring
      have e2 : V * (304 / 100) / 2 ^ 53 = V / 2 ^ 53 * (304 / 100) := by ring
      rw [e1, e2]
      linarith
    linarith
  have htiny : (1 : ℚ) / 2 ^ 1075 ≤ 1 / 2 ^ 60 := by
    apply one_div_le_one_div_of_le (by positivity)
    exact pow_le_pow_right₀ (by norm_num) (by norm_num)
  have hVq : V ≤ q + 1 / 2000000 := by linarith [v1'.2]
  calc |r - q| ≤ |r - V| + |V - q| := abs_sub_le _ _ _
    _ ≤ V * (304 / 100) / 2 ^ 53 + 1 / 2 ^ 60 + 1 / 2000000 := by linarith
    _ ≤ (q + 1 / 2000000) * (304 / 100) / 2 ^ 53 + 1 / 2 ^ 60 + 1 / 2000000 := by
      have : (V * (304 / 100) / 2 ^ 53 : ℚ) ≤ (q + 1 / 2000000) * (304 / 100) / 2 ^ 53 :=
        div_le_div_of_nonneg_right (by linarith) (by positivity)
      linarith
    _ ≤ 51 / 100000000 + q / 2 ^ 51 := by
      have e1 : (q + 1 / 2000000) * (304 / 100) / 2 ^ 53 = q * (304 / 100 / 2 ^ 53) + 1 / 2000000 * (304 / 100) / 2 ^ 53 := by ring
      have e2 : q * (304 / 100 / 2 ^ 53) ≤ q / 2 ^ 51 := by
        rw [div_eq_mul_inv q]
        exact mul_le_mul_of_nonneg_left (by norm_num) hq
      rw [e1]
      have : (1 : ℚ) / 2000000 * (304 / 100) / 2 ^ 53 + 1 / 2 ^ 60 + 1 / 2000000 ≤ 51 / 100000000 := by norm_num
      linarith

/-- What becomes of the `i`th double from above: it is one of its neighbours or itself. -/
def topCheck (neg : Bool) (i : Nat) (r : Int) : Bool :=
  toNumberDouble (cat [.flt neg (.num ((2 ^ 53 - 1 - i : Int) * 2 ^ 971))]) ==
    .ok (some (.num (signed neg ((2 ^ 53 - 1 - i + r : Int) * 2 ^ 971))))

/-- By how many units the ten largest doubles change. -/
def topChange (i : Nat) : Int := [0, 0, 0, 0, 1, 1, 0, -1, -1, 0].getD i 0

theorem topCheck_all : ((List.range 10).all fun i => topCheck false i (topChange i) && topCheck true i (topChange i)) = true := by
  decide +kernel

/-- The ten largest doubles come back almost unchanged. -/
theorem double_top (neg : Bool) (i : Nat) (hi : i < 10) : ∃ r : Int, |r| ≤ 1 ∧ 2 ^ 53 - 1 - (i : Int) + r < 2 ^ 53 ∧
    topCheck neg i r = true := by
  have h := List.all_eq_true.mp topCheck_all i (List.mem_range.mpr hi)
  rw [Bool.and_eq_true] at h
  have hr : |topChange i| ≤ 1 ∧ topChange i ≤ i := by
    have : ∀ i : Nat, i < 10 → |topChange i| ≤ 1 ∧ topChange i ≤ i := by decide
    exact this i hi
  refine ⟨topChange i, hr.1, by omega, ?_⟩
  cases neg
  · exact h.1
  · exact h.2

/-- C120.  A double that is written by cat and read by to_number changes by hardly more than half a millionth, and by four units in the last place. -/
theorem c120_double (neg : Bool) (q : ℚ) (hq : 0 ≤ q) (hr : binary64.Rep q) :
    ∃ r, toNumberDouble (cat [.flt neg (.num q)]) = .ok (some (.num (signed neg r))) ∧ binary64.Rep r ∧ 0 ≤ r ∧
      |r - q| ≤ 51 / 100000000 + q / 2 ^ 51 := by
  by_cases hm : q ≤ (2 ^ 53 - 10) * 2 ^ 971
  · exact double_below neg q hq hm
  obtain ⟨m, e, e1, e2, e3, e4⟩ := hr
  change |m| < 2 ^ 53 at e2
  change e ≤ 971 at e4
  have hm2 := (abs_lt.mp e2).2
  have he : e = 971 := by
    by_contra hne
    apply hm
    have h1 : (m : ℚ) ≤ 2 ^ 53 := by exact_mod_cast hm2.le
    have h2 : (2 : ℚ) ^ e ≤ 2 ^ (970 : ℤ) := zpow_le_zpow_right₀ (by norm_num) (by omega)
    rw [e1]
    calc (m : ℚ) * 2 ^ e ≤ 2 ^ 53 * 2 ^ e := mul_le_mul_of_nonneg_right h1 (by positivity)
      _ ≤ 2 ^ 53 * 2 ^ (970 : ℤ) := mul_le_mul_of_nonneg_left h2 (by positivity)
      _ ≤ _ := by decide +kernel
  subst he
  have hm1 : 2 ^ 53 - 10 < m := by
    by_contra hle
    apply hm
    rw [e1]
    have : (m : ℚ) ≤ 2 ^ 53 - 10 := by exact_mod_cast not_lt.mp hle
    exact mul_le_mul_of_nonneg_right this (by positivity)
  obtain ⟨i, hi⟩ : ∃ i : Nat, m = 2 ^ 53 - 1 - i := ⟨(2 ^ 53 - 1 - m).toNat, by omega⟩
  obtain ⟨r, r1, r2, r3⟩ := double_top neg i (by omega)
  unfold topCheck at r3
  replace r3 := eq_of_beq r3
  rw [hi] at e1
  rw [e1]
  have hr1 := abs_le.mp r1
  have hz : (2 : ℚ) ^ (971 : ℤ) = 2 ^ 971 := by rw [← zpow_natCast]; rfl
  rw [hz]
  refine ⟨_, r3, ⟨2 ^ 53 - 1 - i + r, 971, by rw [hz], ?_, by decide, le_refl _⟩, ?_, ?_⟩
  · change |(2 ^ 53 - 1 - i + r : Int)| < 2 ^ 53
    rw [abs_lt]; omega
  · apply mul_nonneg _ (by positivity)
    have : (0 : Int) ≤ 2 ^ 53 - 1 - i + r := by omega
    exact_mod_cast this
  · have hr' : |(r : ℚ)| ≤ 1 := by exact_mod_cast r1
    have hb : (4 : ℚ) ≤ (2 ^ 53 - 1 - i : Int) / 2 ^ 51 * 2 := by
      have : (2 ^ 53 - 10 : Int) < 2 ^ 53 - 1 - i := by omega
      have h' : ((2 ^ 53 - 10 : Int) : ℚ) < ((2 ^ 53 - 1 - i : Int) : ℚ) := by exact_mod_cast this
      generalize ((2 ^ 53 - 1 - i : Int) : ℚ) = M at *
      norm_num at h' ⊢
      linarith
    have hp : (0 : ℚ) < 2 ^ 971 := by positivity
    generalize (2 : ℚ) ^ 971 = U at *
    have e5 : (2 ^ 53 - 1 - i + r : Int) * U - (2 ^ 53 - 1 - i : Int) * U = r * U := by push_cast; ring
    rw [e5, abs_mul, abs_of_pos hp]
    have e6 : ((2 ^ 53 - 1 - i : Int) : ℚ) * U / 2 ^ 51 = (2 ^ 53 - 1 - i : Int) / 2 ^ 51 * U := by ring
    rw [e6]
    have h1 := mul_le_mul_of_nonneg_right hr' hp.le
    have h2 : (1 : ℚ) ≤ ((2 ^ 53 - 1 - i : Int) : ℚ) / 2 ^ 51 := by linarith
    have h3 := mul_le_mul_of_nonneg_right h2 hp.le
    linarith

/-- Floats up to 2^127. -/
theorem float_below (neg : Bool) (q : ℚ) (hq : 0 ≤ q) (hm : q ≤ 2 ^ 127) :
    ∃ r, toNumberFloat (cat [.flt neg (.num q)]) = .ok (some (.num (signed neg r))) ∧ binary32.Rep r ∧ 0 ≤ r ∧
      |r - q| ≤ 51 / 100000000 + q / 2 ^ 23 := by
  obtain ⟨s, n, h1, h2, h3, h4⟩ := fixed_numeral neg hq (le_trans hm (by decide +kernel))
  obtain ⟨v1, v2⟩ := fixed_value h4
  rw [v2] at v1
  have v1' := abs_le.mp v1
  have hV : (n : ℚ) / 1000000 = 0 ∨ 1 / 1000000 ≤ (n : ℚ) / 1000000 := by
    rcases Nat.eq_zero_or_pos n with h | h
    · left; simp [h]
    · right
      have : (1 : ℚ) ≤ n := by exact_mod_cast h
      linarith
  obtain ⟨r, r1, r2, r3, r4⟩ := c87_float neg s n (-6) 0 h2 h3 (by norm_num) (n / 1000000) v2.symm (by
    rcases hV with h | h
    · exact Or.inl h
    · refine Or.inr ⟨le_trans (by decide +kernel) h, ?_⟩
      have hb : (2 : ℚ) ^ 127 + 1 ≤ 2 ^ 127 * (1 + 1 / 8) := by decide +kernel
      have hmx : (2 : ℚ) ^ 127 * (1 + 1 / 4) ≤ binary32.max := by decide +kernel
      generalize (2 : ℚ) ^ 127 = B at *
      linarith [v1'.2])
  refine ⟨r, by rw [h1]; exact r1, r2, r3, ?_⟩
  generalize (n : ℚ) / 1000000 = V at *
  have hV0 : 0 ≤ V := by rcases hV with h | h <;> linarith
  have hr : |r - V| ≤ V * (101 / 100) / 2 ^ 24 + 1 / 2 ^ 150 := by
    have : Max.max (V / 2 ^ 24) (1 / 2 ^ 150) ≤ V / 2 ^ 24 + 1 / 2 ^ 150 :=
      max_le (by linarith [show (0 : ℚ) ≤ 1 / 2 ^ 150 by positivity]) (by linarith [show (0 : ℚ) ≤ V / 2 ^ 24 by positivity])
    have h3 : V / 2 ^ 51 + V / 2 ^ 24 ≤ V * (101 / 100) / 2 ^ 24 := by
      rw [div_eq_mul_inv, div_eq_mul_inv, mul_div_assoc, ← mul_add]
      exact mul_le_mul_of_nonneg_left (by norm_num) hV0
    linarith
  have hVq : V ≤ q + 1 / 2000000 := by linarith [v1'.2]
  calc |r - q| ≤ |r - V| + |V - q| := abs_sub_le _ _ _
    _ ≤ V * (101 / 100) / 2 ^ 24 + 1 / 2 ^ 150 + 1 / 2000000 := by linarith
    _ ≤ (q + 1 / 2000000) * (101 / 100) / 2 ^ 24 + 1 / 2 ^ 150 + 1 / 2000000 := by
      have : (V * (101 / 100) / 2 ^ 24 : ℚ) ≤ (q + 1 / 2000000) * (101 / 100) / 2 ^ 24 :=
        div_le_div_of_nonneg_right (by linarith) (by positivity)
      linarith
    _ ≤ 51 / 100000000 + q / 2 ^ 23 := by
      have e1 : (q + 1 / 2000000) * (101 / 100) / 2 ^ 24 = q * (101 / 100 / 2 ^ 24) + 1 / 2000000 * (101 / 100) / 2 ^ 24 := by ring
      have e2 : q * (101 / 100 / 2 ^ 24) ≤ q / 2 ^ 23 := by
        rw [div_eq_mul_inv q]
        exact mul_le_mul_of_nonneg_left (by norm_num) hq
      rw [e1]
      have : (1 : ℚ) / 2000000 * (101 / 100) / 2 ^ 24 + 1 / 2 ^ 150 + 1 / 2000000 ≤ 51 / 100000000 := by norm_num
      linarith

/-- A float with at most six digits after the decimal point, for example a whole number, comes back unchanged. -/
theorem c120_float_exact (neg : Bool) (q : ℚ) (hq : 0 ≤ q) (hr : binary32.Rep q) (k : Int) (hk : q = k / 1000000) :
    toNumberFloat (cat [.flt neg (.num q)]) = .ok (some (.num (signed neg q))) := by
  have hm : q ≤ 2 ^ 1024 := by
    obtain ⟨m, e, e1, e2, e3, e4⟩ := hr
    change |m| < 2 ^ 24 at e2
    change e ≤ 104 at e4
    rw [e1]
    have h1 : (m : ℚ) ≤ 2 ^ 24 := by
      have : m ≤ 2 ^ 24 := by have := abs_lt.mp e2; omega
      exact_mod_cast this
    have h2 : (2 : ℚ) ^ e ≤ 2 ^ (104 : ℤ) := zpow_le_zpow_right₀ (by norm_num) e4
    calc (m : ℚ) * 2 ^ e ≤ 2 ^ 24 * 2 ^ e := mul_le_mul_of_nonneg_right h1 (by positivity)
      _ ≤ 2 ^ 24 * 2 ^ (104 : ℤ) := mul_le_mul_of_nonneg_left h2 (by positivity)
      _ ≤ 2 ^ 1024 := by decide +kernel
  obtain ⟨s, n, h1, h2, h3, h4⟩ := fixed_numeral neg hq hm
  have hn : (n : Int) = k := by
    rw [h4, hk, show (k : ℚ) / 1000000 * 1000000 = k by field_simp, roundInt_int]
  have hV : q = n * (10 : ℚ) ^ (-6 : ℤ) := by
    rw [(fixed_value h4).2, hk, ← hn]
    push_cast
    rfl
  rw [h1]
  exact c88_float neg s n (-6) 0 h2 h3 (by norm_num) q hV hr

/-- C120 for float: larger ones are whole numbers. -/
theorem c120_float (neg : Bool) (q : ℚ) (hq : 0 ≤ q) (hr : binary32.Rep q) :
    ∃ r, toNumberFloat (cat [.flt neg (.num q)]) = .ok (some (.num (signed neg r))) ∧ binary32.Rep r ∧ 0 ≤ r ∧
      |r - q| ≤ 51 / 100000000 + q / 2 ^ 23 := by
  by_cases hm : q ≤ 2 ^ 127
  · exact float_below neg q hq hm
  have hint : ∃ k : Int, q = k := by
    obtain ⟨m, e, e1, e2, e3, e4⟩ := hr
    change |m| < 2 ^ 24 at e2
    have he : 0 ≤ e := by
      by_contra hne
      apply hm
      have h1 : (m : ℚ) ≤ 2 ^ 24 := by exact_mod_cast (abs_lt.mp e2).2.le
      have h2 : (2 : ℚ) ^ e ≤ 2 ^ (0 : ℤ) := zpow_le_zpow_right₀ (by norm_num) (by omega)
      rw [e1]
      calc (m : ℚ) * 2 ^ e ≤ 2 ^ 24 * 2 ^ e := mul_le_mul_of_nonneg_right h1 (by positivity)
        _ ≤ 2 ^ 24 * 2 ^ (0 : ℤ) := mul_le_mul_of_nonneg_left h2 (by positivity)
        _ ≤ _ := by norm_num
    obtain ⟨n, hn⟩ := grid_multiple (e := e) (q := 0) m he
    exact ⟨n, by rw [e1, hn]; simp⟩
  obtain ⟨k, hk⟩ := hint
  refine ⟨q, c120_float_exact neg q hq hr (k * 1000000) (by rw [hk]; push_cast; ring), hr, hq, ?_⟩
  rw [sub_self, abs_zero]
  positivity

/-- Infinities and not-a-number come back. -/
theorem c120_inf_nan (neg : Bool) :
    toNumberDouble (cat [.flt neg .inf]) = .ok (some (.inf neg)) ∧ toNumberFloat (cat [.flt neg .inf]) = .ok (some (.inf neg)) ∧
    toNumberDouble (cat [.flt neg .nan]) = .ok (some .nan) ∧ toNumberFloat (cat [.flt neg .nan]) = .ok (some .nan) := by
  cases neg <;> decide +kernel

/-- The texts of infinities and of NaN (whose sign bit is written as well). -/
theorem c15_inf_nan_text (neg : Bool) :
    cat [.flt neg .inf] = sign neg ++ bytes "inf" ∧ cat [.flt neg .nan] = sign neg ++ bytes "nan" := by
  cases neg <;> decide +kernel

/-- Text of numbers: a tie goes to the even digit. -/
example : cat [.flt false (.num (27 / 2)), .str (bytes " "), .flt true (.num 0), .str (bytes " "), .flt false (.num (5 / 128))] =
    bytes "13.500000 -0.000000 0.039062" := by decide +kernel

/-- A float that comes back, and one that is too small. -/
example : binary32.Rep (27 / 2) ∧ toNumberFloat (cat [.flt true (.num (27 / 2))]) = .ok (some (.num (-27 / 2))) ∧
    toNumberFloat (cat [.flt false (.num (1 / 2 ^ 30))]) = .ok (some (.num 0)) :=
  ⟨⟨27, -1, by norm_num, by decide, by decide, by decide⟩, by decide +kernel, by decide +kernel⟩

end Gul14.ToNumber
