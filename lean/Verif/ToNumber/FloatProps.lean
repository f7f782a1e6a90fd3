import Verif.ToNumber.Props
import Mathlib.Tactic.FieldSimp

/-! Property theorems C17. -/

namespace Gul14.ToNumber
open Gul14.Spec Gul14.SV Gul14.Substring

/-- Pieces of a numeral. -/
theorem floatNumeral_pieces {s n k e} (h : FloatNumeral s n k e) :
    ∃ b a ex, b ++ a ≠ [] ∧ DecNumeral (b ++ a) n ∧ ExpPart ex e ∧ k = e - a.length ∧
      ((s = b ++ ex ∧ a = []) ∨ s = b ++ [46] ++ a ++ ex) := by
  cases h with
  | @int b ex _ _ h1 h2 h3 => exact ⟨b, [], ex, by simpa, by simpa, h3, by simp, .inl ⟨rfl, rfl⟩⟩
  | @point b a ex _ _ h1 h2 h3 => exact ⟨b, a, ex, h1, h2, h3, rfl, .inr rfl⟩

/-- On a numeral the reader sees its digits, its exponent and nothing else. -/
theorem toUnsignedFloat_numeral (fin : Finish) {s n k e} (h : FloatNumeral s n k e) (hlen : s.length < 2 ^ 31)
    (he1 : -intMax ≤ e) (he2 : e ≤ intMax) :
    ∃ b a, b ++ a ≠ [] ∧ DecNumeral (b ++ a) n ∧ k = e - a.length ∧ (b ++ a).length < 2 ^ 31 ∧
      (mantissaPart s).erase 46 = b ++ a ∧ toUnsignedFloatWith fin s = core fin b a e := by
  obtain ⟨b, a, ex, h1, h2, h3, h4, h5⟩ := floatNumeral_pieces h
  have hmax : s.length < npos := by
    have : (2 : Nat) ^ 31 < npos := by decide
    omega
  have hD := (decNumeral_iff _ _).1 h2
  have hdig : ∀ c ∈ b ++ a, isDigit c = true := hD.1
  have n46 : isDigit 46 = false := by decide
  have hb46 : 46 ∉ b := fun hm => by
    have := hdig 46 (by simp [hm]); rw [n46] at this; simp at this
  have ha46 : 46 ∉ a := fun hm => by
    have := hdig 46 (by simp [hm]); rw [n46] at this; simp at this
  have hmp : ∃ m, s = m ++ ex ∧ ((m = b ∧ a = []) ∨ m = b ++ [46] ++ a) := by
    rcases h5 with ⟨h5, h6⟩ | h5
    · exact ⟨b, h5, .inl ⟨rfl, h6⟩⟩
    · exact ⟨b ++ [46] ++ a, h5, .inr rfl⟩
  obtain ⟨m, hs, hm⟩ := hmp
  have hmd : ∀ c ∈ m, c = 46 ∨ isDigit c = true := by
    intro c hc
    rcases hm with ⟨rfl, rfl⟩ | rfl
    · exact .inr (hdig c (by simp [hc]))
    · simp at hc
      rcases hc with hc | rfl | hc
      · exact .inr (hdig c (by simp [hc]))
      · exact .inl rfl
      · exact .inr (hdig c (by simp [hc]))
  have hmant : mantissaPart s = m := by rw [hs]; exact mantissaPart_numeral m ex e hmd h3
  have hin : parseInfNan s = none := by
    have hmne : m ≠ [] := by
      rcases hm with ⟨rfl, rfl⟩ | rfl
      · simpa using h1
      · simp
    match m, hmne with
    | c :: m', _ =>
      rw [hs, List.cons_append]
      exact parseInfNan_numeral c _ (hmd c (by simp))
  obtain ⟨ex', hs', hcases⟩ := toUnsignedFloat_cases fin s hmax hin
  rw [hmant] at hs' hcases
  have hex : ex' = ex := by
    have : m ++ ex' = m ++ ex := by rw [← hs', ← hs]
    exact List.append_cancel_left this
  subst hex
  have hml : m.length < npos := by
    have := congrArg List.length hs
    simp at this; omega
  obtain ⟨b', a', g1, g2, g3⟩ := mantissa_split fin m e hml
  have hba : b' = b ∧ a' = a := by
    rcases hm with ⟨rfl, rfl⟩ | hm
    · rcases g2 with ⟨g2, g2'⟩ | g2
      · exact ⟨g2.symm, g2'⟩
      · exfalso; apply hb46; rw [g2]; simp
    · rcases g2 with ⟨g2, g2'⟩ | g2
      · have e1 : m.erase 46 = b ++ a := by
          rw [hm, List.append_assoc, List.erase_append_right _ hb46]; simp
        rw [g1, ← g2, g2'] at e1
        exfalso
        have := congrArg List.length e1
        rw [hm] at this
        simp at this
      · have e1 : m.erase 46 = b ++ a := by
          rw [hm, List.append_assoc, List.erase_append_right _ hb46]; simp
        rw [g1] at e1
        have hb'46 : 46 ∉ b' := by
          intro hmem
          have : (46 : UInt8) ∈ b ++ a := by rw [← e1]; simp [hmem]
          simp at this
          rcases this with h | h
          · exact hb46 h
          · exact ha46 h
        have e2 : b' ++ (46 :: a') = b ++ (46 :: a) := by
          rw [hm] at g2; simpa using g2.symm
        have hl : b'.length = b.length := by
          have t1 : ∀ (x y : Str), 46 ∉ x → (x ++ 46 :: y).takeWhile (fun c => c ≠ 46) = x := by
            intro x y hx
            rw [List.takeWhile_append_of_pos]
            · simp
            · intro c hc
              simp only [decide_eq_true_eq]
              rintro rfl; exact hx hc
          rw [← t1 b' a' hb'46, e2, t1 b a hb46]
        have := List.append_inj e2 hl
        simp at this
        exact this
  obtain ⟨rfl, rfl⟩ := hba
  refine ⟨b', a', h1, h2, h4, ?_, by rw [hmant]; exact g1, ?_⟩
  · have e1 := List.length_erase_le (a := (46 : UInt8)) (l := m)
    rw [g1] at e1
    have := congrArg List.length hs
    simp at this e1 ⊢
    omega
  · rcases hcases with ⟨e', k1, k2, k3, k4⟩ | ⟨k1, k2⟩
    · rw [k4, ← expPart_unique h3 e' k1, g3]
    · have := k2 e h3
      omega

/-! ### Results for the unsigned part -/

/-- What the reader hands to the final arithmetic: the decimal exponent and up to 19 leading
digits, with a value that is smaller than that of the numeral by less than one part in 10^18. -/
theorem numeral_digits {s n k e} (h : FloatNumeral s n k e) (hlen : s.length < 2 ^ 31)
    (he1 : -intMax ≤ e) (he2 : e ≤ intMax) :
    (n = 0 → ∀ fin, toUnsignedFloatWith fin s = .ok (some (.num 0))) ∧
    (n ≠ 0 → ∃ (E : Int) (accu j : Nat), j ≤ 18 ∧ 10 ^ j ≤ accu ∧ accu < 10 ^ (j + 1) ∧
      (10 : ℚ) ^ E ≤ n * (10 : ℚ) ^ k ∧ n * (10 : ℚ) ^ k < (10 : ℚ) ^ (E + 1) ∧
      (∀ fin, toUnsignedFloatWith fin s =
        (int32 E).bind fun E => (fin E accu (10 ^ j)).map some) ∧
      (10 : ℚ) ^ E * ((accu : ℚ) / 10 ^ j) ≤ n * (10 : ℚ) ^ k ∧
      n * (10 : ℚ) ^ k ≤ (10 : ℚ) ^ E * ((accu : ℚ) / 10 ^ j) +
        (10 : ℚ) ^ E * ((accu : ℚ) / 10 ^ j) / 10 ^ 18 ∧
      (significantDigits s ≤ 19 → (10 : ℚ) ^ E * ((accu : ℚ) / 10 ^ j) = n * (10 : ℚ) ^ k) ∧
      (significantDigits s ≤ 19 → accu = n)) := by
  obtain ⟨b, a, h1, h2, h3, h4, h5, -⟩ := toUnsignedFloat_numeral exactFinish h hlen he1 he2
  have h6 : ∀ fin, toUnsignedFloatWith fin s = core fin b a e := by
    intro fin
    obtain ⟨b', a', g1, g2, g3, g4, g5, g6⟩ := toUnsignedFloat_numeral fin h hlen he1 he2
    have hl : a'.length = a.length := by omega
    have hba : b' ++ a' = b ++ a := by rw [← g5, ← h5]
    obtain ⟨rfl, rfl⟩ := List.append_inj' hba hl
    exact g6
  obtain ⟨hD, hval⟩ := (decNumeral_iff _ _).1 h2
  obtain ⟨z, hz1, hz2⟩ := stripZeros_split (b ++ a)
  have hsig : significantDigits s = (stripZeros (b ++ a)).length := by
    unfold significantDigits
    rw [h5, stripZeros_eq]
  have hvZ : val 0 (stripZeros (b ++ a)) = n := by
    rw [← hval]
    conv => rhs; rw [hz1]
    rw [val_zeros]
  have hDZ : Digits (stripZeros (b ++ a)) := by
    rw [hz1] at hD
    exact (digits_append.1 hD).2
  have hhead := stripZeros_head (b ++ a)
  constructor
  · intro hn fin
    rw [h6]
    apply (core_spec fin b a e h1 h4).1
    match hZ : stripZeros (b ++ a) with
    | [] => rfl
    | d :: t =>
      exfalso
      have := val_ge d t (hZ ▸ hDZ) (hhead d t hZ)
      have hp : 0 < 10 ^ t.length := Nat.pow_pos (by omega)
      rw [← hZ, hvZ] at this
      omega
  · intro hn
    have hZne : stripZeros (b ++ a) ≠ [] := by
      intro hZ
      rw [hZ] at hvZ
      exact hn hvZ.symm
    have h7 : ∀ fin, toUnsignedFloatWith fin s = _ := fun fin =>
      (h6 fin).trans ((core_spec fin b a e h1 h4).2 hZne)
    rw [hsig]
    have hlab : (b ++ a).length = b.length + a.length := by simp
    rw [hlab] at hz2
    obtain ⟨d, t, hZ⟩ : ∃ d t, stripZeros (b ++ a) = d :: t := by
      cases hZ : stripZeros (b ++ a) with
      | nil => exact absurd hZ hZne
      | cons d t => exact ⟨d, t, rfl⟩
    have hge := val_ge d t (hZ ▸ hDZ) (hhead d t hZ)
    have hlt := val_lt _ hDZ
    rw [← hZ, hvZ] at hge
    rw [hvZ] at hlt
    have hL : (stripZeros (b ++ a)).length = t.length + 1 := by rw [hZ]; rfl
    generalize hZZ : stripZeros (b ++ a) = Z at *
    generalize hEE : e + (b.length : Int) - 1 - (((b ++ a).length : Int) - Z.length) = E at *
    have hEk : E = k + t.length := by rw [← hEE, hlab, h3, hL]; push_cast; omega
    have hge' : (10 : ℚ) ^ t.length ≤ n := by exact_mod_cast hge
    have hlt' : (n : ℚ) < 10 ^ (t.length + 1) := by rw [← hL]; exact_mod_cast hlt
    have hkpos : (0 : ℚ) < (10 : ℚ) ^ k := zpow_pos (by norm_num) k
    have hDT : Digits (Z.take 19) := fun c hc => hDZ c (List.mem_of_mem_take hc)
    -- q = val T * 10^|U| * 10^k
    have hTU : val 0 Z = val 0 (Z.take 19) * 10 ^ (Z.drop 19).length + val 0 (Z.drop 19) := by
      conv => lhs; rw [← List.take_append_drop 19 Z]
      rw [val_append, val_eq]
    have hUlt := val_lt (Z.drop 19) (fun c hc => hDZ c (List.mem_of_mem_drop hc))
    have hlen2 : (Z.take 19).length + (Z.drop 19).length = t.length + 1 := by
      rw [← List.length_append, List.take_append_drop, hL]
    have hTpos : 1 ≤ (Z.take 19).length := by rw [List.length_take]; omega
    have hq : (10 : ℚ) ^ E * ((val 0 (Z.take 19) : ℚ) / 10 ^ ((Z.take 19).length - 1)) =
        (val 0 (Z.take 19) : ℚ) * 10 ^ (Z.drop 19).length * (10 : ℚ) ^ k := by
      have e1 : (10 : ℚ) ^ E = 10 ^ ((Z.take 19).length - 1) * (10 ^ (Z.drop 19).length * (10 : ℚ) ^ k) := by
        rw [hEk, ← zpow_natCast, ← zpow_natCast, ← zpow_add₀ (by norm_num),
          ← zpow_add₀ (by norm_num)]
        congr 1
        have : t.length = ((Z.take 19).length - 1) + (Z.drop 19).length := by omega
        rw [this]; push_cast; ring
      rw [e1]
      have : (10 : ℚ) ^ ((Z.take 19).length - 1) ≠ 0 := pow_ne_zero _ (by norm_num)
      field_simp
    have hn' : (n : ℚ) = (val 0 (Z.take 19) : ℚ) * 10 ^ (Z.drop 19).length + val 0 (Z.drop 19) := by
      rw [← hvZ, hTU]; push_cast; rfl
    refine ⟨E, val 0 (Z.take 19), (Z.take 19).length - 1, ?_, ?_, ?_, ?_, ?_, ?_, ?_, ?_, ?_, ?_⟩
    · rw [List.length_take]; omega
    · rw [hZ, List.take_succ_cons]
      have g := val_ge d (t.take 18) (by
        have := hDT
        rw [hZ, List.take_succ_cons] at this
        exact this) (hhead d t hZ)
      simpa using g
    · have := val_lt _ hDT
      rwa [Nat.sub_add_cancel hTpos]
    · have e1 : (10 : ℚ) ^ E = (10 : ℚ) ^ t.length * (10 : ℚ) ^ k := by
        rw [hEk, zpow_add₀ (by norm_num), zpow_natCast, mul_comm]
      rw [e1]
      exact mul_le_mul_of_nonneg_right hge' (le_of_lt hkpos)
    · have e1 : (10 : ℚ) ^ (E + 1) = (10 : ℚ) ^ (t.length + 1) * (10 : ℚ) ^ k := by
        rw [hEk, show k + (t.length : Int) + 1 = ((t.length + 1 : Nat) : Int) + k by push_cast; ring,
          zpow_add₀ (by norm_num), zpow_natCast]
      rw [e1]
      exact mul_lt_mul_of_pos_right hlt' hkpos
    · intro fin
      rw [h7 fin]
      simp only [if_pos (show (List.all (Z.take 19) isDigit) = true by simpa [Digits] using hDT)]
    · rw [hq, hn']
      apply mul_le_mul_of_nonneg_right _ (le_of_lt hkpos)
      have : (0 : ℚ) ≤ val 0 (Z.drop 19) := Nat.cast_nonneg _
      linarith
    · rw [hq, hn']
      have hU' : (val 0 (Z.drop 19) : ℚ) ≤
          (val 0 (Z.take 19) : ℚ) * 10 ^ (Z.drop 19).length / 10 ^ 18 := by
        by_cases hU : (Z.drop 19).length = 0
        · have : Z.drop 19 = [] := List.length_eq_zero_iff.1 hU
          rw [this]
          have e0 : val 0 ([] : Str) = 0 := rfl
          rw [e0]
          rw [Nat.cast_zero]
          exact div_nonneg (mul_nonneg (Nat.cast_nonneg _) (pow_nonneg (by norm_num) _))
            (pow_nonneg (by norm_num) _)
        · have h19 : 19 < Z.length := by simp at hU; omega
          have hT : 10 ^ 18 ≤ val 0 (Z.take 19) := by
            rw [hZ, List.take_succ_cons]
            have g := val_ge d (t.take 18) (by
              have := hDT
              rw [hZ, List.take_succ_cons] at this
              exact this) (hhead d t hZ)
            have : (t.take 18).length = 18 := by rw [List.length_take]; omega
            rw [this] at g
            exact g
          have hT' : (10 : ℚ) ^ 18 ≤ val 0 (Z.take 19) := by exact_mod_cast hT
          have hU2 : (val 0 (Z.drop 19) : ℚ) ≤ 10 ^ (Z.drop 19).length := by
            exact_mod_cast le_of_lt hUlt
          rw [le_div_iff₀ (by positivity)]
          calc (val 0 (Z.drop 19) : ℚ) * 10 ^ 18 ≤ 10 ^ (Z.drop 19).length * val 0 (Z.take 19) := by
                apply mul_le_mul hU2 hT' (pow_nonneg (by norm_num) _) (pow_nonneg (by norm_num) _)
            _ = _ := mul_comm _ _
      calc ((val 0 (Z.take 19) : ℚ) * 10 ^ (Z.drop 19).length + val 0 (Z.drop 19)) * (10 : ℚ) ^ k
          ≤ ((val 0 (Z.take 19) : ℚ) * 10 ^ (Z.drop 19).length +
              (val 0 (Z.take 19) : ℚ) * 10 ^ (Z.drop 19).length / 10 ^ 18) * (10 : ℚ) ^ k := by
            apply mul_le_mul_of_nonneg_right _ (le_of_lt hkpos)
            linarith
        _ = _ := by ring
    · intro hs19
      have : Z.drop 19 = [] := List.drop_eq_nil_of_le hs19
      rw [hq, hn', this]
      simp [val]
    · intro hs19
      rw [List.take_of_length_le hs19, hvZ]

theorem value_lemma {s n k e} (h : FloatNumeral s n k e) (hlen : s.length < 2 ^ 31)
    (he1 : -intMax ≤ e) (he2 : e ≤ intMax) :
    (n = 0 → toUnsignedFloatWith exactFinish s = .ok (some (.num 0))) ∧
    (n ≠ 0 → (10 : ℚ) ^ (-8191 : ℤ) ≤ n * (10 : ℚ) ^ k → n * (10 : ℚ) ^ k < (10 : ℚ) ^ (8192 : ℤ) →
      ∃ q, toUnsignedFloatWith exactFinish s = .ok (some (.num q)) ∧ q ≤ n * (10 : ℚ) ^ k ∧
        n * (10 : ℚ) ^ k ≤ q + q / 10 ^ 18 ∧
        (significantDigits s ≤ 19 → q = n * (10 : ℚ) ^ k)) := by
  obtain ⟨h0, h1⟩ := numeral_digits h hlen he1 he2
  refine ⟨fun hn => h0 hn _, fun hn hlo hhi => ?_⟩
  obtain ⟨E, accu, j, -, -, -, g1, g2, g3, g4, g5, g6, -⟩ := h1 hn
  have ten : (1 : ℚ) < 10 := by norm_num
  have hE1 : E < 8192 := (zpow_lt_zpow_iff_right₀ ten).1 (lt_of_le_of_lt g1 hhi)
  have hE2 : -8191 < E + 1 := (zpow_lt_zpow_iff_right₀ ten).1 (lt_of_le_of_lt hlo g2)
  refine ⟨_, ?_, g4, g5, g6⟩
  rw [g3 exactFinish, int32, if_pos (by unfold intMax; omega)]
  simp only [Res.bind_ok, exactFinish]
  rw [pow10_num E (by omega) hE1]
  simp only [Res.map_ok, FVal.mul, Nat.cast_pow, Nat.cast_ofNat]

theorem parseInfNan_not_num (s : Str) (q : ℚ) : parseInfNan s ≠ some (some (.num q)) := by
  unfold parseInfNan
  repeat' split
  all_goals simp

theorem startsWith_split {s p : Str} (h : startsWithNocase s p = true) :
    SameNocase (s.take p.length) p ∧ p.length ≤ s.length := by
  obtain ⟨m, b, rfl, hm⟩ := (c11_starts_with_nocase s p).1 h
  have hl : m.length = p.length := by simpa using congrArg List.length hm
  rw [← hl]
  simp
  exact hm

theorem sameNocase_append {a b c d : Str} (h1 : SameNocase a c) (h2 : SameNocase b d) :
    SameNocase (a ++ b) (c ++ d) := by
  unfold SameNocase at *
  rw [List.map_append, List.map_append, h1, h2]

theorem parseInfNan_inf (s : Str) (neg : Bool) :
    parseInfNan s = some (some (.inf neg)) ↔ neg = false ∧ IsInf s := by
  have l3 : (bytes "inf").length = 3 := by decide
  have l5 : (bytes "inity").length = 5 := by decide
  have l8 : (bytes "infinity").length = 8 := by decide
  have cat : bytes "inf" ++ bytes "inity" = bytes "infinity" := by decide
  have lenOf : ∀ {a b : Str}, SameNocase a b → a.length = b.length := by
    intro a b h; simpa using congrArg List.length h
  constructor
  · intro h
    unfold parseInfNan at h
    split at h
    · simp at h
    · split at h
      · rename_i hst
        obtain ⟨h1, h2⟩ := startsWith_split hst
        split at h
        · rename_i hlen
          simp at h
          refine ⟨h, .inl ?_⟩
          rw [l3, List.take_of_length_le (by omega)] at h1
          exact h1
        · split at h
          · rename_i h8
            simp at h
            refine ⟨h, .inr ?_⟩
            obtain ⟨h3, h4⟩ := startsWith_split h8.2
            rw [l5, List.take_of_length_le (by simp; omega)] at h3
            rw [← cat, ← List.take_append_drop 3 s]
            rw [l3] at h1
            exact sameNocase_append h1 h3
          · simp at h
      · repeat' split at h
        all_goals simp at h
  · rintro ⟨rfl, h | h⟩
    · have hl := lenOf h
      rw [l3] at hl
      unfold parseInfNan
      rw [if_neg (by omega), if_pos, if_pos hl]
      rw [c11_starts_with_nocase]
      exact ⟨s, [], by simp, h⟩
    · have hl := lenOf h
      rw [l8] at hl
      have hsplit : SameNocase (s.take 3) (bytes "inf") ∧ SameNocase (s.drop 3) (bytes "inity") := by
        unfold SameNocase at *
        rw [List.map_take, List.map_drop, h]
        decide
      unfold parseInfNan
      rw [if_neg (by omega), if_pos, if_neg (by omega), if_pos]
      · refine ⟨hl, ?_⟩
        rw [c11_starts_with_nocase]
        exact ⟨s.drop 3, [], by simp, hsplit.2⟩
      · rw [c11_starts_with_nocase]
        exact ⟨s.take 3, s.drop 3, by simp, hsplit.1⟩

theorem isNanSpecifier_iff (c : UInt8) : isNanSpecifier c = true ↔
    (48 ≤ c.toNat ∧ c.toNat ≤ 57) ∨ (65 ≤ c.toNat ∧ c.toNat ≤ 90) ∨
      (97 ≤ c.toNat ∧ c.toNat ≤ 122) ∨ c.toNat = 95 := by
  revert c; apply Text.forall_u8; decide +kernel

theorem not_inf_of_nan {s : Str} (h : startsWithNocase s (bytes "nan") = true) :
    startsWithNocase s (bytes "inf") = false := by
  cases s with
  | nil => revert h; decide
  | cons c s =>
    have b1 : bytes "inf" = 105 :: bytes "nf" := by decide
    have b2 : bytes "nan" = 110 :: bytes "an" := by decide
    rw [b2] at h
    rw [b1]
    have hn := startsWithNocase_head h
    by_contra hcon
    have hi := startsWithNocase_head (by simpa using hcon)
    rw [hn] at hi
    revert hi; decide

theorem parseInfNan_nan (s : Str) : parseInfNan s = some (some .nan) ↔ IsNan s := by
  have l3 : (bytes "nan").length = 3 := by decide
  have l4 : (bytes "nan(").length = 4 := by decide
  have cat : bytes "nan" ++ [40] = bytes "nan(" := by decide
  have lenOf : ∀ {a b : Str}, SameNocase a b → a.length = b.length := by
    intro a b h; simpa using congrArg List.length h
  have low40 : ∀ c : UInt8, asciiLower c = asciiLower 40 → c = 40 := by
    apply Text.forall_u8; decide +kernel
  constructor
  · intro h
    unfold parseInfNan at h
    split at h
    · simp at h
    · split at h
      · repeat' split at h
        all_goals simp at h
      · split at h
        · rename_i hst
          obtain ⟨h1, h2⟩ := startsWith_split hst
          rw [l3] at h1 h2
          split at h
          · rename_i hlen
            left
            rw [List.take_of_length_le (by omega)] at h1
            exact h1
          · split at h
            · simp at h
            · rename_i hc
              split at h
              · rename_i hall
                right
                push Not at hc
                obtain ⟨g1, g2, g3⟩ := hc
                have hne : s ≠ [] := by rintro rfl; simp at g1
                have hlast : s.getLast hne = 41 := by
                  rw [List.getLast?_eq_some_getLast hne] at g3
                  simpa using g3
                have e4 : s.take 4 = s.take 3 ++ [40] := by
                  rw [List.take_add_one, g2]; rfl
                refine ⟨s.take 4, (s.drop 4).dropLast, ?_, ?_, ?_⟩
                · have hd : s.drop 4 ≠ [] := by
                    intro e
                    have := congrArg List.length e
                    simp at this
                    omega
                  have : (s.drop 4).dropLast ++ [41] = s.drop 4 := by
                    have hl : (s.drop 4).getLast hd = 41 := by
                      rw [List.getLast_drop]; exact hlast
                    rw [← hl]
                    exact List.dropLast_append_getLast hd
                  rw [List.append_assoc, this, List.take_append_drop]
                · rw [e4, ← cat]
                  exact sameNocase_append h1 rfl
                · intro c hcm
                  rw [← isNanSpecifier_iff]
                  rw [List.all_eq_true] at hall
                  exact hall c hcm
              · simp at h
        · simp at h
  · rintro (h | ⟨hd, t, rfl, h1, h2⟩)
    · have hl := lenOf h
      rw [l3] at hl
      have hst : startsWithNocase s (bytes "nan") = true := by
        rw [c11_starts_with_nocase]
        exact ⟨s, [], by simp, h⟩
      unfold parseInfNan
      rw [if_neg (by omega), not_inf_of_nan hst, if_neg (by simp), if_pos hst, if_pos hl]
    · have hl := lenOf h1
      rw [l4] at hl
      match hd, hl with
      | [x, y, z, w], _ =>
        have hnan : SameNocase [x, y, z] (bytes "nan") ∧ w = 40 := by
          unfold SameNocase at *
          have e : (bytes "nan(").map asciiLower = (bytes "nan").map asciiLower ++ [asciiLower 40] := by
            decide
          rw [e] at h1
          have e2 : List.map asciiLower [x, y, z, w] = List.map asciiLower [x, y, z] ++ [asciiLower w] := rfl
          rw [e2] at h1
          have := List.append_inj h1 (by simp [l3])
          refine ⟨this.1, low40 w ?_⟩
          simpa using this.2
        obtain ⟨hn, rfl⟩ := hnan
        have hst : startsWithNocase ([x, y, z, 40] ++ t ++ [41]) (bytes "nan") = true := by
          rw [c11_starts_with_nocase]
          exact ⟨[x, y, z], 40 :: t ++ [41], by simp, hn⟩
        unfold parseInfNan
        rw [if_neg (by simp), not_inf_of_nan hst, if_neg (by simp), if_pos hst, if_neg (by simp),
          if_neg (by
            push Not
            refine ⟨by simp, by simp, ?_⟩
            rw [List.getLast?_append]; simp),
          if_pos]
        rw [List.all_eq_true]
        intro c hc
        rw [isNanSpecifier_iff]
        apply h2
        have : (List.drop 4 ([x, y, z, 40] ++ t ++ [41])).dropLast = t := by simp
        rw [this] at hc
        exact hc

/-- Decimal position of a number with a non-zero leading digit. -/
theorem value_bounds {d : UInt8} {t : Str} (hd : Digits (d :: t)) (h0 : d ≠ 48) (k : Int) :
    (10 : ℚ) ^ (k + t.length) ≤ val 0 (d :: t) * (10 : ℚ) ^ k ∧
    val 0 (d :: t) * (10 : ℚ) ^ k < (10 : ℚ) ^ (k + t.length + 1) := by
  have hge : (10 : ℚ) ^ t.length ≤ val 0 (d :: t) := by exact_mod_cast val_ge d t hd h0
  have hlt : (val 0 (d :: t) : ℚ) < 10 ^ (t.length + 1) := by exact_mod_cast val_lt _ hd
  have hk : (0 : ℚ) < (10 : ℚ) ^ k := zpow_pos (by norm_num) k
  constructor
  · rw [zpow_add₀ (by norm_num), zpow_natCast, mul_comm]
    exact mul_le_mul_of_nonneg_right hge (le_of_lt hk)
  · rw [show k + (t.length : Int) + 1 = ((t.length + 1 : Nat) : Int) + k by push_cast; ring,
      zpow_add₀ (by norm_num), zpow_natCast]
    exact mul_lt_mul_of_pos_right hlt hk

/-- Whatever is accepted with at most 19 significant digits is a numeral. -/
theorem accepted_lemma (s : Str) (hlen : s.length < 2 ^ 31) (hsig : significantDigits s ≤ 19)
    (v : FVal) (h : toUnsignedFloatWith exactFinish s = .ok (some v)) :
    (v = .nan ∧ IsNan s) ∨ (v = .inf false ∧ IsInf s) ∨
    ∃ n k e, FloatNumeral s n k e ∧
      (v = .num (n * (10 : ℚ) ^ k) ∨
       (v = .num 0 ∧ n * (10 : ℚ) ^ k < (10 : ℚ) ^ (-8191 : ℤ)) ∨
       (v = .inf false ∧ (10 : ℚ) ^ (8192 : ℤ) ≤ n * (10 : ℚ) ^ k)) := by
  have hmax : s.length < npos := by
    have : (2 : Nat) ^ 31 < npos := by decide
    omega
  cases hin : parseInfNan s with
  | some r =>
    unfold toUnsignedFloatWith at h
    rw [hin] at h
    simp only [Res.ok.injEq] at h
    subst h
    cases v with
    | num q => exact absurd hin (parseInfNan_not_num s q)
    | inf neg =>
      have := (parseInfNan_inf s neg).1 hin
      right; left
      rw [this.1]; exact ⟨rfl, this.2⟩
    | nan => left; exact ⟨rfl, (parseInfNan_nan s).1 hin⟩
  | none =>
    right; right
    obtain ⟨ex, hs, hcases⟩ := toUnsignedFloat_cases exactFinish s hmax hin
    rcases hcases with ⟨e, k1, k2, k3, k4⟩ | ⟨k1, -⟩
    swap
    · rw [k1] at h; simp at h
    rw [k4] at h
    have hml : (mantissaPart s).length < npos := by
      have := congrArg List.length hs
      simp at this; omega
    obtain ⟨b, a, g1, g2, g3⟩ := mantissa_split exactFinish (mantissaPart s) e hml
    rw [g3] at h
    have hne : b ++ a ≠ [] := by
      intro hh
      simp at hh
      obtain ⟨rfl, rfl⟩ := hh
      rw [core_empty] at h; simp at h
    have hbl : (b ++ a).length < 2 ^ 31 := by
      have e1 := List.length_erase_le (a := (46 : UInt8)) (l := mantissaPart s)
      rw [g1] at e1
      have := congrArg List.length hs
      simp at this e1 ⊢
      omega
    have mk : ∀ n, DecNumeral (b ++ a) n → FloatNumeral s n (e - a.length) e := by
      intro n hn
      rw [hs]
      rcases g2 with ⟨g2, rfl⟩ | g2
      · rw [g2]
        simp at hn hne ⊢
        exact .int hne hn k1
      · rw [g2]
        exact .point hne hn k1
    have hsig' : (stripZeros (b ++ a)).length ≤ 19 := by
      unfold significantDigits at hsig
      rw [g1, ← stripZeros_eq] at hsig
      exact hsig
    obtain ⟨z, hz1, hz2⟩ := stripZeros_split (b ++ a)
    obtain ⟨c1, c2⟩ := core_spec_exact b a e hne hbl
    cases hZ : stripZeros (b ++ a) with
    | nil =>
      rw [c1 hZ] at h
      simp at h
      subst h
      refine ⟨0, e - a.length, e, mk 0 ?_, .inl (by simp)⟩
      rw [decNumeral_iff, hz1, hZ, val_zeros]
      refine ⟨?_, rfl⟩
      rw [List.append_nil]
      exact digits_zeros z
    | cons d t =>
      rw [c2 (by rw [hZ]; simp)] at h
      rw [List.take_of_length_le hsig'] at h
      have hlab : (b ++ a).length = b.length + a.length := by simp
      generalize hEE : e + (b.length : Int) - 1 -
        (((b ++ a).length : Int) - (stripZeros (b ++ a)).length) = E at h
      have hEk : E = e - a.length + t.length := by
        rw [← hEE, hlab, hZ, List.length_cons]; push_cast; omega
      unfold int32 at h
      split at h
      swap
      · simp at h
      rename_i hE
      simp only [Res.bind_ok] at h
      split at h
      swap
      · simp at h
      rename_i hall
      have hDZ : Digits (stripZeros (b ++ a)) := by simpa [Digits] using hall
      have hD : DecNumeral (b ++ a) (val 0 (stripZeros (b ++ a))) := by
        rw [decNumeral_iff]
        constructor
        · rw [hz1]; exact digits_append.2 ⟨digits_zeros z, hDZ⟩
        · conv => lhs; rw [hz1]
          rw [val_zeros]
      refine ⟨_, _, _, mk _ hD, ?_⟩
      have hb := value_bounds (hZ ▸ hDZ) (stripZeros_head _ d t hZ) (e - a.length)
      rw [← hEk, ← hZ] at hb
      have hb2 : e - (a.length : Int) + t.length + 1 = E + 1 := by omega
      have ten : (1 : ℚ) < 10 := by norm_num
      by_cases hbig : 8192 ≤ E
      · rw [pow10_big E hbig] at h
        simp [FVal.mul] at h
        right; right
        refine ⟨h.symm, le_trans ?_ hb.1⟩
        exact zpow_le_zpow_right₀ (le_of_lt ten) hbig
      · by_cases hsmall : E ≤ -8192
        · by_cases hmin : E = -(2 ^ 31)
          · exfalso
            subst hmin
            have : pow10 (-(2 ^ 31)) = .ub := by decide
            rw [this] at h
            simp at h
          · rw [pow10_small E hsmall (by omega)] at h
            simp [FVal.mul] at h
            right; left
            refine ⟨h.symm, lt_of_lt_of_le hb.2 ?_⟩
            exact zpow_le_zpow_right₀ (le_of_lt ten) (by omega)
        · left
          have hn0 : val 0 (stripZeros (b ++ a)) ≠ 0 := by
            intro h0
            rw [h0] at hb
            have : (0 : ℚ) < (10 : ℚ) ^ E := zpow_pos (by norm_num) _
            have := hb.1
            simp at this
            linarith
          obtain ⟨q, q1, -, -, q4⟩ := (value_lemma (mk _ hD) hlen k2 k3).2 hn0
            (le_trans (zpow_le_zpow_right₀ (le_of_lt ten) (by omega)) hb.1)
            (lt_of_lt_of_le hb.2 (zpow_le_zpow_right₀ (le_of_lt ten) (by omega)))
          rw [k4, g3, c2 (by rw [hZ]; simp), List.take_of_length_le hsig', hEE, int32, if_pos hE] at q1
          simp only [Res.bind_ok] at q1
          rw [if_pos hall, h] at q1
          simp at q1
          rw [q1, q4 hsig]

/-! ## C17: to_number for floats -/

/-- A minus sign or nothing. -/
def sign (neg : Bool) : Str := if neg then [45] else []

def signed (neg : Bool) (q : ℚ) : ℚ := if neg then -q else q

theorem floatNumeral_head {s n k e} (h : FloatNumeral s n k e) :
    ∃ c t, s = c :: t ∧ c ≠ 45 := by
  obtain ⟨b, a, ex, h1, h2, -, -, h5⟩ := floatNumeral_pieces h
  have hD := ((decNumeral_iff _ _).1 h2).1
  have hc : ∀ c, isDigit c = true → c ≠ 45 := by
    intro c hc; rintro rfl; revert hc; decide
  cases b with
  | nil =>
    rcases h5 with ⟨-, rfl⟩ | rfl
    · simp at h1
    · exact ⟨46, a ++ ex, by simp, by decide⟩
  | cons c b =>
    refine ⟨c, ?_⟩
    have := hc c (hD c (by simp))
    rcases h5 with ⟨rfl, -⟩ | rfl
    · exact ⟨_, rfl, this⟩
    · exact ⟨_, rfl, this⟩

theorem toFloatWith_sign (fin : Finish) (neg : Bool) (s : Str) (hs : ∃ c t, s = c :: t ∧ c ≠ 45) :
    toFloatWith fin (sign neg ++ s) =
      (toUnsignedFloatWith fin s).map fun r => r.map fun v => if neg then v.neg else v := by
  obtain ⟨c, t, rfl, hc⟩ := hs
  cases neg with
  | true => simp [sign, toFloatWith]
  | false =>
    simp only [sign, Bool.false_eq_true, if_false, List.nil_append, toFloatWith, hc]
    cases toUnsignedFloatWith fin (c :: t) with
    | ok r => simp
    | _ => rfl

theorem toFloat_sign (neg : Bool) (s : Str) (hs : ∃ c t, s = c :: t ∧ c ≠ 45) :
    toFloat (sign neg ++ s) =
      (toUnsignedFloatWith exactFinish s).map fun r => r.map fun v => if neg then v.neg else v :=
  toFloatWith_sign exactFinish neg s hs

/-- Every numeral (with optional minus sign) whose exponent fits in an int and whose value is
zero or between 10^-8191 and 10^8192 is accepted.  The value `q` is exact if there are at most
19 significant digits and otherwise too small by a relative error of at most 10^-18.
(Exact arithmetic; see C87 for floating-point rounding.) -/
theorem c17_value_partial (neg : Bool) (s : Str) (n : Nat) (k e : Int) (h : FloatNumeral s n k e)
    (hlen : s.length < 2 ^ 31) (he : -2 ^ 31 < e ∧ e < 2 ^ 31)
    (hrange : n = 0 ∨ ((10 : ℚ) ^ (-8191 : ℤ) ≤ n * (10 : ℚ) ^ k ∧
      n * (10 : ℚ) ^ k < (10 : ℚ) ^ (8192 : ℤ))) :
    ∃ q, toFloat (sign neg ++ s) = .ok (some (.num (signed neg q))) ∧ q ≤ n * (10 : ℚ) ^ k ∧
      n * (10 : ℚ) ^ k ≤ q + q / 10 ^ 18 ∧
      (significantDigits s ≤ 19 → q = n * (10 : ℚ) ^ k) := by
  rw [toFloat_sign neg s (floatNumeral_head h)]
  obtain ⟨v1, v2⟩ := value_lemma h hlen (by unfold intMax; omega) (by unfold intMax; omega)
  have fin : ∀ q, (if neg then (FVal.num q).neg else FVal.num q) = .num (signed neg q) := by
    intro q; cases neg <;> rfl
  by_cases hn : n = 0
  · refine ⟨0, ?_, by simp [hn], by simp [hn], by simp [hn]⟩
    rw [v1 hn]
    simp [fin]
  · rcases hrange with h0 | ⟨h1, h2⟩
    · exact absurd h0 hn
    · obtain ⟨q, q1, q2, q3, q4⟩ := v2 hn h1 h2
      refine ⟨q, ?_, q2, q3, q4⟩
      rw [q1]
      simp [fin]

/-- Conversely, an accepted string with at most 19 significant digits is a numeral or a spelling
of infinity or NaN, and the value is the one denoted; numerals below 10^-8191 may be read as
zero and numerals from 10^8192 on as infinity. -/
theorem c17_accepted_partial (neg : Bool) (s : Str) (hs : ∃ c t, s = c :: t ∧ c ≠ 45)
    (hlen : s.length < 2 ^ 31) (hsig : significantDigits s ≤ 19) (v : FVal)
    (h : toFloat (sign neg ++ s) = .ok (some v)) :
    (v = .nan ∧ IsNan s) ∨ (v = .inf neg ∧ IsInf s) ∨
    ∃ n k e, FloatNumeral s n k e ∧
      (v = .num (signed neg (n * (10 : ℚ) ^ k)) ∨
       (v = .num 0 ∧ n * (10 : ℚ) ^ k < (10 : ℚ) ^ (-8191 : ℤ)) ∨
       (v = .inf neg ∧ (10 : ℚ) ^ (8192 : ℤ) ≤ n * (10 : ℚ) ^ k)) := by
  rw [toFloat_sign neg s hs] at h
  cases hu : toUnsignedFloatWith exactFinish s with
  | ok r =>
    rw [hu] at h
    cases r with
    | none => simp at h
    | some w =>
      simp at h
      subst h
      rcases accepted_lemma s hlen hsig w hu with ⟨rfl, h1⟩ | ⟨rfl, h1⟩ | ⟨n, k, e, h1, h2⟩
      · left; cases neg <;> exact ⟨rfl, h1⟩
      · right; left; cases neg <;> exact ⟨rfl, h1⟩
      · right; right
        refine ⟨n, k, e, h1, ?_⟩
        rcases h2 with rfl | ⟨rfl, h2⟩ | ⟨rfl, h2⟩
        · left; cases neg <;> rfl
        · right; left; cases neg
          · exact ⟨rfl, h2⟩
          · exact ⟨by simp [FVal.neg], h2⟩
        · right; right; cases neg <;> exact ⟨rfl, h2⟩
  | throw => rw [hu] at h; simp at h
  | terminate => rw [hu] at h; simp at h
  | ub => rw [hu] at h; simp at h
  | diverge => rw [hu] at h; simp [Res.map] at h

theorem special_head {s : Str} (h : IsInf s ∨ IsNan s) : ∃ c t, s = c :: t ∧ c ≠ 45 := by
  have key : ∀ c : UInt8, asciiLower c = 105 ∨ asciiLower c = 110 → c ≠ 45 := by
    apply Text.forall_u8; decide +kernel
  have hd : ∀ (s p : Str) (d : UInt8), SameNocase s (d :: p) →
      ∃ c t, s = c :: t ∧ asciiLower c = asciiLower d := by
    intro s p d h
    cases s with
    | nil => simp [SameNocase] at h
    | cons c t =>
      simp [SameNocase] at h
      exact ⟨c, t, rfl, h.1⟩
  rcases h with (h | h) | (h | ⟨a, b, rfl, h, -⟩)
  · obtain ⟨c, t, rfl, hc⟩ := hd s (bytes "nf") 105 h
    exact ⟨c, t, rfl, key c (.inl (hc.trans (by decide)))⟩
  · obtain ⟨c, t, rfl, hc⟩ := hd s (bytes "nfinity") 105 h
    exact ⟨c, t, rfl, key c (.inl (hc.trans (by decide)))⟩
  · obtain ⟨c, t, rfl, hc⟩ := hd s (bytes "an") 110 h
    exact ⟨c, t, rfl, key c (.inr (hc.trans (by decide)))⟩
  · obtain ⟨c, t, rfl, hc⟩ := hd a (bytes "an(") 110 h
    exact ⟨c, t ++ b ++ [41], by simp, key c (.inr (hc.trans (by decide)))⟩

/-- Every documented spelling of infinity and NaN is accepted, with optional minus sign. -/
theorem c17_inf_nan (neg : Bool) (s : Str) :
    (IsInf s → toFloat (sign neg ++ s) = .ok (some (.inf neg))) ∧
    (IsNan s → toFloat (sign neg ++ s) = .ok (some .nan)) := by
  constructor
  · intro h
    rw [toFloat_sign neg s (special_head (.inl h)), toUnsignedFloatWith,
      (parseInfNan_inf s false).2 ⟨rfl, h⟩]
    cases neg <;> rfl
  · intro h
    rw [toFloat_sign neg s (special_head (.inr h)), toUnsignedFloatWith, (parseInfNan_nan s).2 h]
    cases neg <;> rfl

/-- No undefined behaviour, exception or endless loop as long as the string and the exponent are
not gigantic. -/
theorem c17_no_ub_partial (s : Str) (hlen : s.length < 2 ^ 30)
    (hexp : ∀ m ex e, s = m ++ ex → ExpPart ex e → -2 ^ 30 < e ∧ e < 2 ^ 30) :
    ∃ r, toFloat s = .ok r := by
  have coreOk : ∀ (b a : Str) (e : Int), (b ++ a).length < 2 ^ 30 → -2 ^ 30 < e → e < 2 ^ 30 →
      ∃ r, core exactFinish b a e = .ok r := by
    intro b a e hl h1 h2
    by_cases hne : b ++ a = []
    · simp at hne
      obtain ⟨rfl, rfl⟩ := hne
      exact ⟨_, rfl⟩
    obtain ⟨c1, c2⟩ := core_spec_exact b a e hne (by omega)
    by_cases hZ : stripZeros (b ++ a) = []
    · exact ⟨_, c1 hZ⟩
    · rw [c2 hZ]
      obtain ⟨z, -, hz2⟩ := stripZeros_split (b ++ a)
      have hp : 0 < (stripZeros (b ++ a)).length := List.length_pos_iff.2 hZ
      have hlab : (b ++ a).length = b.length + a.length := by simp
      have hb1 : -(2 ^ 31) < e + (b.length : Int) - 1 -
          (((b ++ a).length : Int) - (stripZeros (b ++ a)).length) := by omega
      have hb2 : e + (b.length : Int) - 1 -
          (((b ++ a).length : Int) - (stripZeros (b ++ a)).length) < 2 ^ 31 := by omega
      generalize e + (b.length : Int) - 1 -
          (((b ++ a).length : Int) - (stripZeros (b ++ a)).length) = E at *
      rw [int32, if_pos (by unfold intMax; omega)]
      simp only [Res.bind_ok]
      split
      · by_cases g1 : 8192 ≤ E
        · rw [pow10_big E g1]; exact ⟨_, rfl⟩
        · by_cases g2 : E ≤ -8192
          · rw [pow10_small E g2 hb1]; exact ⟨_, rfl⟩
          · rw [pow10_num E (by omega) (by omega)]; exact ⟨_, rfl⟩
      · exact ⟨_, rfl⟩
  have uf : ∀ s : Str, s.length < 2 ^ 30 →
      (∀ m ex e, s = m ++ ex → ExpPart ex e → -2 ^ 30 < e ∧ e < 2 ^ 30) →
      ∃ r, toUnsignedFloatWith exactFinish s = .ok r := by
    intro s hlen hexp
    have hmax : s.length < npos := by
      have : (2 : Nat) ^ 30 < npos := by decide
      omega
    cases hin : parseInfNan s with
    | some r => exact ⟨r, by unfold toUnsignedFloatWith; rw [hin]⟩
    | none =>
      obtain ⟨ex, hs, hcases⟩ := toUnsignedFloat_cases exactFinish s hmax hin
      rcases hcases with ⟨e, k1, k2, k3, k4⟩ | ⟨k1, -⟩
      · rw [k4]
        have hml := congrArg List.length hs
        simp at hml
        obtain ⟨b, a, g1, g2, g3⟩ := mantissa_split exactFinish (mantissaPart s) e (by omega)
        rw [g3]
        have e1 := List.length_erase_le (a := (46 : UInt8)) (l := mantissaPart s)
        rw [g1] at e1
        obtain ⟨h1, h2⟩ := hexp _ _ _ hs k1
        exact coreOk b a e (by omega) h1 h2
      · exact ⟨_, k1⟩
  cases s with
  | nil => exact ⟨none, rfl⟩
  | cons c t =>
    unfold toFloat toFloatWith
    simp only
    split
    · obtain ⟨r, hr⟩ := uf t (by simp at hlen; omega) (by
        intro m ex e h1 h2
        exact hexp (c :: m) ex e (by rw [h1]; rfl) h2)
      rw [hr]
      exact ⟨_, rfl⟩
    · exact uf _ hlen hexp

/-- Documented, but false: text that is no number at all is accepted if it follows 19 digits. -/
theorem c17_trailing_garbage_violated :
    ∃ s v, toFloat s = .ok (some v) ∧ 120 ∈ s ∧ s.length = 22 ∧
      ¬ (∃ n k e, FloatNumeral s n k e) ∧ ¬ IsInf s ∧ ¬ IsNan s := by
  refine ⟨bytes "1234567890123456789xyz", _, show _ = Res.ok (some (.num 1234567890123456789000)) from ?_,
    by decide, by decide, ?_, ?_, ?_⟩
  · decide +kernel
  · rintro ⟨n, k, e, h⟩
    obtain ⟨b, a, ex, h1, h2, h3, -, h5⟩ := floatNumeral_pieces h
    have hD := ((decNumeral_iff _ _).1 h2).1
    -- the exponent part must contain the x or the mantissa must
    have hmem : (120 : UInt8) ∈ bytes "1234567890123456789xyz" := by decide
    have hdig : ∀ c : UInt8, isDigit c = true → c ≠ 120 := by
      intro c hc; rintro rfl; revert hc; decide
    have hex : (120 : UInt8) ∉ ex := by
      cases h3 with
      | none => simp
      | plain hc _ hd =>
        have := ((decNumeral_iff _ _).1 hd).1
        intro hm
        simp at hm
        rcases hm with rfl | hm
        · simp at hc
        · exact hdig _ (this _ hm) rfl
      | plus hc _ hd =>
        have := ((decNumeral_iff _ _).1 hd).1
        intro hm
        simp at hm
        rcases hm with rfl | hm
        · simp at hc
        · exact hdig _ (this _ hm) rfl
      | minus hc _ hd =>
        have := ((decNumeral_iff _ _).1 hd).1
        intro hm
        simp at hm
        rcases hm with rfl | hm
        · simp at hc
        · exact hdig _ (this _ hm) rfl
    have hba : ∀ c ∈ b ++ a, c ≠ 120 := fun c hc => hdig c (hD c hc)
    rcases h5 with ⟨h5, -⟩ | h5
    · rw [h5] at hmem
      simp [hex] at hmem
      exact hba _ (by simp [hmem]) rfl
    · rw [h5] at hmem
      simp [hex] at hmem
      rcases hmem with hm | hm
      · exact hba _ (by simp [hm]) rfl
      · exact hba _ (by simp [hm]) rfl
  · unfold IsInf SameNocase; decide
  · intro h
    have := (c17_inf_nan false _).2 h
    revert this
    decide +kernel

/-- Documented, but false: adjusting the exponent overflows `int`. -/
theorem c17_exponent_overflow_violated :
    toFloat (bytes "10e2147483647") = .ub ∧ toFloat (bytes "0.01e-2147483647") = .ub ∧
    toFloat (bytes "0.1e-2147483647") = .ub := by decide +kernel

/-- Documented, but false: a number that is out of range gives infinity, not an empty result. -/
theorem c17_out_of_range_violated : toFloat (bytes "1e9000") = .ok (some (.inf false)) := by
  decide +kernel

/-- Documented, but false: zero is rejected if its exponent does not fit in an int. -/
theorem c17_zero_exponent_violated :
    toFloat (bytes "0e2147483648") = .ok none ∧
    ∃ k e, FloatNumeral (bytes "0e2147483648") 0 k e := by
  refine ⟨by decide +kernel, 2147483648, 2147483648, ?_⟩
  have b : bytes "0e2147483648" = bytes "0" ++ (101 :: bytes "2147483648") := by decide
  rw [b]
  refine .int (by decide) ?_ (.plain (.inl rfl) (by decide) ?_)
  · rw [decNumeral_iff]; exact ⟨by unfold Digits; decide, by decide⟩
  · rw [decNumeral_iff]; exact ⟨by unfold Digits; decide, by decide +kernel⟩

/-- A numeral that meets the hypotheses of `c17_value_partial`, and its value. -/
example : ∃ k e, FloatNumeral (bytes "12.5e-1") 125 k e ∧ k = -2 ∧ e = -1 ∧
    significantDigits (bytes "12.5e-1") = 3 ∧
    toFloat (sign true ++ bytes "12.5e-1") = .ok (some (.num (-5 / 4))) := by
  refine ⟨-2, -1, ?_, rfl, rfl, by decide, by decide +kernel⟩
  have b : bytes "12.5e-1" = bytes "12" ++ [46] ++ bytes "5" ++ (101 :: 45 :: bytes "1") := by decide
  rw [b]
  refine .point (by decide) ?_ (.minus (n := 1) (.inl rfl) (by decide) ?_)
  · rw [decNumeral_iff]; exact ⟨by unfold Digits; decide, by decide⟩
  · rw [decNumeral_iff]; exact ⟨by unfold Digits; decide, by decide⟩

example : toFloat (bytes "-INFinity") = .ok (some (.inf true)) ∧
    toFloat (bytes "nan(a_1)") = .ok (some .nan) ∧ toFloat (bytes "nan(") = .ok none ∧
    toFloat (bytes "0.0001") = .ok (some (.num (1 / 10000))) ∧ toFloat (bytes ".") = .ok none ∧
    toFloat (bytes "1e") = .ok none := by decide +kernel

end Gul14.ToNumber
