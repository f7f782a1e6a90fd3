import Verif.Statistics.IeeeLemmas
import Verif.Statistics.Props

/-! # C97: the statistics functions in floating-point arithmetic -/

namespace Gul14.Spec.Stat
open Ieee

/-- The result types, with the format in which `std::pow(x, 2)` is computed (for float that of
double, because the exponent is an integer). -/
inductive ResultType : Format → Format → Prop
  | float : ResultType binary32 binary64
  | double : ResultType binary64 binary64
  | longDouble : ResultType extended extended

/-- The arithmetic mean. -/
def average (xs : List ℚ) : ℚ := xs.sum / xs.length

/-- The sum of the squares of the distances from `c`. -/
def squares (c : ℚ) (xs : List ℚ) : ℚ := (xs.map fun x => (x - c) ^ 2).sum

/-- `m` is a number of the format, and none is nearer to `x`. -/
def Nearest (f : Format) (x m : ℚ) : Prop := f.Rep m ∧ ∀ g, f.Rep g → |m - x| ≤ |g - x|

/-- One after the other, an element `x` is taken out whose distance from a number `m` close to the
average is maximal up to rounding. -/
inductive RemovedFar {ε : Type} (f : Format) (val : ε → ℚ) : Nat → List ε → List ε → Prop
  | none (l) : RemovedFar f val 0 l l
  | empty (k) : RemovedFar f val k [] []
  | step {k : Nat} {pre : List ε} {x : ε} {post l' : List ε} (m : ℚ)
      (mean : |m - average ((pre ++ x :: post).map val)| ≤ (pre ++ x :: post).length * (2 / 2 ^ f.p) *
        average ((pre ++ x :: post).map fun e => |val e|) + (2 : ℚ) ^ (f.emin - 1))
      (far : ∀ y ∈ pre ++ x :: post,
        |val y - m| * (1 - 1 / 2 ^ f.p) ≤ |val x - m| * (1 + 1 / 2 ^ f.p))
      (rest : RemovedFar f val k (pre ++ post) l') : RemovedFar f val (k + 1) (pre ++ x :: post) l'

end Gul14.Spec.Stat

namespace Gul14.Statistics
open Ieee NumUtil Spec.Stat

variable {ε : Type}

theorem _root_.Gul14.Spec.Stat.ResultType.promotes {f g : Format} (h : ResultType f g) :
    Promotes f g := by
  cases h
  · exact promotes32
  · exact promotes64
  · exact promotes80

/-- Counts are small against the largest number, and it is large against the smallest. -/
theorem _root_.Gul14.Spec.Stat.ResultType.big {f g : Format} (h : ResultType f g) :
    16 * (2 : ℚ) ^ f.p ≤ f.max ∧ (2 : ℚ) ^ 64 ≤ f.max ∧ (2 : ℚ) ^ f.p * (2 : ℚ) ^ f.emin ≤ 1 := by
  cases h
  all_goals
    refine ⟨by decide +kernel, by decide +kernel, ?_⟩
    rw [← zpow_natCast, ← zpow_add₀ (by norm_num)]
    exact le_trans (zpow2_le (b := 0) (by decide)) (by norm_num)

/-! ## The mean -/

/-- The mean of up to 2^(p-1) finite values is accurate: with `n` values, the error is at most
`n` units of rounding of the average of the absolute values. -/
theorem mean_err {f g : Format} (h : ResultType f g) (acc : ε → Fl) (val : ε → ℚ) (l : List ε)
    (hne : l ≠ []) (hval : ∀ e ∈ l, f.conv (acc e) = .num (val e))
    (hn : 2 * l.length ≤ 2 ^ f.p) (hmax : 2 * (l.map fun e => |val e|).sum ≤ f.max) :
    ∃ m, fmean f acc l = .num m ∧ f.Rep m ∧
      |m - average (l.map val)| ≤
        l.length * (2 / 2 ^ f.p) * average (l.map fun e => |val e|) + (2 : ℚ) ^ (f.emin - 1) := by
  have hf := h.promotes.saneF
  obtain ⟨hb1, -, -⟩ := h.big
  have hlen : 1 ≤ l.length := List.length_pos_iff.2 hne
  have hn0 : (1 : ℚ) ≤ l.length := by exact_mod_cast hlen
  have hu : (0 : ℚ) ≤ 1 / 2 ^ f.p := by positivity
  have hnu : (l.length : ℚ) * (1 / 2 ^ f.p) ≤ 1 / 2 := by
    rw [mul_one_div, div_le_iff₀ (by positivity)]
    have : ((2 * l.length : Nat) : ℚ) ≤ ((2 ^ f.p : Nat) : ℚ) := by exact_mod_cast hn
    push_cast at this
    linarith
  have hpow := pow_le_simple hu l.length hnu
  have hpow1 : (1 + 1 / 2 ^ f.p : ℚ) ^ (l.length - 1) ≤ (1 + 1 / 2 ^ f.p) ^ l.length :=
    pow_le_pow_right₀ (by linarith) (by omega)
  have hB := sum_abs_nonneg val l
  obtain ⟨S, hS1, hS2, hS3⟩ := fsum_err hf acc val l hne hval (by
    refine le_trans (mul_le_mul_of_nonneg_right (show _ ≤ (2 : ℚ) by linarith) hB) hmax)
  have hcount : (l.length : ℚ) ≤ f.max := by
    have : ((2 * l.length : Nat) : ℚ) ≤ ((2 ^ f.p : Nat) : ℚ) := by exact_mod_cast hn
    push_cast at this
    nlinarith
  obtain ⟨hd1, hd2⟩ := div_count hf (rep_le_max f hS2) hlen (by omega) hcount
  refine ⟨f.near (S / l.length), by rw [fmean, hS1, hd1], hd2, ?_⟩
  have hgen := near_gen f (S / (l.length : ℚ))
  unfold average
  simp only [List.length_map]
  set B := (l.map fun e => |val e|).sum with hBdef
  set s := (l.map val).sum
  have hs := abs_sum_le val l
  set n := (l.length : ℚ)
  have hp1 : (1 + 1 / 2 ^ f.p : ℚ) ^ l.length = (1 + 1 / 2 ^ f.p) ^ (l.length - 1) * (1 + 1 / 2 ^ f.p) := by
    rw [← pow_succ]; congr 1; omega
  have hk1 : (1 : ℚ) ≤ (1 + 1 / 2 ^ f.p) ^ (l.length - 1) := one_le_pow₀ (by linarith)
  -- the computed sum is at most this
  have hSabs : |S| ≤ (1 + 1 / 2 ^ f.p) ^ (l.length - 1) * B := by
    have := abs_add_le (S - s) s
    rw [sub_add_cancel] at this
    nlinarith
  have e1 : f.near (S / n) - s / n = (f.near (S / n) - S / n) + (S - s) / n := by ring
  rw [e1]
  refine le_trans (abs_add_le _ _) ?_
  rw [abs_div S, abs_of_pos (a := n) (by linarith)] at hgen
  rw [abs_div, abs_of_pos (a := n) (by linarith)]
  have e2 : |S| / n / 2 ^ f.p ≤ 1 / 2 ^ f.p * ((1 + 1 / 2 ^ f.p) ^ (l.length - 1) * B) / n := by
    rw [div_div, mul_comm n, ← div_div, div_eq_mul_one_div |S|, mul_comm |S|]
    exact div_le_div_of_nonneg_right (mul_le_mul_of_nonneg_left hSabs hu) (by linarith)
  have e3 : |S - s| / n ≤ ((1 + 1 / 2 ^ f.p) ^ (l.length - 1) - 1) * B / n :=
    div_le_div_of_nonneg_right hS3 (by linarith)
  have e4 : 1 / 2 ^ f.p * ((1 + 1 / 2 ^ f.p) ^ (l.length - 1) * B) / n +
      ((1 + 1 / 2 ^ f.p) ^ (l.length - 1) - 1) * B / n ≤ n * (2 / 2 ^ f.p) * (B / n) := by
    rw [← add_div, ← mul_div_assoc]
    refine div_le_div_of_nonneg_right ?_ (by linarith)
    have : (1 + 1 / 2 ^ f.p : ℚ) ^ (l.length - 1) * (1 + 1 / 2 ^ f.p) - 1 ≤ n * (2 / 2 ^ f.p) := by
      rw [← hp1]
      have : n * (2 / 2 ^ f.p) = 2 * (n * (1 / 2 ^ f.p)) := by ring
      linarith
    calc _ = ((1 + 1 / 2 ^ f.p : ℚ) ^ (l.length - 1) * (1 + 1 / 2 ^ f.p) - 1) * B := by ring
      _ ≤ _ := mul_le_mul_of_nonneg_right this hB
  linarith

/-! ## Sums without rounding -/

theorem fold_exact {f : Format} (hf : Sane f) (acc : ε → Fl) (val : ε → ℚ) (q : Int)
    (hq : f.emin ≤ q) :
    ∀ (l : List ε) (A B : ℚ), (∀ e ∈ l, f.conv (acc e) = .num (val e)) →
      (∀ e ∈ l, ∃ k : Int, val e = k * (2 : ℚ) ^ q) → (∃ k : Int, A = k * (2 : ℚ) ^ q) → |A| ≤ B →
      B + (l.map fun e => |val e|).sum ≤ (2 : ℚ) ^ (q + f.p) →
      B + (l.map fun e => |val e|).sum ≤ f.max →
      l.foldl (fun accu el => f.add accu (f.conv (acc el))) (.num A) =
        .num (A + (l.map val).sum) := by
  have hp : 1 ≤ f.p := by have := hf.p; omega
  intro l
  induction l with
  | nil => intro A B _ _ _ _ _ _; simp
  | cons e l ih =>
    intro A B hval hmul hA hAB h1 h2
    simp only [List.map_cons, List.sum_cons] at h1 h2 ⊢
    have hS := sum_abs_nonneg val l
    obtain ⟨a, ha⟩ := hA
    obtain ⟨b, hb⟩ := hmul e List.mem_cons_self
    have hle : |A + val e| ≤ B + |val e| := le_trans (abs_add_le _ _) (by linarith)
    have hg : f.Grid (A + val e) := by
      have hab : A + val e = ((a + b : Int) : ℚ) * (2 : ℚ) ^ q := by rw [ha, hb]; push_cast; ring
      have hlt : |a + b| ≤ 2 ^ f.p := by
        have h3 : |A + val e| ≤ (2 : ℚ) ^ (q + f.p) := by linarith
        rw [hab, abs_mul, abs_of_pos (zpow2_pos q), add_comm q, zpow_add₀ (by norm_num),
          zpow_natCast] at h3
        have h4 := le_of_mul_le_mul_right h3 (zpow2_pos q)
        exact_mod_cast h4
      rcases lt_or_eq_of_le hlt with h4 | h4
      · exact ⟨a + b, q, hab, h4, hq⟩
      · obtain ⟨s, hs, hs1⟩ : ∃ s : Int, a + b = s * 2 ^ f.p ∧ |s| = 1 := by
          rcases abs_choice (a + b) with h7 | h7
          · exact ⟨1, by rw [← h4, h7]; ring, rfl⟩
          · exact ⟨-1, by rw [← h4, h7]; ring, rfl⟩
        refine ⟨s * 2 ^ (f.p - 1), q + 1, ?_, ?_, by omega⟩
        · rw [hab, hs, zpow_add_one₀ (by norm_num)]
          obtain ⟨j, hj⟩ : ∃ j, f.p = j + 1 := ⟨f.p - 1, by omega⟩
          rw [hj]
          simp only [Nat.add_sub_cancel]
          push_cast
          ring
        · rw [abs_mul, hs1, one_mul, abs_of_pos (by positivity)]
          exact pow_lt_pow_right₀ (by norm_num) (by omega)
    have hadd : f.add (.num A) (.num (val e)) = .num (A + val e) := by
      show f.round (A + val e) = _
      rw [round_num f hp hf.emax (by linarith), near_exact f hp hg]
    rw [List.foldl_cons, hval e List.mem_cons_self, hadd,
      ih (A + val e) (B + |val e|) (fun y hy => hval y (List.mem_cons_of_mem _ hy))
        (fun y hy => hmul y (List.mem_cons_of_mem _ hy))
        ⟨a + b, by rw [ha, hb]; push_cast; ring⟩ hle (by linarith) (by linarith), add_assoc]

/-! ## The sum of squares -/

set_option maxHeartbeats 1600000 in
/-- The squares of numbers whose squares add up to `W` up to some relative errors: the root of the
sum divided by a count. -/
theorem root_err {f g : Format} (h : ResultType f g) (sq : Square g) (dev : ε → Fl) (val : ε → ℚ)
    (l : List ε) (hdev : ∀ e ∈ l, dev e = .num (val e) ∧ f.Rep (val e)) (W : ℚ) (j c : Nat)
    (hW0 : 0 ≤ W) (hW1 : (1 - 2 / 2 ^ f.p) ^ j * W ≤ (l.map fun e => val e ^ 2).sum)
    (hW2 : (l.map fun e => val e ^ 2).sum ≤ (1 + 2 / 2 ^ f.p) ^ j * W)
    (hc : 1 ≤ c) (hcl : c ≤ l.length) (hlc : l.length ≤ 2 * c)
    (hn : 4 * (l.length + 3 + j) ≤ 2 ^ f.p) (hmax : 4 * W ≤ f.max) :
    ∃ r, f.sqrt (f.div (l.foldl (fun accu el => addSq f g sq accu (dev el)) (.num 0))
        (f.conv (.num c))) = .num r ∧ 0 ≤ r ∧
      |r ^ 2 - W / c| ≤ (l.length + 3 + j : Nat) * (4 / 2 ^ f.p) * (W / c) +
        10 * (2 : ℚ) ^ f.emin := by
  have hpr := h.promotes
  have hf := hpr.saneF
  obtain ⟨hb1, -, hb3⟩ := h.big
  have hu := nu_pos f
  have hu2 := nu_le hf
  have ht := zpow2_pos f.emin
  have hc0 : (1 : ℚ) ≤ c := by exact_mod_cast hc
  have hcl' : (c : ℚ) ≤ l.length := by exact_mod_cast hcl
  have hlc' : (l.length : ℚ) ≤ 2 * c := by exact_mod_cast hlc
  have h2p : (0 : ℚ) < 2 ^ f.p := by positivity
  have hnq : 4 * ((l.length + 3 + j : Nat) : ℚ) ≤ 2 ^ f.p := by exact_mod_cast hn
  have hnu : ((l.length + 3 + j : Nat) : ℚ) * (2 / 2 ^ f.p) ≤ 1 / 2 := by
    rw [← mul_div_assoc, div_le_iff₀ h2p]
    linarith
  have hnl : (l.length : ℚ) ≤ ((l.length + 3 + j : Nat) : ℚ) := by
    exact_mod_cast (by omega : l.length ≤ l.length + 3 + j)
  have hpow := pow_le_simple hu.le _ hnu
  have hlow := pow_ge_simple (by linarith : (2 : ℚ) / 2 ^ f.p ≤ 1) hu.le (l.length + 3 + j)
  have hpow2 : (1 + 2 / 2 ^ f.p : ℚ) ^ (l.length + 3 + j) ≤ 2 := by linarith
  set ν := (2 : ℚ) / 2 ^ f.p with hν
  set τ := (2 : ℚ) ^ f.emin with hτ
  set B := (l.map fun e => val e ^ 2).sum with hB
  have hB0 : 0 ≤ B := sum_sq_nonneg val l
  have hm1 : ∀ i, i ≤ l.length + 3 + j → (1 + ν) ^ i ≤ 2 := fun i hi =>
    le_trans (pow_le_pow_right₀ (by linarith) hi) hpow2
  have hnt : (l.length : ℚ) * τ ≤ 1 / 4 := by nlinarith
  have h2p1 : (1 : ℚ) ≤ 2 ^ f.p := one_le_pow₀ (by norm_num)
  have hstep : (1 + ν) ^ (l.length + 1) * B ≤ 2 * W := by
    calc _ ≤ (1 + ν) ^ (l.length + 1) * ((1 + ν) ^ j * W) :=
          mul_le_mul_of_nonneg_left hW2 (by positivity)
      _ = (1 + ν) ^ (l.length + 1 + j) * W := by rw [pow_add _ _ j]; ring
      _ ≤ _ := mul_le_mul_of_nonneg_right (hm1 _ (by omega)) hW0
  have hz : f.Rep 0 := grid_rep f hf.emax ⟨0, f.emin, by simp, by simp, le_refl _⟩ (by
    have := hf.max
    simp only [abs_zero]
    nlinarith)
  obtain ⟨S, hS1, hS2, hS3, hS4, hS5⟩ := fold_sq hpr sq dev val l 0 0 0 hdev hz (le_refl _)
    (le_refl _) (by simp) (by simp) (by
      simp only [Nat.cast_zero, zero_add]
      rw [← hB, ← hτ, mul_add]
      have h1 := hm1 (l.length + 1) (by omega)
      have h2 : (1 + ν) ^ (l.length + 1) * (2 * l.length * τ) ≤ 2 * (2 * l.length * τ) :=
        mul_le_mul_of_nonneg_right h1 (by positivity)
      nlinarith)
  simp only [Nat.cast_zero, zero_add] at hS4 hS5
  obtain ⟨r, hr1, hr2, hr3, hr4⟩ := sqrt_div hf hS2 hS3 hc (by omega) (by linarith)
  refine ⟨r, by rw [hS1]; exact hr1, hr2, ?_⟩
  rw [← hB, ← hτ] at hS4 hS5
  rw [← hτ] at hr3 hr4
  rw [← hν] at hS4 hS5 hr3 hr4
  -- the lower and the upper bound
  have hcpos : (0 : ℚ) < c := by linarith
  have h4 : 2 * (l.length : ℚ) * τ / c ≤ 4 * τ := by
    rw [div_le_iff₀ hcpos]; nlinarith
  have h40 : 0 ≤ 2 * (l.length : ℚ) * τ / c := by positivity
  have hWc : 0 ≤ W / c := by positivity
  have hν2 : 0 ≤ 1 - ν := by linarith
  have hlo : (1 - ν) ^ (l.length + 3 + j) * (W / c) - 5 * τ ≤ r ^ 2 := by
    have e1 : (1 - ν) ^ (l.length + 1 + j) * (W / c) - 2 * l.length * τ / c ≤ S / c := by
      rw [← mul_div_assoc, ← sub_div]
      refine div_le_div_of_nonneg_right (le_trans (sub_le_sub_right ?_ _) hS4) hcpos.le
      rw [pow_add _ _ j, mul_assoc]
      exact mul_le_mul_of_nonneg_left hW1 (by positivity)
    have e2 : (1 - ν) ^ 2 * ((1 - ν) ^ (l.length + 1 + j) * (W / c) - 4 * τ) ≤ (1 - ν) ^ 2 * (S / c) :=
      mul_le_mul_of_nonneg_left (by linarith) (by positivity)
    have e3 : (1 - ν) ^ (l.length + 3 + j) = (1 - ν) ^ 2 * (1 - ν) ^ (l.length + 1 + j) := by
      rw [← pow_add]; congr 1; omega
    have e4 : (1 - ν) ^ 2 ≤ 1 := pow_le_one₀ hν2 (by linarith)
    have e5 : (1 - ν) ^ 2 * (4 * τ) ≤ 1 * (4 * τ) := mul_le_mul_of_nonneg_right e4 (by linarith)
    rw [e3, mul_assoc]
    rw [mul_sub] at e2
    linarith
  have hhi : r ^ 2 ≤ (1 + ν) ^ (l.length + 3 + j) * (W / c) + 10 * τ := by
    have e1 : S / c ≤ (1 + ν) ^ (l.length + 1 + j) * (W / c) + (1 + ν) ^ (l.length + 1) * (4 * τ) := by
      rw [div_le_iff₀ hcpos]
      refine le_trans hS5 ?_
      have e0 : (1 + ν) ^ (l.length + 1 + j) * (W / c) * c = (1 + ν) ^ (l.length + 1) * ((1 + ν) ^ j * W) := by
        rw [pow_add _ _ j]; field_simp
      rw [mul_add, add_mul, e0]
      refine add_le_add (mul_le_mul_of_nonneg_left hW2 (by positivity)) ?_
      rw [mul_assoc ((1 + ν) ^ (l.length + 1))]
      refine mul_le_mul_of_nonneg_left ?_ (by positivity)
      nlinarith
    have e2 : (1 + ν) ^ 2 * (S / c + τ) ≤ (1 + ν) ^ 2 * ((1 + ν) ^ (l.length + 1 + j) * (W / c) +
        (1 + ν) ^ (l.length + 1) * (4 * τ) + τ) :=
      mul_le_mul_of_nonneg_left (by linarith) (by positivity)
    have e3 : (1 + ν) ^ (l.length + 3 + j) = (1 + ν) ^ 2 * (1 + ν) ^ (l.length + 1 + j) := by
      rw [← pow_add]; congr 1; omega
    have e4 : (1 + ν) ^ 2 * ((1 + ν) ^ (l.length + 1) * (4 * τ)) ≤ 2 * (4 * τ) := by
      rw [← mul_assoc, ← pow_add]
      exact mul_le_mul_of_nonneg_right (hm1 _ (by omega)) (by linarith)
    have e5 : (1 + ν) ^ 2 * τ ≤ 2 * τ := mul_le_mul_of_nonneg_right (hm1 _ (by omega)) ht.le
    rw [e3, mul_assoc]
    rw [mul_add, mul_add] at e2
    linarith
  have hfin : (l.length + 3 + j : Nat) * (4 / 2 ^ f.p) * (W / c) =
      2 * (((l.length + 3 + j : Nat) : ℚ) * ν) * (W / c) := by rw [hν]; ring
  rw [hfin, abs_le]
  constructor
  · have : (1 - ((l.length + 3 + j : Nat) : ℚ) * ν) * (W / c) ≤ (1 - ν) ^ (l.length + 3 + j) * (W / c) :=
      mul_le_mul_of_nonneg_right hlow hWc
    have h5 : 0 ≤ ((l.length + 3 + j : Nat) : ℚ) * ν * (W / c) := by positivity
    rw [sub_mul, one_mul] at this
    linarith
  · have : (1 + ν) ^ (l.length + 3 + j) * (W / c) ≤
        (1 + 2 * (((l.length + 3 + j : Nat) : ℚ) * ν)) * (W / c) :=
      mul_le_mul_of_nonneg_right hpow hWc
    rw [add_mul, one_mul] at this
    linarith

/-! ## The property theorems: mean -/

/-- C97: the mean.  With `n` finite values (2n at most 2^p, the sum of the absolute values at most
half of the largest number), the result is finite and its error is at most `n` times 2^(1-p) of
the average absolute value, plus half of the smallest positive number. -/
theorem c97_mean {f g : Format} (h : ResultType f g) (acc : ε → Fl) (val : ε → ℚ) (l : List ε)
    (hne : l ≠ []) (hval : ∀ e ∈ l, f.conv (acc e) = .num (val e))
    (hn : 2 * l.length ≤ 2 ^ f.p) (hmax : 2 * (l.map fun e => |val e|).sum ≤ f.max) :
    ∃ m, fmean f acc l = .num m ∧
      |m - average (l.map val)| ≤
        l.length * (2 / 2 ^ f.p) * average (l.map fun e => |val e|) + (2 : ℚ) ^ (f.emin - 1) := by
  obtain ⟨m, h1, -, h2⟩ := mean_err h acc val l hne hval hn hmax
  exact ⟨m, h1, h2⟩

/-- C97: if the values are multiples of a power of two, 2^q (integers, for instance), and the sum
of their absolute values is at most 2^(p+q), nothing is lost: the mean is the exact one, rounded
once, and lies between the smallest and the largest value. -/
theorem c97_mean_exact {f g : Format} (h : ResultType f g) (acc : ε → Fl) (val : ε → ℚ)
    (l : List ε) (hne : l ≠ []) (hval : ∀ e ∈ l, f.conv (acc e) = .num (val e))
    (hn : l.length < 2 ^ f.p) (q : Int) (hq : f.emin ≤ q)
    (hmul : ∀ e ∈ l, ∃ k : Int, val e = k * (2 : ℚ) ^ q)
    (hsum : (l.map fun e => |val e|).sum ≤ (2 : ℚ) ^ (q + f.p))
    (hmax : (l.map fun e => |val e|).sum ≤ f.max) :
    ∃ m, fmean f acc l = .num m ∧ Nearest f (average (l.map val)) m ∧
      ∀ lo hi, f.Rep lo → f.Rep hi → (∀ e ∈ l, lo ≤ val e ∧ val e ≤ hi) → lo ≤ m ∧ m ≤ hi := by
  have hf := h.promotes.saneF
  have hp : 1 ≤ f.p := by have := hf.p; omega
  obtain ⟨hb1, -, -⟩ := h.big
  have hlen : 1 ≤ l.length := List.length_pos_iff.2 hne
  have hn0 : (1 : ℚ) ≤ l.length := by exact_mod_cast hlen
  have hfold := fold_exact hf acc val q hq l 0 0 hval hmul ⟨0, by simp⟩ (by simp)
    (by linarith) (by linarith)
  rw [zero_add] at hfold
  have hcount : (l.length : ℚ) ≤ f.max := by
    have : ((l.length : Nat) : ℚ) ≤ ((2 ^ f.p : Nat) : ℚ) := by exact_mod_cast hn.le
    push_cast at this
    nlinarith
  obtain ⟨hd1, hd2⟩ := div_count hf (le_trans (abs_sum_le val l) hmax) hlen hn hcount
  refine ⟨f.near ((l.map val).sum / l.length), by rw [fmean, fsum, hfold, hd1], ⟨hd2, ?_⟩, ?_⟩
  · intro g hg
    have := near_nearest f hp (x := (l.map val).sum / (l.length : ℚ)) (rep_grid f hg)
    unfold average
    rw [List.length_map]
    exact this
  · intro lo hi hlo hhi hb
    obtain ⟨b1, b2⟩ := sum_bounds val l lo hi hb
    rw [← near_exact f hp (rep_grid f hlo), ← near_exact f hp (rep_grid f hhi)]
    exact ⟨near_mono f hp (by rw [le_div_iff₀ (by linarith)]; exact b1),
      near_mono f hp (by rw [div_le_iff₀ (by linarith)]; exact b2)⟩

/-! ## Root mean square and standard deviation -/

/-- C97: the root mean square.  Its square differs from the average of the squares by at most
`n + 3` times 2^(2-p) of it, plus ten times the smallest positive number. -/
theorem c97_rms {f g : Format} (h : ResultType f g) (sq : Square g) (acc : ε → Fl) (val : ε → ℚ)
    (l : List ε) (hne : l ≠ []) (hval : ∀ e ∈ l, f.conv (acc e) = .num (val e))
    (hn : 4 * (l.length + 3) ≤ 2 ^ f.p) (hmax : 4 * (l.map fun e => val e ^ 2).sum ≤ f.max) :
    ∃ r, frms f g sq acc l = .num r ∧ 0 ≤ r ∧
      |r ^ 2 - average (l.map fun e => val e ^ 2)| ≤
        (l.length + 3) * (4 / 2 ^ f.p) * average (l.map fun e => val e ^ 2) +
          10 * (2 : ℚ) ^ f.emin := by
  have hlen : 1 ≤ l.length := List.length_pos_iff.2 hne
  obtain ⟨r, h1, h2, h3⟩ := root_err h sq (fun e => f.conv (acc e)) val l
    (fun e he => ⟨hval e he, conv_rep h.promotes.saneF (hval e he)⟩) _ 0 l.length
    (sum_sq_nonneg val l) (by simp) (by simp) hlen (le_refl _) (by omega) (by simpa using hn) hmax
  refine ⟨r, h1, h2, ?_⟩
  unfold average
  rw [List.length_map]
  simpa using h3

theorem squares_eq (val : ε → ℚ) (l : List ε) (c : ℚ) :
    squares c (l.map val) = (l.map fun e => val e ^ 2).sum - 2 * c * (l.map val).sum +
      l.length * c ^ 2 := by
  induction l with
  | nil => simp [squares]
  | cons e l ih =>
    simp only [squares, List.map_cons, List.sum_cons, List.length_cons] at ih ⊢
    rw [ih]
    push_cast
    ring

/-- The distances from another number than the average. -/
theorem squares_shift (val : ε → ℚ) (l : List ε) (hne : l ≠ []) (m : ℚ) :
    squares m (l.map val) = squares (average (l.map val)) (l.map val) +
      l.length * (m - average (l.map val)) ^ 2 := by
  have hlen : (1 : ℚ) ≤ l.length := by exact_mod_cast List.length_pos_iff.2 hne
  rw [squares_eq, squares_eq]
  unfold average
  rw [List.length_map]
  field_simp
  ring

theorem squares_nonneg (c : ℚ) (xs : List ℚ) : 0 ≤ squares c xs := by
  induction xs with
  | nil => simp [squares]
  | cons x l ih =>
    simp only [squares, List.map_cons, List.sum_cons] at ih ⊢
    have := sq_nonneg (x - c)
    linarith

/-- The square of the average is at most the average of the squares. -/
theorem average_sq_le (val : ε → ℚ) (l : List ε) (hne : l ≠ []) :
    l.length * average (l.map val) ^ 2 ≤ (l.map fun e => val e ^ 2).sum := by
  have h := squares_shift val l hne 0
  have h1 := squares_nonneg (average (l.map val)) (l.map val)
  rw [squares_eq] at h
  simp only [mul_zero, zero_mul, sub_zero, zero_sub] at h
  nlinarith

/-- `f` of every element, multiplied. -/
theorem sum_map_le (p q : ε → ℚ) (l : List ε) (h : ∀ e ∈ l, p e ≤ q e) :
    (l.map p).sum ≤ (l.map q).sum := by
  induction l with
  | nil => simp
  | cons e l ih =>
    simp only [List.map_cons, List.sum_cons]
    exact add_le_add (h e List.mem_cons_self) (ih fun y hy => h y (List.mem_cons_of_mem _ hy))

theorem sum_map_mul (p : ε → ℚ) (a : ℚ) (l : List ε) :
    (l.map fun e => a * p e).sum = a * (l.map p).sum := by
  induction l with
  | nil => simp
  | cons e l ih => simp only [List.map_cons, List.sum_cons, ih]; ring

set_option maxHeartbeats 1600000 in
/-- C97: the standard deviation, for two or more values.  Its square differs from the sample
variance by at most `n + 5` times 2^(2-p) of it, plus four times the square of the error of the
mean, plus ten times the smallest positive number. -/
theorem c97_standard_deviation {f g : Format} (h : ResultType f g) (sq : Square g) (acc : ε → Fl)
    (val : ε → ℚ) (l : List ε) (h2 : 2 ≤ l.length)
    (hval : ∀ e ∈ l, f.conv (acc e) = .num (val e))
    (hn : 4 * (l.length + 5) ≤ 2 ^ f.p) (hmax : 128 * (l.map fun e => val e ^ 2).sum ≤ f.max) :
    ∃ s m δ, fstandardDeviation f g sq acc l = (.num s, .num m) ∧ 0 ≤ s ∧
      |m - average (l.map val)| ≤ δ ∧
      δ = l.length * (2 / 2 ^ f.p) * average (l.map fun e => |val e|) + (2 : ℚ) ^ (f.emin - 1) ∧
      |s ^ 2 - squares (average (l.map val)) (l.map val) / (l.length - 1)| ≤
        (l.length + 5) * (4 / 2 ^ f.p) *
          (squares (average (l.map val)) (l.map val) / (l.length - 1)) + 4 * δ ^ 2 +
        10 * (2 : ℚ) ^ f.emin := by
  have hpr := h.promotes
  have hf := hpr.saneF
  have hp : 1 ≤ f.p := by have := hf.p; omega
  obtain ⟨hb1, -, hb3⟩ := h.big
  have hne : l ≠ [] := by rintro rfl; simp at h2
  have hu := nu_pos f
  have hu2 := nu_le hf
  have ht := zpow2_pos f.emin
  have h2p : (0 : ℚ) < 2 ^ f.p := by positivity
  have h2p1 : (1 : ℚ) ≤ 2 ^ f.p := one_le_pow₀ (by norm_num)
  have hl2 : (2 : ℚ) ≤ l.length := by exact_mod_cast h2
  have hnq : 4 * ((l.length : ℚ) + 5) ≤ 2 ^ f.p := by exact_mod_cast hn
  have hB0 := sum_sq_nonneg val l
  -- the sum of the absolute values
  have habs : 2 * (l.map fun e => |val e|).sum ≤ f.max := by
    have : (l.map fun e => |val e|).sum ≤ (l.map fun e => val e ^ 2).sum + l.length := by
      clear hval hn hmax h2 hne hl2 hnq hB0
      induction l with
      | nil => simp
      | cons e l ih =>
        simp only [List.map_cons, List.sum_cons, List.length_cons]
        have : |val e| ≤ val e ^ 2 + 1 := by
          rw [← sq_abs]; nlinarith [sq_nonneg (|val e| - 1)]
        push_cast
        linarith
    nlinarith
  obtain ⟨m, hm1, hm2, hm3⟩ := mean_err h acc val l hne hval (by omega) habs
  set μ := average (l.map val) with hμ
  set δ := l.length * (2 / 2 ^ f.p) * average (l.map fun e => |val e|) + (2 : ℚ) ^ (f.emin - 1)
    with hδ
  set W := squares m (l.map val) with hW
  have hW0 : 0 ≤ W := squares_nonneg _ _
  -- the mean is not large
  have havg := average_sq_le (fun e => |val e|) l hne
  simp only [sq_abs] at havg
  have havg0 : 0 ≤ average (l.map fun e => |val e|) := by
    unfold average
    exact div_nonneg (sum_abs_nonneg val l) (by positivity)
  have hμle : |μ| ≤ average (l.map fun e => |val e|) := by
    rw [hμ]
    unfold average
    rw [List.length_map, List.length_map, abs_div, abs_of_nonneg (a := (l.length : ℚ)) (by linarith)]
    exact div_le_div_of_nonneg_right (abs_sum_le val l) (by linarith)
  set a := average (l.map fun e => |val e|)
  have hnu : (l.length : ℚ) * (2 / 2 ^ f.p) ≤ 1 / 2 := by
    rw [← mul_div_assoc, div_le_iff₀ h2p]; linarith
  have hte : (2 : ℚ) ^ (f.emin - 1) = (2 : ℚ) ^ f.emin / 2 := by
    rw [zpow_sub_one₀ (by norm_num)]; ring
  have hδle : δ ≤ a / 2 + (2 : ℚ) ^ f.emin / 2 := by
    rw [hδ, hte]; nlinarith
  have hδ0 : 0 ≤ δ := le_trans (abs_nonneg _) hm3
  have hmle : |m| ≤ 2 * a + (2 : ℚ) ^ f.emin := by
    have := abs_add_le (m - μ) μ
    rw [sub_add_cancel] at this
    linarith
  set τ := (2 : ℚ) ^ f.emin with hτ
  have hτ1 : τ ≤ 1 := by nlinarith
  have hnt : (l.length : ℚ) * τ ≤ 1 := by nlinarith
  have hm2' : m ^ 2 ≤ 8 * a ^ 2 + 2 * τ := by
    have h1 : m ^ 2 ≤ (2 * a + τ) ^ 2 := by
      rw [← sq_abs]; exact pow_le_pow_left₀ (abs_nonneg _) hmle 2
    have h3 : (2 * a + τ) ^ 2 ≤ 8 * a ^ 2 + 2 * τ ^ 2 := by nlinarith [sq_nonneg (2 * a - τ)]
    have h4 : τ ^ 2 ≤ τ := by nlinarith
    linarith
  have hWle : W ≤ 4 * (l.map fun e => val e ^ 2).sum + 2 * (l.length * m ^ 2) := by
    rw [hW, squares_shift val l hne, ← hμ]
    have h1 := squares_shift val l hne 0
    rw [squares_eq, ← hμ] at h1
    simp only [mul_zero, zero_mul, sub_zero, zero_sub] at h1
    have h3 : (m - μ) ^ 2 ≤ 2 * m ^ 2 + 2 * μ ^ 2 := by nlinarith [sq_nonneg (m + μ)]
    have h4 : (l.length : ℚ) * (m - μ) ^ 2 ≤ l.length * (2 * m ^ 2 + 2 * μ ^ 2) :=
      mul_le_mul_of_nonneg_left h3 (by linarith)
    have h5 := average_sq_le val l hne
    rw [← hμ] at h5
    have h6 := squares_nonneg μ (l.map val)
    nlinarith
  have hnm : (l.length : ℚ) * m ^ 2 ≤ 8 * (l.map fun e => val e ^ 2).sum + 2 := by
    have := mul_le_mul_of_nonneg_left hm2' (by linarith : (0 : ℚ) ≤ l.length)
    nlinarith
  have hfm := hf.max
  have hWmax : 4 * W ≤ f.max := by nlinarith
  -- the computed distances
  have hmem : ∀ e ∈ l, (val e - m) ^ 2 ≤ W := by
    rw [hW]
    intro e he
    exact List.single_le_sum (by
      simp only [List.mem_map]
      rintro _ ⟨_, _, rfl⟩
      exact sq_nonneg _) _ (by
      rw [List.map_map]
      exact List.mem_map.2 ⟨e, he, rfl⟩)
  have hdev : ∀ e ∈ l, f.sub (f.conv (acc e)) (.num m) = .num (f.near (val e - m)) ∧
      f.Rep (f.near (val e - m)) := by
    intro e he
    rw [hval e he]
    have h1 : |val e - m| ≤ f.max := by
      have h3 := hmem e he
      rw [← sq_abs] at h3
      nlinarith [sq_nonneg (|val e - m| - 1)]
    have := Rep.of_round hf h1
    refine ⟨?_, this.2⟩
    show f.round (val e + -m) = _
    rw [← sub_eq_add_neg]
    exact this.1
  have hrel : ∀ e ∈ l, (1 - 2 / 2 ^ f.p) ^ 2 * (val e - m) ^ 2 ≤ f.near (val e - m) ^ 2 ∧
      f.near (val e - m) ^ 2 ≤ (1 + 2 / 2 ^ f.p) ^ 2 * (val e - m) ^ 2 := by
    intro e he
    have hg := rep_grid f (conv_rep hf (hval e he))
    have hgm : f.Grid (-m) := grid_neg f (rep_grid f hm2)
    have hd := near_add hp hg hgm
    rw [← sub_eq_add_neg] at hd
    set d := val e - m
    set r := f.near d
    have hd' : |r - d| ≤ 2 / 2 ^ f.p * |d| := by
      refine le_trans hd ?_
      rw [div_mul_eq_mul_div]
      refine div_le_div_of_nonneg_right ?_ h2p.le
      have := abs_nonneg d
      linarith
    have hr1 : |r| ≤ (1 + 2 / 2 ^ f.p) * |d| := by
      have := abs_add_le (r - d) d
      rw [sub_add_cancel] at this
      linarith
    have hr2 : (1 - 2 / 2 ^ f.p) * |d| ≤ |r| := by
      have := abs_sub_abs_le_abs_sub d r
      rw [abs_sub_comm d r] at this
      linarith
    constructor
    · rw [← sq_abs d, ← sq_abs r, ← mul_pow]
      exact pow_le_pow_left₀ (mul_nonneg (by linarith) (abs_nonneg _)) hr2 2
    · rw [← sq_abs d, ← sq_abs r, ← mul_pow]
      exact pow_le_pow_left₀ (abs_nonneg _) hr1 2
  have hWs : W = (l.map fun e => (val e - m) ^ 2).sum := by
    rw [hW]; unfold squares; rw [List.map_map]; rfl
  obtain ⟨s, hs1, hs2, hs3⟩ := root_err h sq (fun e => f.sub (f.conv (acc e)) (.num m))
    (fun e => f.near (val e - m)) l hdev W 2 (l.length - 1) hW0 (by
      rw [hWs, ← sum_map_mul]; exact sum_map_le _ _ l fun e he => (hrel e he).1) (by
      rw [hWs, ← sum_map_mul]; exact sum_map_le _ _ l fun e he => (hrel e he).2)
    (by omega) (by omega) (by omega) (by omega) hWmax
  refine ⟨s, m, δ, ?_, hs2, hm3, rfl, ?_⟩
  · unfold fstandardDeviation
    rw [if_neg (by omega)]
    simp only [hm1]
    rw [if_neg (by omega), hs1]
  have hcast : ((l.length - 1 : Nat) : ℚ) = (l.length : ℚ) - 1 := by
    rw [Nat.cast_sub (by omega)]; simp
  rw [hcast] at hs3
  have hcast2 : ((l.length + 3 + 2 : Nat) : ℚ) = l.length + 5 := by push_cast; ring
  rw [hcast2, ← hτ] at hs3
  have hshift := squares_shift val l hne m
  rw [← hW, ← hμ] at hshift
  set V := squares μ (l.map val)
  set c := (l.length : ℚ) - 1 with hc
  have hc1 : 1 ≤ c := by linarith
  have hd2 : (m - μ) ^ 2 ≤ δ ^ 2 := by
    rw [← sq_abs]; exact pow_le_pow_left₀ (abs_nonneg _) hm3 2
  have hX : W / c = V / c + l.length / c * (m - μ) ^ 2 := by rw [hshift]; ring
  have hnc : (l.length : ℚ) / c ≤ 2 := by rw [div_le_iff₀ (by linarith)]; linarith
  have hY : (l.length : ℚ) / c * (m - μ) ^ 2 ≤ 2 * δ ^ 2 :=
    mul_le_mul hnc hd2 (sq_nonneg _) (by norm_num)
  have hY0 : 0 ≤ (l.length : ℚ) / c * (m - μ) ^ 2 :=
    mul_nonneg (div_nonneg (by linarith) (by linarith)) (sq_nonneg _)
  have hk : ((l.length : ℚ) + 5) * (4 / 2 ^ f.p) ≤ 1 := by
    rw [← mul_div_assoc, div_le_iff₀ h2p]; linarith
  have hkY : ((l.length : ℚ) + 5) * (4 / 2 ^ f.p) * (l.length / c * (m - μ) ^ 2) ≤
      1 * (l.length / c * (m - μ) ^ 2) := mul_le_mul_of_nonneg_right hk hY0
  rw [hX, mul_add] at hs3
  have e : s ^ 2 - V / c = (s ^ 2 - (V / c + l.length / c * (m - μ) ^ 2)) +
      l.length / c * (m - μ) ^ 2 := by ring
  rw [e]
  refine le_trans (abs_add_le _ _) ?_
  rw [abs_of_nonneg hY0]
  linarith

/-! ## No NaN out of numbers -/

theorem round_cases {f : Format} (hf : Sane f) (x : ℚ) :
    f.round x = .inf (x < 0) ∨ ∃ r, f.round x = .num r ∧ f.Rep r := by
  have hp : 1 ≤ f.p := by have := hf.p; omega
  by_cases h : f.max < |f.near x|
  · left; unfold Format.round; rw [if_pos h]
  · right
    have h1 : f.round x = .num (f.near x) := by unfold Format.round; rw [if_neg h]
    exact ⟨_, h1, round_rep f hp hf.emax h1⟩

/-- A count is a number, at least one. -/
theorem count_pos {f g : Format} (h : ResultType f g) {n : Nat} (hn : 1 ≤ n) (hn2 : n < 2 ^ 64) :
    ∃ c, f.conv (.num n) = .num c ∧ 1 ≤ c := by
  have hf := h.promotes.saneF
  have hp : 2 ≤ f.p := hf.p
  have he := hf.emin
  obtain ⟨-, hb2, -⟩ := h.big
  have hn0 : (1 : ℚ) ≤ n := by exact_mod_cast hn
  have hn3 : (n : ℚ) ≤ 2 ^ 64 := by exact_mod_cast hn2.le
  refine ⟨f.near n, round_num f (by omega) hf.emax
    (by rw [abs_of_nonneg (by linarith)]; linarith), ?_⟩
  have h1 : f.Grid ((1 : Int) : ℚ) := grid_int f (by omega) (by
    rw [abs_one]; exact one_lt_pow₀ (by norm_num) (by omega))
  have h2 := near_exact f (by omega) h1
  have h3 := near_mono f (by omega) (show ((1 : Int) : ℚ) ≤ n by simpa using hn0)
  rw [h2] at h3
  simpa using h3

/-- A number of the format or an infinity. -/
def NumOrInf (f : Format) (v : Fl) : Prop := (∃ b, v = .inf b) ∨ ∃ r, v = .num r ∧ f.Rep r

/-- A number that is not negative, or positive infinity. -/
def NonNeg (v : Fl) : Prop := v = .inf false ∨ ∃ r, v = .num r ∧ 0 ≤ r

theorem numOrInf_round {f : Format} (hf : Sane f) (x : ℚ) : NumOrInf f (f.round x) := by
  rcases round_cases hf x with h | h
  · exact Or.inl ⟨_, h⟩
  · exact Or.inr h

theorem mean_cases {f g : Format} (h : ResultType f g) (acc : ε → Fl) (l : List ε) (hne : l ≠ [])
    (hlen : l.length < 2 ^ 64) (hval : ∀ e ∈ l, ∃ x, f.conv (acc e) = .num x) :
    NumOrInf f (fmean f acc l) := by
  have hf := h.promotes.saneF
  have hz : f.Rep 0 := grid_rep f hf.emax ⟨0, f.emin, by simp, by simp, le_refl _⟩ (by
    have := hf.max
    simp only [abs_zero]
    exact le_trans (by positivity) this)
  have key : ∀ (l : List ε) (a : Fl), NumOrInf f a →
      (∀ e ∈ l, ∃ x, f.conv (acc e) = .num x) →
      NumOrInf f (l.foldl (fun accu el => f.add accu (f.conv (acc el))) a) := by
    intro l
    induction l with
    | nil => intro a ha _; exact ha
    | cons e l ih =>
      intro a ha hv
      obtain ⟨x, hx⟩ := hv e List.mem_cons_self
      rw [List.foldl_cons]
      refine ih _ ?_ fun y hy => hv y (List.mem_cons_of_mem _ hy)
      rw [hx]
      rcases ha with ⟨b, rfl⟩ | ⟨r, rfl, -⟩
      · exact Or.inl ⟨b, rfl⟩
      · exact numOrInf_round hf _
  have hsum : NumOrInf f (fsum f acc l) := key l (.num 0) (Or.inr ⟨0, rfl, hz⟩) hval
  obtain ⟨c, hc, hc1⟩ := count_pos h (List.length_pos_iff.2 hne) hlen
  unfold fmean
  rw [hc]
  rcases hsum with ⟨b, hb⟩ | ⟨r, hr, -⟩
  · rw [hb]; exact Or.inl ⟨_, rfl⟩
  · rw [hr]
    show NumOrInf f (if c = 0 then _ else _)
    rw [if_neg (by linarith)]
    exact numOrInf_round hf _

theorem conv_nonneg {f : Format} (hf : Sane f) {v : Fl} (h : NonNeg v) : NonNeg (f.conv v) := by
  have hp : 1 ≤ f.p := by have := hf.p; omega
  rcases h with rfl | ⟨r, rfl, hr⟩
  · exact Or.inl rfl
  · rcases round_cases hf r with h | ⟨s, h, -⟩
    · exact Or.inl (by show f.round r = _; rw [h, decide_eq_false (by linarith)])
    · refine Or.inr ⟨s, h, ?_⟩
      unfold Format.round at h
      split at h
      · cases h
      · injection h with h
        rw [← h]
        exact near_nonneg f hp hr

theorem addSq_nonneg {f g : Format} (h : Promotes f g) (sq : Square g) {a x : Fl} (ha : NonNeg a)
    (hx : x ≠ .nan) : NonNeg (addSq f g sq a x) := by
  unfold addSq
  refine conv_nonneg h.saneF ?_
  have hs : NonNeg (sq.run x) := by
    cases x with
    | nan => exact absurd rfl hx
    | inf b => exact Or.inl (sq.inf b)
    | num x =>
      rcases sq.range x with h1 | ⟨s, h1, h2, -⟩
      · exact Or.inl h1
      · exact Or.inr ⟨s, h1, h2⟩
  rcases ha with rfl | ⟨r, rfl, hr⟩ <;> rcases hs with hs | ⟨s, hs, hs0⟩ <;> rw [hs]
  · exact Or.inl rfl
  · exact Or.inl rfl
  · exact Or.inl rfl
  · exact conv_nonneg (v := .num (r + s)) h.saneG (Or.inr ⟨_, rfl, by linarith⟩)

theorem root_cases {f g : Format} (h : ResultType f g) (sq : Square g) (dev : ε → Fl) (l : List ε)
    (hdev : ∀ e ∈ l, dev e ≠ .nan) {n : Nat} (hn : 1 ≤ n) (hn2 : n < 2 ^ 64) :
    NonNeg (f.sqrt (f.div (l.foldl (fun accu el => addSq f g sq accu (dev el)) (.num 0))
      (f.conv (.num n)))) := by
  have hf := h.promotes.saneF
  have hp : 1 ≤ f.p := by have := hf.p; omega
  have key : ∀ (l : List ε) (a : Fl), NonNeg a → (∀ e ∈ l, dev e ≠ .nan) →
      NonNeg (l.foldl (fun accu el => addSq f g sq accu (dev el)) a) := by
    intro l
    induction l with
    | nil => intro a ha _; exact ha
    | cons e l ih =>
      intro a ha hv
      rw [List.foldl_cons]
      exact ih _ (addSq_nonneg h.promotes sq ha (hv e List.mem_cons_self))
        fun y hy => hv y (List.mem_cons_of_mem _ hy)
  have hS := key l (.num 0) (Or.inr ⟨0, rfl, le_refl _⟩) hdev
  obtain ⟨c, hc, hc1⟩ := count_pos h hn hn2
  rw [hc]
  have hq : NonNeg (f.div (l.foldl (fun accu el => addSq f g sq accu (dev el)) (.num 0)) (.num c)) := by
    rcases hS with hS | ⟨r, hS, hr⟩ <;> rw [hS]
    · left
      show Fl.inf (false != decide (c < 0)) = _
      rw [decide_eq_false (by linarith)]
      rfl
    · show NonNeg (if c = 0 then _ else _)
      rw [if_neg (by linarith)]
      exact conv_nonneg (v := .num (r / c)) hf (Or.inr ⟨_, rfl, div_nonneg hr (by linarith)⟩)
  rcases hq with hq | ⟨r, hq, hr⟩ <;> rw [hq]
  · exact Or.inl rfl
  · right
    refine ⟨f.sqrtNear r, ?_, (sqrtNear_rel f hp hr).1⟩
    show (if r < 0 then _ else _) = _
    rw [if_neg (by linarith)]

/-- C97: out of any finite data, at least one element and fewer than 2^64, however large, never
comes a NaN: the mean is a number or an infinity; the root mean square is a number that is not
negative, or positive infinity; and so is the standard deviation of at least two elements. -/
theorem c97_not_nan {f g : Format} (h : ResultType f g) (sq : Square g) (acc : ε → Fl)
    (l : List ε) (hne : l ≠ []) (hlen : l.length < 2 ^ 64)
    (hval : ∀ e ∈ l, ∃ x, f.conv (acc e) = .num x) :
    fmean f acc l ≠ .nan ∧
    (frms f g sq acc l = .inf false ∨ ∃ r, frms f g sq acc l = .num r ∧ 0 ≤ r) ∧
    (2 ≤ l.length → ((fstandardDeviation f g sq acc l).1 = .inf false ∨
        ∃ r, (fstandardDeviation f g sq acc l).1 = .num r ∧ 0 ≤ r)) ∧
    (fstandardDeviation f g sq acc l).2 = fmean f acc l := by
  have hl : 1 ≤ l.length := List.length_pos_iff.2 hne
  have hm := mean_cases h acc l hne hlen hval
  refine ⟨?_, ?_, ?_, ?_⟩
  · rcases hm with ⟨b, hb⟩ | ⟨r, hr, -⟩
    · rw [hb]; exact fun h => by cases h
    · rw [hr]; exact fun h => by cases h
  · exact root_cases h sq (fun e => f.conv (acc e)) l (by
      intro e he
      obtain ⟨x, hx⟩ := hval e he
      rw [hx]
      exact fun h => by cases h) hl hlen
  · intro h2
    unfold fstandardDeviation
    rw [if_neg (by omega)]
    simp only
    rw [if_neg (by omega)]
    refine root_cases h sq (fun e => f.sub (f.conv (acc e)) (fmean f acc l)) l ?_ (by omega)
      (by omega)
    intro e he
    obtain ⟨x, hx⟩ := hval e he
    rw [hx]
    rcases hm with ⟨b, hb⟩ | ⟨r, hr, -⟩
    · rw [hb]; exact fun h => by cases h
    · rw [hr]
      show f.round (x + -r) ≠ _
      rcases round_cases h.promotes.saneF (x + -r) with h1 | ⟨s, h1, -⟩ <;> rw [h1] <;>
        exact fun h => by cases h
  · unfold fstandardDeviation
    rw [if_neg (by omega)]
    simp only
    split <;> rfl

theorem add_nan (f : Format) (v : Fl) : f.add v .nan = .nan := by cases v <;> rfl

theorem nan_add (f : Format) (v : Fl) : f.add .nan v = .nan := by cases v <;> rfl

theorem nan_div (f : Format) (v : Fl) : f.div .nan v = .nan := by cases v <;> rfl

theorem fold_nan (step : Fl → ε → Fl) (hnan : ∀ e, step .nan e = .nan) (l : List ε)
    (hex : ∃ e ∈ l, ∀ a, step a e = .nan) : ∀ a, l.foldl step a = .nan := by
  have h0 : ∀ l : List ε, l.foldl step .nan = .nan := by
    intro l
    induction l with
    | nil => rfl
    | cons e l ih => rw [List.foldl_cons, hnan, ih]
  induction l with
  | nil => obtain ⟨e, he, -⟩ := hex; cases he
  | cons e l ih =>
    intro a
    rw [List.foldl_cons]
    obtain ⟨y, hy, hn⟩ := hex
    rcases List.mem_cons.1 hy with rfl | hy
    · rw [hn, h0]
    · exact ih ⟨y, hy, hn⟩ _

/-- C97: a NaN among the data makes the mean, the root mean square and the standard deviation NaN;
no data give NaN; and the standard deviation of a single element is NaN. -/
theorem c97_nan {f g : Format} (h : ResultType f g) (sq : Square g) (acc : ε → Fl) (l : List ε) :
    ((∃ e ∈ l, acc e = .nan) → fmean f acc l = .nan ∧ frms f g sq acc l = .nan ∧
      fstandardDeviation f g sq acc l = (.nan, .nan)) ∧
    (l = [] → fmean f acc l = .nan ∧ frms f g sq acc l = .nan ∧
      fstandardDeviation f g sq acc l = (.nan, .nan)) ∧
    (∀ e, l = [e] → (fstandardDeviation f g sq acc l).1 = .nan) := by
  have hf := h.promotes.saneF
  have hr0 : f.round 0 = .num 0 := by
    have := round_num f (by have := hf.p; omega) hf.emax (x := 0) (by
      rw [abs_zero]; exact le_trans (by positivity) hf.max)
    rw [this, near_zero]
  refine ⟨?_, ?_, ?_⟩
  · rintro ⟨e, he, hn⟩
    have hc : f.conv (acc e) = .nan := by rw [hn]; rfl
    have hm : fmean f acc l = .nan := by
      unfold fmean fsum
      rw [fold_nan (fun accu el => f.add accu (f.conv (acc el))) (fun e => nan_add f _) l ⟨e, he, fun a => by rw [hc]; exact add_nan f a⟩, nan_div]
    have hsq : ∀ dev : ε → Fl, dev e = .nan →
        l.foldl (fun accu el => addSq f g sq accu (dev el)) (.num 0) = .nan := by
      intro dev hd
      refine fold_nan _ (fun e => ?_) l ⟨e, he, fun a => ?_⟩ _
      · unfold addSq; rw [nan_add]; rfl
      · unfold addSq; rw [hd, sq.nan, add_nan]; rfl
    refine ⟨hm, ?_, ?_⟩
    · unfold frms
      rw [hsq (fun el => f.conv (acc el)) hc, nan_div]; rfl
    · unfold fstandardDeviation
      rw [hm]
      split
      · rfl
      simp only
      split
      · rfl
      · rw [hsq (fun el => f.sub (f.conv (acc el)) .nan) (add_nan f _), nan_div]; rfl
  · rintro rfl
    have h0 : f.conv (.num ((([] : List ε).length : Nat) : ℚ)) = .num 0 := by
      show f.round ((0 : Nat) : ℚ) = _
      rw [Nat.cast_zero, hr0]
    refine ⟨?_, ?_, rfl⟩
    · unfold fmean fsum; rw [h0]; rfl
    · unfold frms; rw [h0]; rfl
  · rintro e rfl; rfl

/-! ## The median -/

theorem median_sorted {K R : Type} [LinearOrder K] (N : NthElement K) (conv : K → R) (half : R → R)
    (add : R → R → R) (acc : ε → K) (l : List ε) (s : List K) (hs : Spec.SortedOf s (l.map acc)) :
    (∀ k a, l.length = 2 * k + 1 → s[k]? = some a → median N conv half add acc l = some (conv a)) ∧
    (∀ k a b, l.length = 2 * k + 2 → s[k]? = some a → s[k + 1]? = some b →
      median N conv half add acc l = some (add (half (conv b)) (half (conv a)))) := by
  refine ⟨?_, ?_⟩
  · intro k a hk ha
    have hk2 : l.length / 2 = k := by omega
    have hsort := nth_sorted N (l.map acc) s k (by simp; omega) hs
    unfold median
    simp only
    rw [if_neg (by omega), hk2, hsort, ha]
    simp only [Option.bind_some]
    rw [if_neg (by omega)]
  · intro k a b hk ha hb
    have hk2 : l.length / 2 = k + 1 := by omega
    have hsort := nth_sorted N (l.map acc) s (k + 1) (by simp; omega) hs
    have hp := N.perm (l.map acc) (k + 1)
    have hsort2 := nth_sorted N (N.run (l.map acc) (k + 1)) s k
      (by rw [hp.length_eq]; simp; omega) ⟨hs.1.trans hp.symm, hs.2⟩
    unfold median
    simp only
    rw [if_neg (by omega), hk2, hsort, hb]
    simp only [Option.bind_some]
    rw [if_pos (by omega), show k + 1 - 1 = k from rfl, hsort2, ha]
    rfl

/-- Half of a number of the format, rounded. -/
theorem half_num {f g : Format} (h : ResultType f g) {a : ℚ} (ha : f.Rep a) :
    f.div (.num a) (.num 2) = .num (f.near (a / 2)) ∧ f.Grid (f.near (a / 2)) ∧
      |f.near (a / 2)| ≤ f.max / 2 ∧ |f.near (a / 2) - a / 2| ≤ (2 : ℚ) ^ (f.emin - 1) ∧
      (a = 0 ∨ (2 : ℚ) ^ (f.emin + f.p) ≤ |a| → f.near (a / 2) = a / 2) := by
  have hf := h.promotes.saneF
  have hp : 1 ≤ f.p := by have := hf.p; omega
  have hmax : 0 ≤ f.max := le_trans (abs_nonneg _) (rep_le_max f ha)
  have hle : |a / 2| ≤ f.max / 2 := by
    rw [abs_div, abs_of_pos (a := (2 : ℚ)) (by norm_num)]
    have := rep_le_max f ha
    linarith
  have hgm : f.Grid (f.max / 2) := by
    have he : f.emin ≤ f.emax - 1 := by cases h <;> decide
    obtain ⟨j, hj⟩ : ∃ j, f.p = j + 1 := ⟨f.p - 1, by omega⟩
    refine ⟨2 ^ f.p - 1, f.emax - 1, ?_, ?_, he⟩
    · unfold Format.max
      rw [zpow_sub_one₀ (by norm_num)]
      push_cast
      ring
    · rw [abs_of_nonneg (by have : (1 : Int) ≤ 2 ^ f.p := one_le_pow₀ (by norm_num); omega)]
      omega
  have hnear : |f.near (a / 2)| ≤ f.max / 2 := by
    rw [abs_le] at hle ⊢
    have h1 := near_mono f hp hle.1
    have h2 := near_mono f hp hle.2
    rw [near_neg, near_exact f hp hgm] at h1
    rw [near_exact f hp hgm] at h2
    exact ⟨h1, h2⟩
  have hexact : a = 0 ∨ (2 : ℚ) ^ (f.emin + f.p) ≤ |a| → f.near (a / 2) = a / 2 := by
    rintro (rfl | hge)
    · rw [zero_div, near_zero]
    · obtain ⟨m, e, h1, h2, h3⟩ := rep_grid f ha
      refine near_exact f hp ⟨m, e - 1, by rw [h1, zpow_sub_one₀ (by norm_num)]; ring, h2, ?_⟩
      have hlt : |a| < (2 : ℚ) ^ (e + f.p) := by
        rw [h1, abs_mul, abs_of_pos (zpow2_pos e), add_comm, zpow_add₀ (by norm_num), zpow_natCast]
        refine mul_lt_mul_of_pos_right ?_ (zpow2_pos e)
        exact_mod_cast h2
      have := zpow2_lt.mp (lt_of_le_of_lt hge hlt)
      omega
  refine ⟨?_, near_grid f hp _, hnear, ?_, hexact⟩
  · show (if (2 : ℚ) = 0 then (if a = 0 then .nan else .inf (a < 0)) else f.round (a / 2)) = _
    rw [if_neg (by norm_num)]
    exact round_num f hp hf.emax (by linarith)
  · by_cases hc : (2 : ℚ) ^ (f.emin + f.p) ≤ |a|
    · rw [hexact (Or.inr hc), sub_self, abs_zero]
      exact (zpow2_pos _).le
    · push_neg at hc
      refine near_sub f ?_
      rw [abs_div, abs_of_pos (a := (2 : ℚ)) (by norm_num), zpow_sub_one₀ (by norm_num)]
      linarith

/-- C97: the median, of data that are numbers of the result type, sorted into `s`.  For an odd
number of elements it is the middle one.  For an even number it is always finite, differs from the
mean of the middle two by at most a rounding error plus twice the smallest positive number, and is
a number nearest to it if each of the two is zero or not extremely small. -/
theorem c97_median {f g : Format} (h : ResultType f g) (N : NthElement ℚ) (acc : ε → ℚ)
    (l : List ε) (hrep : ∀ e ∈ l, f.Rep (acc e)) (s : List ℚ)
    (hs : Spec.SortedOf s (l.map acc)) :
    (l = [] → fmedian N f acc l = none) ∧
    (∀ k a, l.length = 2 * k + 1 → s[k]? = some a → fmedian N f acc l = some (.num a)) ∧
    (∀ k a b, l.length = 2 * k + 2 → s[k]? = some a → s[k + 1]? = some b →
      ∃ m, fmedian N f acc l = some (.num m) ∧
        |m - (a + b) / 2| ≤ |(a + b) / 2| / 2 ^ f.p + 2 * (2 : ℚ) ^ f.emin ∧
        ((a = 0 ∨ (2 : ℚ) ^ (f.emin + f.p) ≤ |a|) → (b = 0 ∨ (2 : ℚ) ^ (f.emin + f.p) ≤ |b|) →
          Nearest f ((a + b) / 2) m)) := by
  have hf := h.promotes.saneF
  have hp : 1 ≤ f.p := by have := hf.p; omega
  obtain ⟨m1, m2⟩ := median_sorted N (fun x => f.conv (.num x)) (fun x => f.div x (.num 2)) f.add acc l s hs
  have hmem : ∀ (k : Nat) a, s[k]? = some a → f.Rep a := by
    intro k a ha
    have : a ∈ l.map acc := hs.1.mem_iff.1 (List.mem_of_getElem? ha)
    obtain ⟨e, he, rfl⟩ := List.mem_map.1 this
    exact hrep e he
  refine ⟨by rintro rfl; rfl, ?_, ?_⟩
  · intro k a hk ha
    unfold fmedian
    rw [m1 k a hk ha, conv_of_rep hf (hmem k a ha)]
  · intro k a b hk ha hb
    obtain ⟨a1, a2, a3, a4, a5⟩ := half_num h (hmem k a ha)
    obtain ⟨b1, b2, b3, b4, b5⟩ := half_num h (hmem _ b hb)
    have hle : |f.near (b / 2) + f.near (a / 2)| ≤ f.max := le_trans (abs_add_le _ _) (by linarith)
    obtain ⟨r1, r2⟩ := Rep.of_round hf hle
    refine ⟨f.near (f.near (b / 2) + f.near (a / 2)), ?_, ?_, ?_⟩
    · unfold fmedian
      rw [m2 k a b hk ha hb]
      simp only [conv_of_rep hf (hmem k a ha), conv_of_rep hf (hmem _ b hb), a1, b1]
      exact congrArg some r1
    · have hadd := near_add hp b2 a2
      set x := f.near (b / 2) + f.near (a / 2)
      have hte : (2 : ℚ) ^ (f.emin - 1) = (2 : ℚ) ^ f.emin / 2 := by
        rw [zpow_sub_one₀ (by norm_num)]; ring
      have hx : |x - (a + b) / 2| ≤ (2 : ℚ) ^ f.emin := by
        have e : x - (a + b) / 2 = (f.near (b / 2) - b / 2) + (f.near (a / 2) - a / 2) := by
          simp only [x]; ring
        rw [e]
        refine le_trans (abs_add_le _ _) ?_
        rw [hte] at a4 b4
        linarith
      have hx2 : |x| ≤ |(a + b) / 2| + (2 : ℚ) ^ f.emin := by
        have := abs_add_le (x - (a + b) / 2) ((a + b) / 2)
        rw [sub_add_cancel] at this
        linarith
      have h2p1 : (1 : ℚ) ≤ 2 ^ f.p := one_le_pow₀ (by norm_num)
      have ht := zpow2_pos f.emin
      have hx3 : |x| / 2 ^ f.p ≤ |(a + b) / 2| / 2 ^ f.p + (2 : ℚ) ^ f.emin := by
        refine le_trans (div_le_div_of_nonneg_right hx2 (by linarith)) ?_
        rw [add_div]
        have : (2 : ℚ) ^ f.emin / 2 ^ f.p ≤ (2 : ℚ) ^ f.emin := div_le_self ht.le h2p1
        linarith
      have e : f.near x - (a + b) / 2 = (f.near x - x) + (x - (a + b) / 2) := by ring
      rw [e]
      refine le_trans (abs_add_le _ _) ?_
      linarith
    · intro ha0 hb0
      refine ⟨r2, fun g hg => ?_⟩
      rw [a5 ha0, b5 hb0, show b / 2 + a / 2 = (a + b) / 2 by ring]
      exact near_nearest f hp (rep_grid f hg)

/-! ## Outliers -/

theorem maxElementFrom_congr (lt lt' : ε → ε → Bool) (r : List ε) :
    ∀ (best : ε) (bi i : Nat), (∀ a ∈ best :: r, ∀ b ∈ best :: r, lt a b = lt' a b) →
      maxElementFrom lt best bi i r = maxElementFrom lt' best bi i r := by
  induction r with
  | nil => intro best bi i _; rfl
  | cons z r ih =>
    intro best bi i hh
    unfold maxElementFrom
    rw [hh best List.mem_cons_self z (List.mem_cons_of_mem _ List.mem_cons_self)]
    have h1 := ih z i (i + 1) fun a ha b hb =>
      hh a (List.mem_cons_of_mem _ ha) b (List.mem_cons_of_mem _ hb)
    have hsub : ∀ a, a ∈ best :: r → a ∈ best :: z :: r := by
      intro a ha
      rcases List.mem_cons.1 ha with rfl | ha
      · exact List.mem_cons_self
      · exact List.mem_cons_of_mem _ (List.mem_cons_of_mem _ ha)
    have h2 := ih best bi (i + 1) fun a ha b hb => hh a (hsub a ha) b (hsub b hb)
    rw [h1, h2]

theorem maxElement_congr (lt lt' : ε → ε → Bool) (l : List ε)
    (hh : ∀ a ∈ l, ∀ b ∈ l, lt a b = lt' a b) : maxElement lt l = maxElement lt' l := by
  cases l with
  | nil => rfl
  | cons x r => exact maxElementFrom_congr lt lt' r x 0 1 hh

theorem maxElementFrom_lt (lt : ε → ε → Bool) (r : List ε) :
    ∀ (best : ε) (bi i : Nat), bi < i → maxElementFrom lt best bi i r < i + r.length := by
  induction r with
  | nil => intro best bi i h; exact h
  | cons z r ih =>
    intro best bi i h
    unfold maxElementFrom
    rw [List.length_cons]
    split
    · have := ih z i (i + 1) (by omega); omega
    · have := ih best bi (i + 1) (by omega); omega

theorem maxElement_lt (lt : ε → ε → Bool) (l : List ε) (hl : l ≠ []) :
    maxElement lt l < l.length := by
  cases l with
  | nil => exact absurd rfl hl
  | cons x r =>
    have := maxElementFrom_lt lt r x 0 1 (by omega)
    rw [List.length_cons]
    show maxElementFrom lt x 0 1 r < _
    omega

/-- C97: from any data, NaN and infinities included, remove_outliers takes out `min(k, size)`
elements and keeps the others in their order. -/
theorem c97_outliers_count (f : Format) (acc : ε → Fl) (k : Nat) (l : List ε) :
    (fremoveOutliers f acc k l).length = l.length - min k l.length ∧
    (fremoveOutliers f acc k l).Sublist l := by
  induction k generalizing l with
  | zero => exact ⟨by simp [fremoveOutliers], List.Sublist.refl _⟩
  | succ k ih =>
    unfold fremoveOutliers
    split
    · rename_i h
      rw [List.length_eq_zero_iff] at h
      subst h
      exact ⟨by simp, List.Sublist.refl _⟩
    · rename_i h
      have hne : l ≠ [] := fun h' => h (by rw [h']; rfl)
      have hi := maxElement_lt (fun a b => Fl.lt (f.sub (f.conv (acc a)) (fmean f acc l)).abs
        (f.sub (f.conv (acc b)) (fmean f acc l)).abs) l hne
      simp only
      generalize maxElement (fun a b => Fl.lt (f.sub (f.conv (acc a)) (fmean f acc l)).abs
        (f.sub (f.conv (acc b)) (fmean f acc l)).abs) l = i at hi
      obtain ⟨h1, h2⟩ := ih (l.eraseIdx i)
      refine ⟨?_, h2.trans (List.eraseIdx_sublist l i)⟩
      rw [h1, List.length_eraseIdx, if_pos hi]
      omega

/-- C97: of finite data (2n at most 2^p, four times the sum of the absolute values at most the
largest number), every element taken out has the greatest distance from a number close to the
mean of the elements then present, up to rounding. -/
theorem c97_outliers {f g : Format} (h : ResultType f g) (acc : ε → Fl) (val : ε → ℚ) (k : Nat)
    (l : List ε) (hval : ∀ e ∈ l, f.conv (acc e) = .num (val e))
    (hn : 4 * l.length ≤ 2 ^ f.p) (hmax : 4 * (l.map fun e => |val e|).sum ≤ f.max) :
    RemovedFar f val k l (fremoveOutliers f acc k l) := by
  have hf := h.promotes.saneF
  have hp : 1 ≤ f.p := by have := hf.p; omega
  obtain ⟨hb1, -, hb3⟩ := h.big
  have h2p : (0 : ℚ) < 2 ^ f.p := by positivity
  have h2p1 : (1 : ℚ) ≤ 2 ^ f.p := one_le_pow₀ (by norm_num)
  have ht := zpow2_pos f.emin
  induction k generalizing l with
  | zero => exact .none l
  | succ k ih =>
    unfold fremoveOutliers
    by_cases hl : l = []
    · subst hl; exact .empty _
    rw [if_neg (fun h' => hl (List.length_eq_zero_iff.1 h'))]
    have hS := sum_abs_nonneg val l
    obtain ⟨m, hm1, hm2, hm3⟩ := mean_err h acc val l hl hval (by omega) (by linarith)
    have hl1 : (1 : ℚ) ≤ l.length := by exact_mod_cast List.length_pos_iff.2 hl
    have hnq : 4 * (l.length : ℚ) ≤ 2 ^ f.p := by exact_mod_cast hn
    simp only [hm1]
    -- every distance is finite
    have hmem : ∀ e ∈ l, |val e| ≤ (l.map fun e => |val e|).sum := fun e he =>
      List.single_le_sum (by
        simp only [List.mem_map]
        rintro _ ⟨_, _, rfl⟩
        exact abs_nonneg _) _ (List.mem_map.2 ⟨e, he, rfl⟩)
    have hmabs : |m| ≤ 2 * (l.map fun e => |val e|).sum + 1 := by
      have hav : average (l.map fun e => |val e|) ≤ (l.map fun e => |val e|).sum := by
        unfold average
        rw [List.length_map]
        exact div_le_self hS hl1
      have hav0 : 0 ≤ average (l.map fun e => |val e|) := by
        unfold average
        rw [List.length_map]
        exact div_nonneg hS (by linarith)
      have hav1 : |average (l.map val)| ≤ average (l.map fun e => |val e|) := by
        unfold average
        rw [List.length_map, List.length_map, abs_div,
          abs_of_nonneg (a := (l.length : ℚ)) (by linarith)]
        exact div_le_div_of_nonneg_right (abs_sum_le val l) (by linarith)
      have hnu : (l.length : ℚ) * (2 / 2 ^ f.p) ≤ 1 / 2 := by
        rw [← mul_div_assoc, div_le_iff₀ h2p]; linarith
      have hte : (2 : ℚ) ^ (f.emin - 1) = (2 : ℚ) ^ f.emin / 2 := by
        rw [zpow_sub_one₀ (by norm_num)]; ring
      have := abs_add_le (m - average (l.map val)) (average (l.map val))
      rw [sub_add_cancel] at this
      have h3 : (l.length : ℚ) * (2 / 2 ^ f.p) * average (l.map fun e => |val e|) ≤
          1 / 2 * average (l.map fun e => |val e|) := mul_le_mul_of_nonneg_right hnu hav0
      have h4 : (2 : ℚ) ^ f.emin ≤ 1 := by nlinarith
      rw [hte] at hm3
      linarith
    have hdev : ∀ e ∈ l, f.sub (f.conv (acc e)) (.num m) = .num (f.near (val e - m)) := by
      intro e he
      rw [hval e he]
      have h1 : |val e - m| ≤ f.max := by
        have h3 := hmem e he
        have h4 := abs_sub (val e) m
        have := hf.max
        nlinarith
      show f.round (val e + -m) = _
      rw [← sub_eq_add_neg]
      exact (Rep.of_round hf h1).1
    have hcongr := maxElement_congr (fun a b => Fl.lt (f.sub (f.conv (acc a)) (.num m)).abs
        (f.sub (f.conv (acc b)) (.num m)).abs)
      (fun a b => decide (|f.near (val a - m)| < |f.near (val b - m)|)) l (by
        intro a ha b hb
        simp only [hdev a ha, hdev b hb]
        rfl)
    rw [hcongr]
    obtain ⟨x, hx, hfar⟩ := maxElement_spec (fun a => |f.near (val a - m)|) l hl
    generalize maxElement (fun a b => decide (|f.near (val a - m)| < |f.near (val b - m)|)) l = i at *
    obtain ⟨hi, rfl⟩ := List.getElem?_eq_some_iff.1 hx
    have hsplit : l = l.take i ++ l[i] :: l.drop (i + 1) := by
      rw [List.getElem_cons_drop, List.take_append_drop]
    rw [List.eraseIdx_eq_take_drop_succ]
    have hrel : ∀ e ∈ l, |val e - m| * (1 - 1 / 2 ^ f.p) ≤ |f.near (val e - m)| ∧
        |f.near (val e - m)| ≤ |val e - m| * (1 + 1 / 2 ^ f.p) := by
      intro e he
      have hd := near_add hp (rep_grid f (conv_rep hf (hval e he))) (grid_neg f (rep_grid f hm2))
      rw [← sub_eq_add_neg] at hd
      have h1 := abs_sub_abs_le_abs_sub (val e - m) (f.near (val e - m))
      have h3 := abs_sub_abs_le_abs_sub (f.near (val e - m)) (val e - m)
      rw [abs_sub_comm (val e - m) (f.near (val e - m))] at h1
      rw [div_eq_mul_one_div] at hd
      constructor <;> nlinarith
    have hsub : (l.take i ++ l.drop (i + 1)).Sublist l := by
      rw [← List.eraseIdx_eq_take_drop_succ]; exact List.eraseIdx_sublist l i
    have hlen := hsub.length_le
    have hsum : ((l.take i ++ l.drop (i + 1)).map fun e => |val e|).sum ≤
        (l.map fun e => |val e|).sum := by
      conv_rhs => rw [hsplit]
      simp only [List.map_append, List.map_cons, List.sum_append, List.sum_cons]
      have := abs_nonneg (val l[i])
      linarith
    have := RemovedFar.step (f := f) (val := val) (k := k) (pre := l.take i) (x := l[i])
      (post := l.drop (i + 1)) m (by rw [← hsplit]; exact hm3) (by
        rw [← hsplit]
        intro y hy
        exact le_trans (hrel y hy).1 (le_trans (hfar y hy) (hrel _ (List.getElem_mem hi)).2))
      (ih (l.take i ++ l.drop (i + 1)) (fun e he => hval e (hsub.subset he)) (by omega)
        (by linarith))
    rw [← hsplit] at this
    exact this

/-! ## What does not hold, and examples -/

/-- std::pow(x, 2) computed as `x * x`. -/
def mulSquare (g : Format) (hg : Sane g) : Square g where
  run v := g.mul v v
  num x hx hmax := by
    have hx0 := sq_nonneg x
    have ht := zpow2_pos g.emin
    have hu := nu_pos g
    have h1 : |x * x| ≤ g.max := by
      rw [abs_of_nonneg (mul_self_nonneg x)]; nlinarith
    obtain ⟨r1, r2⟩ := Rep.of_round hg h1
    refine ⟨_, r1, ?_⟩
    have h2 := near_gen g (x * x)
    rw [abs_of_nonneg (mul_self_nonneg x)] at h2
    rw [sq]
    have hte : (2 : ℚ) ^ (g.emin - 1) = (2 : ℚ) ^ g.emin / 2 := by
      rw [zpow_sub_one₀ (by norm_num)]; ring
    rw [hte] at h2
    have h3 : x * x / 2 ^ g.p ≤ 2 / 2 ^ g.p * (x * x) := by
      rw [div_mul_eq_mul_div]
      refine div_le_div_of_nonneg_right ?_ (by positivity)
      nlinarith
    linarith
  range x := by
    rcases round_cases hg (x * x) with h | ⟨r, h, hr⟩
    · left
      show g.round (x * x) = _
      rw [h, decide_eq_false (by have := mul_self_nonneg x; linarith)]
    · right
      refine ⟨r, h, ?_, hr⟩
      unfold Format.round at h
      split at h
      · cases h
      · injection h with h
        rw [← h]
        exact near_nonneg g (by have := hg.p; omega) (mul_self_nonneg x)
  zero := by
    show g.round (0 * 0) = _
    have := round_num g (by have := hg.p; omega) hg.emax (x := 0) (by
      rw [abs_zero]; exact le_trans (by positivity) hg.max)
    rw [zero_mul, this, near_zero]
  inf b := by cases b <;> rfl
  nan := rfl

/-- C97, against the expectation that the mean lies between the smallest and the largest value
(c45_mean_bounds holds for exact arithmetic only): the mean of ten times the double 0.1 is smaller
than that double; and the mean of two finite doubles can be infinite. -/
theorem c97_mean_limits :
    (∃ x m, binary64.Rep x ∧ fmean binary64 id (List.replicate 10 (.num x)) = .num m ∧ m < x) ∧
    (∃ x, binary64.Rep x ∧ fmean binary64 id [.num x, .num x] = .inf false) := by
  refine ⟨⟨3602879701896397 / 2 ^ 55, 7205759403792793 / 2 ^ 56, ?_, by decide +kernel,
    by norm_num⟩, ⟨binary64.max, ?_, by decide +kernel⟩⟩
  · exact ⟨3602879701896397, -55, by rw [zpow_neg]; norm_num, by decide, by decide, by decide⟩
  · exact ⟨2 ^ 53 - 1, 971, by unfold Format.max; norm_num [binary64], by decide, by decide, by decide⟩

/-- C97: values in the middle of the range of double have a root mean square of zero or infinity,
although it is representable (if the squares are computed by multiplication). -/
theorem c97_rms_limits :
    frms binary64 binary64 (mulSquare _ sane64) id [.num (2 ^ 600)] = .inf false ∧
    frms binary64 binary64 (mulSquare _ sane64) id [.num (1 / 2 ^ 600)] = .num 0 := by
  decide +kernel

/-- C97: the median of two equal tiny numbers is not that number, but zero. -/
theorem c97_median_limits :
    fmedian (sortAll ℚ) binary64 id [(2 : ℚ) ^ (-1074 : Int), (2 : ℚ) ^ (-1074 : Int)] =
      some (.num 0) ∧ (2 : ℚ) ^ (-1074 : Int) ≠ 0 := by
  refine ⟨by decide +kernel, ?_⟩
  exact (zpow2_pos _).ne'

example : fmean binary64 id [.num 1, .num 2, .num 4] =
    .num (5254199565265579 / 2251799813685248) := by decide +kernel
example : frms binary64 binary64 (mulSquare _ sane64) id [.num 3, .num 4, .num 12] =
    .num (4225250992925063 / 562949953421312) := by decide +kernel
example : fmedian (sortAll ℚ) binary64 id [5, 1, 2, 8] = some (.num (7 / 2)) := by decide +kernel
-- the hypotheses of c97_mean, c97_rms, c97_standard_deviation and c97_outliers
example : let l : List ℚ := [3, 4, 12, -7]
    (∀ e ∈ l, binary64.conv (.num e) = .num e) ∧ 4 * (l.length + 5) ≤ 2 ^ binary64.p ∧
    128 * (l.map fun e => e ^ 2).sum ≤ binary64.max ∧ 4 * (l.map fun e => |e|).sum ≤ binary64.max := by
  decide +kernel
example : fstandardDeviation binary32 binary64 (mulSquare _ sane64) id [.num 1, .num 2, .num 3] =
    (.num 1, .num 2) := by decide +kernel
example : fremoveOutliers binary64 id 1 [.num 1, .num 2, .num 50] = [.num 1, .num 2] := by
  decide +kernel

end Gul14.Statistics
