import Verif.Basic
import Verif.Ieee.Arith
import Verif.Ieee.Error

/-!
# tic() and toc()

The clock counts nanoseconds with 64 bits.
-/
namespace Gul14.TimeUtil
open Gul14.Ieee

/-- A calculation with 64 bits. Arithmetic of time_util.h:92-96. -/
def i64 (x : Int) : Res Int := if -9223372036854775808 ≤ x ∧ x ≤ 9223372036854775807 then .ok x else .ub

/-- std::chrono::duration_cast from nanoseconds to units of `num/den` seconds with a 64-bit count. Library; used in time_util.h:95. -/
def cast (num den : Nat) (c : Int) : Res Int :=
  let g := Nat.gcd den (num * 1000000000)
  let a : Int := (den / g : Nat)
  let b : Int := (num * 1000000000 / g : Nat)
  if a = 1 ∧ b = 1 then .ok c
  else if b = 1 then i64 (c * a)
  else if a = 1 then .ok (c.tdiv b)
  else do
    let x ← i64 (c * a)
    pure (x.tdiv b)

/-- std::chrono::duration_cast from nanoseconds to seconds as a double: both numbers are converted and divided. Library; used in
time_util.h:95. -/
def castSeconds (c : Int) : Fl := binary64.div (binary64.round c) (binary64.round 1000000000)

/-- toc for a unit with a 64-bit count, time_util.h:92-96.  `now`: what tic() returns (time_util.h:54-57). -/
def toc (num den : Nat) (now t0 : Int) : Res Int := do
  let d ← i64 (now - t0)
  cast num den d

/-- toc() without a unit: seconds as a double, time_util.h:92-96. -/
def tocSeconds (now t0 : Int) : Res Fl := do
  let d ← i64 (now - t0)
  pure (castSeconds d)

/-- `k` units are the whole units in `c` nanoseconds. -/
def Whole (num den : Nat) (c : Int) (k : Int) : Prop := k * (num * 1000000000) ≤ c * den ∧ c * den < (k + 1) * (num * 1000000000)

theorem whole_div {num den : Nat} (hn : 0 < num) (hd : 0 < den) {c : Int} {g a b : Nat} (hg : 0 < g) (ha : den = a * g)
    (hb : num * 1000000000 = b * g) : Whole num den c (c * a / b) := by
  have hb0 : 0 < b := by
    rcases Nat.eq_zero_or_pos b with h | h
    · subst h; omega
    · exact h
  have h1 := Int.mul_ediv_self_le (x := c * a) (k := b) (by omega)
  have h2 := Int.lt_mul_ediv_self_add (x := c * a) (k := b) (by omega)
  have e1 : ((num : Int) * 1000000000) = b * g := by exact_mod_cast hb
  have e2 : (den : Int) = a * g := by exact_mod_cast ha
  unfold Whole
  rw [e1, e2]
  have hg' : (0 : Int) < g := by exact_mod_cast hg
  constructor
  · calc c * a / b * (b * g) = b * (c * a / b) * g := by ring
      _ ≤ c * a * g := Int.mul_le_mul_of_nonneg_right h1 hg'.le
      _ = c * (a * g) := by ring
  · calc c * (a * g) = c * a * g := by ring
      _ < (b * (c * a / b) + b) * g := Int.mul_lt_mul_of_pos_right h2 hg'
      _ = (c * a / b + 1) * (b * g) := by ring

theorem cast_whole {num den : Nat} (hn : 0 < num) (hd : 0 < den) {c : Int} (hc : 0 ≤ c)
    (hr : c * (den / Nat.gcd den (num * 1000000000) : Nat) ≤ 9223372036854775807) : ∃ k, cast num den c = .ok k ∧ Whole num den c k := by
  generalize hg : Nat.gcd den (num * 1000000000) = g at hr
  have hg0 : 0 < g := hg ▸ Nat.gcd_pos_of_pos_left _ hd
  have ha : den = den / g * g := (Nat.div_mul_cancel (hg ▸ Nat.gcd_dvd_left _ _)).symm
  have hb : num * 1000000000 = num * 1000000000 / g * g := (Nat.div_mul_cancel (hg ▸ Nat.gcd_dvd_right _ _)).symm
  generalize den / g = a at ha hr
  have hw := whole_div (c := c) hn hd hg0 ha hb
  have hx : 0 ≤ c * (a : Int) := Int.mul_nonneg hc (by omega)
  unfold cast
  simp only [hg]
  rw [show den / g = a by rw [ha]; exact Nat.mul_div_cancel _ hg0]
  generalize num * 1000000000 / g = b at *
  split
  · rename_i h
    rw [h.1, h.2] at hw
    exact ⟨c, rfl, by simpa using hw⟩
  · split
    · rename_i h
      rw [h] at hw
      refine ⟨c * a, ?_, by simpa using hw⟩
      unfold i64
      rw [if_pos ⟨by omega, hr⟩]
    · split
      · rename_i h
        rw [h, Int.mul_one] at hw
        exact ⟨_, by rw [Int.tdiv_eq_ediv_of_nonneg hc], hw⟩
      · refine ⟨c * a / b, ?_, hw⟩
        unfold i64
        rw [if_pos ⟨by omega, hr⟩]
        simp only [Res.ok_bind, Res.pure_eq]
        rw [Int.tdiv_eq_ediv_of_nonneg hx]

theorem whole_mono {num den : Nat} (hn : 0 < num) {c c' k k' : Int} (h : c ≤ c') (h1 : Whole num den c k) (h2 : Whole num den c' k') : k ≤ k' := by
  by_contra hk
  have e1 : (k' + 1) * (num * 1000000000 : Int) ≤ k * (num * 1000000000) := Int.mul_le_mul_of_nonneg_right (by omega) (by omega)
  have e2 : c * (den : Int) ≤ c' * den := Int.mul_le_mul_of_nonneg_right h (by omega)
  have := h1.1
  have := h2.2
  omega

/-- C117.  With a unit of `num/den` seconds, toc() returns the whole units since the time of tic(): never more than the time that has
elapsed, and less than one unit less; and it never returns less than a call before. (As long as the nanoseconds, times the factor of the conversion, fit into 64 bits; the
factor is 1 for nanoseconds and all larger units that are multiples of a nanosecond.) -/
theorem c117_units (num den : Nat) (hn : 0 < num) (hd : 0 < den) (t0 t1 t2 : Int) (h1 : t0 ≤ t1) (h2 : t1 ≤ t2)
    (hr : (t2 - t0) * (den / Nat.gcd den (num * 1000000000) : Nat) ≤ 9223372036854775807) :
    ∃ k1 k2 : Int, toc num den t1 t0 = .ok k1 ∧ toc num den t2 t0 = .ok k2 ∧ k1 ≤ k2 ∧ 0 ≤ k1 ∧
      k1 * (num * 1000000000) ≤ (t1 - t0) * den ∧ (t1 - t0) * den < (k1 + 1) * (num * 1000000000) := by
  have hq : 0 < den / Nat.gcd den (num * 1000000000) :=
    Nat.div_pos (Nat.le_of_dvd hd (Nat.gcd_dvd_left _ _)) (Nat.gcd_pos_of_pos_left _ hd)
  have hle : ∀ c : Int, 0 ≤ c → c ≤ c * (den / Nat.gcd den (num * 1000000000) : Nat) := fun c hc => by
    calc c = c * 1 := by ring
      _ ≤ _ := Int.mul_le_mul_of_nonneg_left (by exact_mod_cast hq) hc
  have hm : (t1 - t0) * (den / Nat.gcd den (num * 1000000000) : Nat) ≤ (t2 - t0) * (den / Nat.gcd den (num * 1000000000) : Nat) :=
    Int.mul_le_mul_of_nonneg_right (by omega) (by omega)
  obtain ⟨k1, e1, w1⟩ := cast_whole hn hd (c := t1 - t0) (by omega) (by omega)
  obtain ⟨k2, e2, w2⟩ := cast_whole hn hd (c := t2 - t0) (by omega) hr
  have l2 := hle (t2 - t0) (by omega)
  refine ⟨k1, k2, ?_, ?_, whole_mono hn (by omega) w1 w2, ?_, w1.1, w1.2⟩
  · unfold toc i64
    rw [if_pos (by constructor <;> omega)]
    exact e1
  · unfold toc i64
    rw [if_pos (by constructor <;> omega)]
    exact e2
  · by_contra hk
    have hw := w1.2
    have a1 : 0 ≤ (t1 - t0) * (den : Int) := Int.mul_nonneg (by omega) (by omega)
    have a2 : (k1 + 1) * (num * 1000000000 : Int) ≤ 0 := Int.mul_nonpos_of_nonpos_of_nonneg (by omega) (by omega)
    omega

/-- C117.  In nanoseconds, toc() returns exactly the time that has elapsed, also for a point in time that is still to come (then
it is negative); the behaviour is undefined if and only if that does not fit into 64 bits. -/
theorem c117_nanoseconds (now t0 : Int) :
    ((-2 ^ 63 ≤ now - t0 ∧ now - t0 < 2 ^ 63) → toc 1 1000000000 now t0 = .ok (now - t0)) ∧
    (¬ (-2 ^ 63 ≤ now - t0 ∧ now - t0 < 2 ^ 63) → toc 1 1000000000 now t0 = .ub) := by
  have hc : ∀ c : Int, cast 1 1000000000 c = .ok c := fun c => by simp [cast]
  refine ⟨fun h => ?_, fun h => ?_⟩ <;> unfold toc i64
  · rw [if_pos (by constructor <;> omega), Res.ok_bind, hc]
  · rw [if_neg (by omega)]; rfl

/-- C117 for the usual units (nanoseconds and all multiples, such as milliseconds or hours): as long as the nanoseconds fit into 64 bits. -/
theorem c117_usual_units (num den : Nat) (hn : 0 < num) (hd : 0 < den) (hu : den ∣ num * 1000000000) (t0 t1 t2 : Int) (h1 : t0 ≤ t1)
    (h2 : t1 ≤ t2) (hr : t2 - t0 ≤ 9223372036854775807) :
    ∃ k1 k2 : Int, toc num den t1 t0 = .ok k1 ∧ toc num den t2 t0 = .ok k2 ∧ k1 ≤ k2 ∧ 0 ≤ k1 ∧
      k1 * (num * 1000000000) ≤ (t1 - t0) * den ∧ (t1 - t0) * den < (k1 + 1) * (num * 1000000000) := by
  refine c117_units num den hn hd t0 t1 t2 h1 h2 ?_
  rw [Nat.gcd_eq_left hu, Nat.div_self hd]
  simpa using hr

theorem near_1e9 : binary64.near 1000000000 = 1000000000 := by
  have h : binary64.Grid ((1000000000 : Int) : ℚ) := grid_int binary64 (by decide) (by decide)
  have := near_exact binary64 (by decide) h
  simpa using this

theorem max_big {x : ℚ} (h : |x| ≤ 2 ^ 64) : |x| ≤ binary64.max := by
  refine le_trans h ?_
  have h2 : (1 : ℚ) ≤ 2 ^ (971 : ℤ) := one_le_zpow₀ (by norm_num) (by norm_num)
  have h3 : (2 : ℚ) ^ 64 ≤ (2 ^ 53 - 1) * 2 ^ (971 : ℤ) := by
    rw [show (971 : ℤ) = 20 + 951 by norm_num, zpow_add₀ (by norm_num)]
    have h4 : (1 : ℚ) ≤ 2 ^ (951 : ℤ) := one_le_zpow₀ (by norm_num) (by norm_num)
    generalize (2 : ℚ) ^ (951 : ℤ) = w at *
    norm_num
    linarith
  exact h3

theorem castSeconds_eq {c : Int} (h0 : 0 ≤ c) (h1 : c ≤ 9223372036854775807) :
    castSeconds c = .num (binary64.near (binary64.near c / 1000000000)) ∧ (0 : ℚ) ≤ binary64.near c ∧ binary64.near (c : ℚ) ≤ 2 ^ 63 := by
  have hc0 : (0 : ℚ) ≤ (c : ℚ) := by exact_mod_cast h0
  have hc1 : (c : ℚ) ≤ 2 ^ 63 := by
    have : (c : ℚ) ≤ ((9223372036854775807 : Int) : ℚ) := by exact_mod_cast h1
    refine le_trans this (by norm_num)
  have hn0 : 0 ≤ binary64.near (c : ℚ) := near_nonneg binary64 (by decide) hc0
  have hg : binary64.Grid ((2 : ℚ) ^ 63) := by
    refine ⟨1, 63, ?_, ?_, ?_⟩ <;> simp [binary64]
  have hn1 : binary64.near (c : ℚ) ≤ 2 ^ 63 := by
    have := near_mono binary64 (by decide) hc1
    rwa [near_exact binary64 (by decide) hg] at this
  refine ⟨?_, hn0, hn1⟩
  unfold castSeconds
  rw [round_num binary64 (by decide) (by decide) (max_big (by rw [abs_of_nonneg hc0]; refine le_trans hc1 (by norm_num)))]
  rw [show ((1000000000 : ℚ)) = 1000000000 from rfl, round_num binary64 (by decide) (by decide) (x := 1000000000) (max_big (by rw [abs_of_nonneg] <;> norm_num)), near_1e9]
  simp only [Format.div]
  rw [if_neg (by norm_num)]
  refine round_num binary64 (by decide) (by decide) (max_big ?_)
  rw [abs_of_nonneg (by positivity)]
  rw [div_le_iff₀ (by norm_num)]
  refine le_trans hn1 (by norm_num)

/-- C117.  Without a unit, toc() returns the elapsed seconds as a double: a number that is never negative, never less than the result of a call
before, and off by at most one part in 2^52 (and a tiny bit, a part in 2^106); if less than 2^53 nanoseconds (104 days) have elapsed, then it is the double that is nearest to the elapsed
time. -/
theorem c117_seconds (t0 t1 t2 : Int) (h1 : t0 ≤ t1) (h2 : t1 ≤ t2) (hr : t2 - t0 ≤ 9223372036854775807) :
    ∃ x1 x2 : ℚ, tocSeconds t1 t0 = .ok (.num x1) ∧ tocSeconds t2 t0 = .ok (.num x2) ∧ 0 ≤ x1 ∧ x1 ≤ x2 ∧
      |x1 - (t1 - t0 : Int) / 1000000000| ≤ ((t1 - t0 : Int) / 1000000000) / 2 ^ 52 * (1 + 1 / 2 ^ 54) ∧
      (t1 - t0 < 2 ^ 53 → ∀ g : ℚ, binary64.Rep g → |x1 - (t1 - t0 : Int) / 1000000000| ≤ |g - (t1 - t0 : Int) / 1000000000|) := by
  obtain ⟨e1, a1, b1⟩ := castSeconds_eq (c := t1 - t0) (by omega) (by omega)
  obtain ⟨e2, a2, b2⟩ := castSeconds_eq (c := t2 - t0) (by omega) hr
  have hp : 1 ≤ binary64.p := by decide
  have hm := near_mono binary64 hp (x := ((t1 - t0 : Int) : ℚ)) (y := ((t2 - t0 : Int) : ℚ)) (by exact_mod_cast (by omega : t1 - t0 ≤ t2 - t0))
  refine ⟨binary64.near (binary64.near ((t1 - t0 : Int) : ℚ) / 1000000000), binary64.near (binary64.near ((t2 - t0 : Int) : ℚ) / 1000000000), ?_, ?_,
    near_nonneg binary64 hp (by positivity), near_mono binary64 hp ?_, ?_, ?_⟩
  · unfold tocSeconds i64
    rw [if_pos (by constructor <;> omega), Res.ok_bind, e1]; rfl
  · unfold tocSeconds i64
    rw [if_pos (by constructor <;> omega), Res.ok_bind, e2]; rfl
  · exact div_le_div_of_nonneg_right hm (by norm_num)
  · have hc0 : (0 : ℚ) ≤ ((t1 - t0 : Int) : ℚ) := by exact_mod_cast (by omega : (0 : Int) ≤ t1 - t0)
    rcases Int.lt_or_le 0 (t1 - t0) with hpos | hz
    · have hc1 : (1 : ℚ) ≤ ((t1 - t0 : Int) : ℚ) := by exact_mod_cast hpos
      generalize ((t1 - t0 : Int) : ℚ) = c at *
      have hs : (2 : ℚ) ^ (binary64.emin + binary64.p - 1) ≤ 1 / 2 ^ 60 := by
        show (2 : ℚ) ^ (-1022 : ℤ) ≤ _
        rw [show (1 : ℚ) / 2 ^ 60 = 2 ^ (-60 : ℤ) by norm_num]
        exact zpow2_le (by norm_num)
      have r1 := near_rel binary64 (x := c) (le_trans hs (by rw [abs_of_nonneg hc0]; refine le_trans ?_ hc1; norm_num))
      rw [abs_of_nonneg hc0] at r1
      generalize binary64.near c = n at *
      have hn : 1 / 2 ≤ n := by
        rw [abs_le] at r1
        have : c / 2 ^ binary64.p ≤ c / 2 := by
          show c / 2 ^ 53 ≤ _
          rw [div_le_div_iff₀ (by norm_num) (by norm_num)]
          nlinarith
        linarith [r1.1]
      have hq : (0 : ℚ) ≤ n / 1000000000 := by positivity
      have r2 := near_rel binary64 (x := n / 1000000000) (le_trans hs (by
        rw [abs_of_nonneg hq, le_div_iff₀ (by norm_num)]
        refine le_trans ?_ hn
        norm_num))
      rw [abs_of_nonneg hq] at r2
      generalize binary64.near (n / 1000000000) = z at *
      have hp53 : (2 : ℚ) ^ binary64.p = 2 ^ 53 := rfl
      rw [hp53] at r1 r2
      rw [abs_le] at r1 r2 ⊢
      have u : (2 : ℚ) ^ 53 = 9007199254740992 := by norm_num
      have u2 : (2 : ℚ) ^ 52 = 4503599627370496 := by norm_num
      have u3 : (2 : ℚ) ^ 54 = 18014398509481984 := by norm_num
      rw [u] at r1 r2
      rw [u2, u3]
      obtain ⟨r1a, r1b⟩ := r1
      obtain ⟨r2a, r2b⟩ := r2
      constructor <;> linarith
    · have : ((t1 - t0 : Int) : ℚ) = 0 := by exact_mod_cast (by omega : t1 - t0 = 0)
      rw [this, near_zero]
      simp [near_zero]
  · intro hl g hg
    have hgr : binary64.Grid ((t1 - t0 : Int) : ℚ) := grid_int binary64 (by decide) (by
      rw [abs_of_nonneg (by omega)]
      exact hl)
    rw [near_exact binary64 hp hgr]
    exact near_nearest binary64 hp (rep_grid binary64 hg)

/-! ### Examples -/

example : toc 1 1000 1234567890 0 = .ok 1234 := by decide
example : toc 60 1 (59999999999 + 7) 7 = .ok 0 := by decide
example : toc 1 1000000000000 9223372036854776 0 = .ub := by decide
example : tocSeconds 1500000000 1000000000 = .ok (.num (1 / 2)) := by decide +kernel

end Gul14.TimeUtil
