import Verif.Basic
import Mathlib.Data.Rat.Defs
import Mathlib.Data.Nat.GCD.Basic
import Mathlib.Tactic.Ring
import Mathlib.Tactic.FieldSimp
import Mathlib.Tactic.NormNum
import Mathlib.Tactic.Linarith

/-!
# C136: the ratio of two units of time, date.h:1088-1140, and trunc between any two units, date.h:1142-1169

A unit is a ratio `num / den` of seconds in lowest terms with positive parts of the type std::intmax_t (64 bits), which is what
std::ratio guarantees.
-/
namespace Gul14.Date.UnitRatio

/-- std::numeric_limits<std::intmax_t>::max(), date.h:1116. -/
def maxInt : Nat := 2 ^ 63 - 1

/-- static_gcd, date.h:1088-1104: recursion on the template arguments (`fuel` instances). -/
def staticGcd : Nat → Nat → Nat → Nat
  | 0, x, _ => x
  | fuel + 1, x, y => if y = 0 then (if x = 0 then 1 else x) else staticGcd fuel y (x % y)

/-- A unit of time. -/
structure Unit where
  num : Nat
  den : Nat

/-- n1, d1, n2, d2 in date.h:1111-1114. -/
structure Reduced where
  n1 : Nat
  d1 : Nat
  n2 : Nat
  d2 : Nat

/-- date.h:1109-1114. -/
def reduce (a b : Unit) : Reduced :=
  let gn := staticGcd (b.num + 1) a.num b.num
  let gd := staticGcd (b.den + 1) a.den b.den
  ⟨a.num / gn, a.den / gd, b.num / gn, b.den / gd⟩

/-- no_overflow::value, date.h:1135. -/
def noOverflow (a b : Unit) : Bool :=
  let r := reduce a b
  decide (r.n1 ≤ maxInt / r.d2) && decide (r.n2 ≤ maxInt / r.d1)

/-- no_overflow::mul, date.h:1121-1132. -/
def mulOr (x y : Nat) (overflow : Bool) : Nat := if overflow then 1 else x * y

/-- no_overflow::type, date.h:1136-1137. -/
def ratioType (a b : Unit) : Unit :=
  let r := reduce a b
  ⟨mulOr r.n1 r.d2 (!noOverflow a b), mulOr r.n2 r.d1 (!noOverflow a b)⟩

/-- std::chrono::duration_cast of a count of 64 bits by the factor `num / den`: a product and a quotient in 64 bits; overflow is
undefined. -/
def castBy (f : Unit) (d : Int) : Res Int :=
  if -(2 : Int) ^ 63 ≤ d * f.num ∧ d * f.num < 2 ^ 63 then .ok ((d * f.num).tdiv f.den) else .ub

/-- trunc<To>(d) for counts of 64 bits, date.h:1142-1169.  (duration_cast computes the same ratio as no_overflow::type.) -/
def trunc (a b : Unit) (d : Int) : Res Int :=
  if noOverflow a b then castBy (ratioType a b) d
  else do
    let s ← castBy a d
    castBy ⟨b.den, b.num⟩ s

/-! ## Specification -/

/-- What std::ratio guarantees of a period. -/
structure Unit.Ok (u : Unit) : Prop where
  num0 : 0 < u.num
  den0 : 0 < u.den
  coprime : Nat.Coprime u.num u.den
  num1 : u.num < 2 ^ 63
  den1 : u.den < 2 ^ 63

/-- The length of a unit in seconds. -/
def Unit.seconds (u : Unit) : ℚ := (u.num : ℚ) / u.den

/-- `t` is the whole number of units `b` in `d` units `a`: nearest towards zero. -/
def Whole (a b : Unit) (d t : Int) : Prop :=
  (0 ≤ d → t * b.seconds ≤ d * a.seconds ∧ d * a.seconds < (t + 1) * b.seconds) ∧
  (d ≤ 0 → d * a.seconds ≤ t * b.seconds ∧ (t - 1) * b.seconds < d * a.seconds)

/-! ## Proofs -/

theorem staticGcd_eq (fuel : Nat) : ∀ x y, y < fuel → staticGcd fuel x y = if x = 0 ∧ y = 0 then 1 else Nat.gcd x y := by
  induction fuel with
  | zero => intro x y h; omega
  | succ n ih =>
    intro x y h
    simp only [staticGcd]
    by_cases hy : y = 0
    · subst hy
      by_cases hx : x = 0 <;> simp [hx]
    · rw [if_neg hy, ih y (x % y) (by have := Nat.mod_lt x (by omega : y > 0); omega)]
      rw [if_neg (by omega), if_neg (by omega), Nat.gcd_comm y, ← Nat.gcd_rec, Nat.gcd_comm]

theorem reduce_eq {a b : Unit} (ha : a.Ok) : reduce a b =
    ⟨a.num / Nat.gcd a.num b.num, a.den / Nat.gcd a.den b.den, b.num / Nat.gcd a.num b.num, b.den / Nat.gcd a.den b.den⟩ := by
  have := ha.num0
  have := ha.den0
  simp only [reduce, staticGcd_eq _ _ _ (Nat.lt_succ_self _)]
  rw [if_neg (by omega), if_neg (by omega)]

/-- The reduced parts are positive and coprime to each other. -/
theorem reduce_coprime {a b : Unit} (ha : a.Ok) (hb : b.Ok) :
    0 < (reduce a b).n1 ∧ 0 < (reduce a b).d1 ∧ 0 < (reduce a b).n2 ∧ 0 < (reduce a b).d2 ∧
    Nat.Coprime ((reduce a b).n1 * (reduce a b).d2) ((reduce a b).n2 * (reduce a b).d1) ∧
    (((reduce a b).n1 * (reduce a b).d2 : Nat) : ℚ) / ((reduce a b).n2 * (reduce a b).d1 : Nat) = a.seconds / b.seconds := by
  rw [reduce_eq ha]
  have gn0 : 0 < Nat.gcd a.num b.num := Nat.gcd_pos_of_pos_left _ ha.num0
  have gd0 : 0 < Nat.gcd a.den b.den := Nat.gcd_pos_of_pos_left _ ha.den0
  obtain ⟨x, hx⟩ := Nat.gcd_dvd_left a.num b.num
  obtain ⟨y, hy⟩ := Nat.gcd_dvd_right a.num b.num
  obtain ⟨u, hu⟩ := Nat.gcd_dvd_left a.den b.den
  obtain ⟨v, hv⟩ := Nat.gcd_dvd_right a.den b.den
  have c1 := Nat.coprime_div_gcd_div_gcd gn0
  have c2 := Nat.coprime_div_gcd_div_gcd gd0
  have e1 : a.num / Nat.gcd a.num b.num = x := Nat.div_eq_of_eq_mul_right gn0 hx
  have e2 : b.num / Nat.gcd a.num b.num = y := Nat.div_eq_of_eq_mul_right gn0 hy
  have e3 : a.den / Nat.gcd a.den b.den = u := Nat.div_eq_of_eq_mul_right gd0 hu
  have e4 : b.den / Nat.gcd a.den b.den = v := Nat.div_eq_of_eq_mul_right gd0 hv
  simp only [e1, e2, e3, e4] at c1 c2 ⊢
  generalize Nat.gcd a.num b.num = g at *
  generalize Nat.gcd a.den b.den = h at *
  have ca := ha.coprime
  have cb := hb.coprime
  have p1 := ha.num0
  have p2 := hb.num0
  have p3 := ha.den0
  have p4 := hb.den0
  have x0 : 0 < x := Nat.pos_of_ne_zero (by rintro rfl; simp at hx; omega)
  have y0 : 0 < y := Nat.pos_of_ne_zero (by rintro rfl; simp at hy; omega)
  have u0 : 0 < u := Nat.pos_of_ne_zero (by rintro rfl; simp at hu; omega)
  have v0 : 0 < v := Nat.pos_of_ne_zero (by rintro rfl; simp at hv; omega)
  refine ⟨x0, u0, y0, v0, ?_, ?_⟩
  · apply Nat.Coprime.mul_left
    · apply Nat.Coprime.mul_right c1
      rw [hx, hu] at ca
      exact Nat.Coprime.coprime_mul_left (Nat.Coprime.coprime_mul_left_right ca)
    · refine Nat.Coprime.mul_right ?_ c2.symm
      rw [hy, hv] at cb
      exact (Nat.Coprime.coprime_mul_left (Nat.Coprime.coprime_mul_left_right cb)).symm
  · unfold Unit.seconds
    rw [hx, hy, hu, hv]
    have : (g : ℚ) ≠ 0 := by exact_mod_cast gn0.ne'
    have : (h : ℚ) ≠ 0 := by exact_mod_cast gd0.ne'
    have : (x : ℚ) ≠ 0 := by exact_mod_cast x0.ne'
    have : (y : ℚ) ≠ 0 := by exact_mod_cast y0.ne'
    have : (u : ℚ) ≠ 0 := by exact_mod_cast u0.ne'
    have : (v : ℚ) ≠ 0 := by exact_mod_cast v0.ne'
    push_cast
    field_simp

theorem seconds_pos {a : Unit} (h : a.Ok) : 0 < a.seconds := by
  have h1 : (0 : ℚ) < a.num := by exact_mod_cast h.num0
  have h2 : (0 : ℚ) < a.den := by exact_mod_cast h.den0
  exact div_pos h1 h2

/-- Division towards zero is the whole number of units. -/
theorem tdiv_whole {a b : Unit} (hb : b.Ok) {p q : Nat} (hq : 0 < q)
    (hr : (p : ℚ) / q = a.seconds / b.seconds) (d : Int) : Whole a b d ((d * p).tdiv q) := by
  have hb0 := seconds_pos hb
  have hq' : (0 : ℚ) < q := by exact_mod_cast hq
  have ea : a.seconds = (p : ℚ) / q * b.seconds := by rw [hr, div_mul_cancel₀ _ hb0.ne']
  have key := Int.mul_tdiv_add_tmod (d * p) q
  have key' : (q : ℚ) * ((d * p).tdiv q : Int) + ((d * p).tmod q : Int) = d * p := by exact_mod_cast key
  have hda : (d : ℚ) * a.seconds = (d * p) / q * b.seconds := by rw [ea]; ring
  unfold Whole
  rw [hda, ← key']
  generalize ((d * p).tdiv q : Int) = t at *
  constructor
  · intro h0
    have m0 : 0 ≤ (d * p).tmod q := Int.tmod_nonneg _ (Int.mul_nonneg h0 (Int.natCast_nonneg p))
    have m1 : (d * p).tmod q < q := Int.tmod_lt_of_pos _ (by exact_mod_cast hq)
    have m0' : (0 : ℚ) ≤ ((d * p).tmod q : Int) := by exact_mod_cast m0
    have m1' : (((d * p).tmod q : Int) : ℚ) < q := by exact_mod_cast m1
    generalize ((d * p).tmod q : Int) = m at *
    constructor
    · apply mul_le_mul_of_nonneg_right _ hb0.le
      rw [le_div_iff₀ hq']; linarith
    · apply mul_lt_mul_of_pos_right _ hb0
      rw [div_lt_iff₀ hq']; linarith
  · intro h0
    have m : ((-(d * p)).tmod q) = -((d * p).tmod q) := Int.neg_tmod _ _
    have m0 : 0 ≤ (-(d * p)).tmod q := Int.tmod_nonneg _ (by
      have := Int.mul_nonneg (show 0 ≤ -d by omega) (Int.natCast_nonneg p)
      rw [Int.neg_mul] at this; exact this)
    have m1 : (-(d * p)).tmod q < q := Int.tmod_lt_of_pos _ (by exact_mod_cast hq)
    rw [m] at m0 m1
    have m0' : (((d * p).tmod q : Int) : ℚ) ≤ 0 := by exact_mod_cast (by omega : (d * p).tmod q ≤ 0)
    have m1' : (-(q : ℚ)) < ((d * p).tmod q : Int) := by exact_mod_cast (by omega : -(q : Int) < (d * p).tmod q)
    generalize ((d * p).tmod q : Int) = m at *
    constructor
    · apply mul_le_mul_of_nonneg_right _ hb0.le
      rw [div_le_iff₀ hq']; linarith
    · apply mul_lt_mul_of_pos_right _ hb0
      rw [lt_div_iff₀ hq']; linarith

theorem tdiv_tdiv_nonneg (x : Int) (h : 0 ≤ x) (m n : Nat) : (x.tdiv m).tdiv n = x.tdiv (m * n) := by
  rw [Int.tdiv_eq_ediv_of_nonneg h, Int.tdiv_eq_ediv_of_nonneg h,
    Int.tdiv_eq_ediv_of_nonneg (Int.ediv_nonneg h (Int.natCast_nonneg m)), Int.ediv_ediv_of_nonneg (Int.natCast_nonneg m)]

theorem tdiv_tdiv (x : Int) (m n : Nat) : (x.tdiv m).tdiv n = x.tdiv (m * n) := by
  rcases le_or_gt 0 x with h | h
  · exact tdiv_tdiv_nonneg x h m n
  · have := tdiv_tdiv_nonneg (-x) (by omega) m n
    rw [Int.neg_tdiv, Int.neg_tdiv, Int.neg_tdiv] at this
    omega

/-! ## C136 -/

/-- no_overflow is true exactly if the ratio of the two units can be written with two integers of 64 bits; its type is then this
ratio in lowest terms.  Nothing overflows on the way: the products are computed only if they fit. -/
theorem c136_ratio (a b : Unit) (ha : a.Ok) (hb : b.Ok) :
    (noOverflow a b = true ↔ ∃ p q : Nat, 0 < q ∧ p < 2 ^ 63 ∧ q < 2 ^ 63 ∧ (p : ℚ) / q = a.seconds / b.seconds) ∧
    (noOverflow a b = true → (ratioType a b).Ok ∧ (ratioType a b).seconds = a.seconds / b.seconds) := by
  obtain ⟨x0, u0, y0, v0, hc, hr⟩ := reduce_coprime ha hb
  have hval : noOverflow a b = true ↔
      (reduce a b).n1 * (reduce a b).d2 < 2 ^ 63 ∧ (reduce a b).n2 * (reduce a b).d1 < 2 ^ 63 := by
    simp only [noOverflow, Bool.and_eq_true, decide_eq_true_eq]
    rw [Nat.le_div_iff_mul_le v0, Nat.le_div_iff_mul_le u0]
    unfold maxInt
    omega
  have hP := Nat.mul_pos x0 v0
  have hQ := Nat.mul_pos y0 u0
  constructor
  · rw [hval]
    constructor
    · intro h
      exact ⟨_, _, hQ, h.1, h.2, hr⟩
    · rintro ⟨p, q, hq, hp1, hq1, he⟩
      rw [← hr] at he
      generalize (reduce a b).n1 * (reduce a b).d2 = P at *
      generalize (reduce a b).n2 * (reduce a b).d1 = Q at *
      have hq' : (q : ℚ) ≠ 0 := by exact_mod_cast hq.ne'
      have hQ' : (Q : ℚ) ≠ 0 := by exact_mod_cast hQ.ne'
      rw [div_eq_div_iff hq' hQ'] at he
      have he' : p * Q = P * q := by exact_mod_cast he
      have h1 : P ∣ p := Nat.Coprime.dvd_of_dvd_mul_right hc ⟨q, he'⟩
      have h2 : Q ∣ q := Nat.Coprime.dvd_of_dvd_mul_left hc.symm ⟨p, by rw [← he', Nat.mul_comm]⟩
      have hp : 0 < p := by
        apply Nat.pos_of_ne_zero
        rintro rfl
        have := Nat.mul_pos hP hq
        omega
      exact ⟨lt_of_le_of_lt (Nat.le_of_dvd hp h1) hp1, lt_of_le_of_lt (Nat.le_of_dvd hq h2) hq1⟩
  · intro h
    have hv := hval.mp h
    have e : ratioType a b = ⟨(reduce a b).n1 * (reduce a b).d2, (reduce a b).n2 * (reduce a b).d1⟩ := by
      simp [ratioType, mulOr, h]
    rw [e]
    exact ⟨⟨hP, hQ, hc, hv.1, hv.2⟩, hr⟩

/-- trunc gives the whole number of units, if no product overflows: always if the ratio of the units fits, and otherwise if one of
the units is a whole number of seconds or a second is a whole number of the first ones ... -/
theorem c136_trunc_partial (a b : Unit) (ha : a.Ok) (hb : b.Ok) (d t : Int) (h : trunc a b d = .ok t)
    (hs : noOverflow a b = true ∨ a.den = 1 ∨ b.den = 1) : Whole a b d t := by
  unfold trunc at h
  by_cases hn : noOverflow a b = true
  · rw [if_pos hn] at h
    obtain ⟨h1, h2⟩ := (c136_ratio a b ha hb).2 hn
    unfold castBy at h
    split at h
    · cases h
      exact tdiv_whole hb h1.den0 h2 d
    · cases h
  · rw [if_neg hn] at h
    have hs' := hs.resolve_left hn
    cases hc : castBy a d with
    | ok s =>
      rw [hc] at h
      have h' : castBy ⟨b.den, b.num⟩ s = .ok t := h
      unfold castBy at hc h'
      split at hc
      · cases hc
        split at h'
        · cases h'
          have e : ((d * a.num).tdiv a.den * b.den).tdiv b.num = (d * (a.num * b.den : Nat)).tdiv (a.den * b.num : Nat) := by
            rcases hs' with h1 | h1
            · rw [h1]; simp [mul_assoc]
            · rw [h1]; push_cast; simp only [mul_one]
              exact tdiv_tdiv _ _ _
          show Whole a b d (((d * a.num).tdiv a.den * b.den).tdiv b.num)
          rw [e]
          apply tdiv_whole hb (Nat.mul_pos ha.den0 hb.num0)
          unfold Unit.seconds
          have : (a.den : ℚ) ≠ 0 := by exact_mod_cast ha.den0.ne'
          have : (b.den : ℚ) ≠ 0 := by exact_mod_cast hb.den0.ne'
          have : (b.num : ℚ) ≠ 0 := by exact_mod_cast hb.num0.ne'
          push_cast
          field_simp
        · cases h'
      · cases hc
    | throw => rw [hc] at h; cases h
    | terminate => rw [hc] at h; cases h
    | ub => rw [hc] at h; cases h
    | diverge => rw [hc] at h; cases h

/-- ... but not for all units: the count is made whole twice, first in seconds. -/
theorem c136_trunc_violated : ∃ a b : Unit, a.Ok ∧ b.Ok ∧ noOverflow a b = false ∧ trunc a b 100 = .ok 0 ∧
    Whole a b 100 1 ∧ ¬ Whole a b 100 0 := by
  refine ⟨⟨999999999, 10000000000⟩, ⟨10000000000, 1000000009⟩, ⟨by decide, by decide, by unfold Nat.Coprime; decide +kernel, by decide, by decide⟩,
    ⟨by decide, by decide, by unfold Nat.Coprime; decide +kernel, by decide, by decide⟩, by decide +kernel, by decide +kernel, ?_, ?_⟩
  · constructor
    · intro _; norm_num [Unit.seconds]
    · intro h; omega
  · intro h
    have := (h.1 (by norm_num)).2
    norm_num [Unit.seconds] at this

/-! ## Examples -/
example : noOverflow ⟨1, 1000⟩ ⟨60, 1⟩ = true := by decide +kernel
example : (ratioType ⟨1, 1000⟩ ⟨60, 1⟩).num = 1 ∧ (ratioType ⟨1, 1000⟩ ⟨60, 1⟩).den = 60000 := by decide +kernel
example : noOverflow ⟨1, 10 ^ 18⟩ ⟨86400, 1⟩ = false := by decide +kernel
example : trunc ⟨1, 10 ^ 18⟩ ⟨3, 1⟩ (-7 * 10 ^ 18) = .ok (-2) := by decide +kernel
example : trunc ⟨1, 1000⟩ ⟨60, 1⟩ 119999 = .ok 1 := by decide +kernel
example : (⟨1, 10 ^ 18⟩ : Unit).Ok := ⟨by decide, by decide, by norm_num, by decide, by decide⟩
example : (⟨86400, 1⟩ : Unit).Ok := ⟨by decide, by decide, by norm_num, by decide, by decide⟩

end Gul14.Date.UnitRatio
