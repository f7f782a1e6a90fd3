import Verif.Date.Rounding

/-!
# C77: time of day, date.h:3492-3760

hh_mm_ss takes a duration; `c` is its count in the common unit of the duration and the second, that is
ticks of 1/T second (std::common_type; `T ≥ 1`).  Counts are mathematical integers: overflow of the
representation is not modelled, nor are floating-point representations.
-/
namespace Gul14.Date

/-- detail::width<n, d, w>, date.h:3508-3522; `fuel` is 19 - w. The product does not overflow 64 bits for
`d` up to 10^18. -/
def width (n d : Nat) : Nat → Nat
  | 0 => 0
  | fuel + 1 => if n % d ≠ 0 then 1 + width (n % d * 10) d fuel else 0

/-- detail::static_pow10, date.h:3524-3537. -/
def pow10 (exp : Nat) : Nat :=
  if h : exp = 0 then 1
  else
    let r := pow10 (exp / 2)
    r * r * (if exp % 2 ≠ 0 then 10 else 1)
  termination_by exp
  decreasing_by omega

/-- hh_mm_ss<Duration>::fractional_width, date.h:3541-3547 and 3662. -/
def fractionalWidth (T : Nat) : Nat :=
  let trial := width 1 T 19
  if trial < 19 then trial else 6

/-- The members of hh_mm_ss, date.h:3651-3660, with the two parts of its decimal_format_seconds. -/
structure HMS where
  h : Int
  m : Int
  s : Int
  sub : Int
  neg : Bool
  deriving DecidableEq, Repr

/-- hh_mm_ss(Duration), date.h:3664-3669, and decimal_format_seconds(Duration), 3562-3565; the casts
truncate. -/
def hhmmss (T : Nat) (c : Int) : HMS :=
  let a := absDur c
  let h := a.tdiv (3600 * T)
  let m := a.tdiv (60 * T) - 60 * h
  let rest := a - h * (3600 * T) - m * (60 * T)
  let s := rest.tdiv T
  let sub := ((rest - s * T) * pow10 (fractionalWidth T)).tdiv T
  ⟨h, m, s, sub, decide (c < 0)⟩

/-- hh_mm_ss::to_duration, date.h:3684-3686 and 3569-3572, in ticks of the precision. -/
def HMS.toDuration (x : HMS) (T : Nat) : Int :=
  let p : Int := pow10 (fractionalWidth T)
  ((x.s * p + x.sub) + x.m * (60 * p) + x.h * (3600 * p)) * (1 - 2 * (if x.neg then 1 else 0))

/-- hh_mm_ss::in_conventional_range, date.h:3688-3692 and 3574-3577. -/
def HMS.conventional (x : HMS) (T : Nat) : Bool :=
  !x.neg && x.h < 24 && x.m < 60 && (x.sub < pow10 (fractionalWidth T) && x.s < 60)

/-- is_am, is_pm, make12 and make24, date.h:3719-3762. -/
def isAm (h : Int) : Bool := 0 ≤ h && h < 12
/-- is_pm, date.h:3734-3739. -/
def isPm (h : Int) : Bool := 12 ≤ h && h < 24
/-- make12, date.h:3741-3756. -/
def make12 (h : Int) : Int :=
  if h < 12 then (if h = 0 then 12 else h) else (if h ≠ 12 then h - 12 else h)
/-- make24, date.h:3758-3770. -/
def make24 (h : Int) (pm : Bool) : Int :=
  if pm then (if h ≠ 12 then h + 12 else h) else if h = 12 then 0 else h

theorem pow10_eq (e : Nat) : pow10 e = 10 ^ e := by
  induction e using Nat.strongRecOn with
  | _ e ih =>
    unfold pow10
    split
    · rename_i h; subst h; rfl
    · rename_i h
      rw [ih (e / 2) (by omega)]
      simp only
      rw [← Nat.pow_add]
      by_cases h2 : e % 2 = 0
      · rw [if_neg (by omega)]
        have : e / 2 + e / 2 = e := by omega
        rw [this]; omega
      · rw [if_pos h2]
        have : e / 2 + e / 2 + 1 = e := by omega
        rw [← Nat.pow_succ, Nat.succ_eq_add_one, this]

theorem width_spec (d fuel : Nat) : ∀ n, width n d fuel ≤ fuel ∧
    (width n d fuel < fuel → d ∣ n * 10 ^ width n d fuel) ∧
    (∀ k, k < width n d fuel → ¬ d ∣ n * 10 ^ k) := by
  induction fuel with
  | zero => intro n; simp [width]
  | succ f ih =>
    intro n
    unfold width
    have hmod : ∀ k, d ∣ n % d * 10 * 10 ^ k ↔ d ∣ n * 10 ^ (k + 1) := by
      intro k
      have e : n * 10 ^ (k + 1) = d * (n / d * 10 ^ (k + 1)) + n % d * 10 * 10 ^ k := by
        have := Nat.div_add_mod n d
        calc n * 10 ^ (k + 1) = (d * (n / d) + n % d) * 10 ^ (k + 1) := by rw [this]
          _ = _ := by rw [Nat.add_mul, Nat.pow_succ, Nat.mul_assoc]; simp only [Nat.mul_assoc, Nat.mul_comm 10]
      rw [e]
      exact (Nat.dvd_add_right (Nat.dvd_mul_right _ _)).symm
    split
    · rename_i h
      obtain ⟨i1, i2, i3⟩ := ih (n % d * 10)
      refine ⟨by omega, ?_, ?_⟩
      · intro hlt
        rw [Nat.add_comm, ← hmod]
        exact i2 (by omega)
      · intro k hk
        cases k with
        | zero => simpa [Nat.dvd_iff_mod_eq_zero] using h
        | succ k => rw [← hmod]; exact i3 k (by omega)
    · rename_i h
      refine ⟨by omega, fun _ => ?_, fun k hk => by omega⟩
      simp only [Decidable.not_not] at h
      simpa [Nat.dvd_iff_mod_eq_zero] using h

/-- The number of fractional digits is the smallest that represents a tick exactly, if 18 suffice, and 6
otherwise. -/
theorem c77_width (T : Nat) :
    ((∃ k, k ≤ 18 ∧ T ∣ 10 ^ k) → T ∣ 10 ^ fractionalWidth T ∧
      ∀ k, T ∣ 10 ^ k → fractionalWidth T ≤ k) ∧
    ((¬ ∃ k, k ≤ 18 ∧ T ∣ 10 ^ k) → fractionalWidth T = 6) := by
  obtain ⟨h1, h2, h3⟩ := width_spec T 19 1
  simp only [Nat.one_mul] at h2 h3
  unfold fractionalWidth
  simp only
  constructor
  · rintro ⟨k, hk, hd⟩
    have hw : width 1 T 19 ≤ k := by
      rcases Nat.lt_or_ge k (width 1 T 19) with h | h
      · exact absurd hd (h3 k h)
      · exact h
    rw [if_pos (by omega)]
    refine ⟨h2 (by omega), fun j hj => ?_⟩
    rcases Nat.lt_or_ge j (width 1 T 19) with h | h
    · exact absurd hj (h3 j h)
    · exact h
  · intro hne
    split
    · rename_i h; exact absurd ⟨_, by omega, h2 h⟩ hne
    · rfl

theorem hms_arith {a T : Int} (ha : 0 ≤ a) (hT : 0 < T) : ∃ q r, a = q * T + r ∧ 0 ≤ r ∧ r < T ∧ 0 ≤ q ∧
    a.tdiv T = q ∧ a.tdiv (60 * T) = q / 60 ∧ a.tdiv (3600 * T) = q / 3600 := by
  have e := Int.mul_ediv_add_emod a T
  have h1 := Int.emod_nonneg a (show T ≠ 0 by omega)
  have h2 := Int.emod_lt_of_pos a hT
  refine ⟨a / T, a % T, by rw [Int.mul_comm]; omega, h1, h2, Int.ediv_nonneg ha (by omega), ?_, ?_, ?_⟩
  · exact Int.tdiv_eq_ediv_of_nonneg ha
  · rw [Int.tdiv_eq_ediv_of_nonneg ha, Int.mul_comm, ← Int.ediv_ediv_of_nonneg (by omega)]
  · rw [Int.tdiv_eq_ediv_of_nonneg ha, Int.mul_comm, ← Int.ediv_ediv_of_nonneg (by omega)]

/-- What the fields are: whole seconds `q` and a remainder `r` of ticks. -/
theorem hms_fields (T : Nat) (hT : 0 < T) (c : Int) : ∃ q r : Int,
    (c.natAbs : Int) = q * T + r ∧ 0 ≤ r ∧ r < T ∧ 0 ≤ q ∧
    hhmmss T c = ⟨q / 3600, q / 60 - 60 * (q / 3600), q - q / 60 * 60,
      r * 10 ^ fractionalWidth T / T, decide (c < 0)⟩ := by
  obtain ⟨q, r, e, h1, h2, h3, d1, d2, d3⟩ := hms_arith (a := c.natAbs) (T := T) (by omega) (by omega)
  refine ⟨q, r, e, h1, h2, h3, ?_⟩
  have hp : (0 : Int) ≤ 10 ^ fractionalWidth T := Int.pow_nonneg (by omega)
  simp only [hhmmss, c78_abs, d2, d3, pow10_eq]
  have hrest : (c.natAbs : Int) - q / 3600 * (3600 * T) - (q / 60 - 60 * (q / 3600)) * (60 * T)
      = (q - q / 60 * 60) * T + r := by
    rw [e]
    generalize q / 3600 = x
    generalize q / 60 = y
    grind
  rw [hrest]
  have hm0 : 0 ≤ q - q / 60 * 60 := by omega
  have hnn : 0 ≤ (q - q / 60 * 60) * (T : Int) := Int.mul_nonneg hm0 (by omega)
  have hs : ((q - q / 60 * 60) * (T : Int) + r).tdiv T = q - q / 60 * 60 := by
    rw [Int.tdiv_eq_ediv_of_nonneg (by omega), Int.add_comm, Int.add_mul_ediv_right _ _ (by omega),
      Int.ediv_eq_zero_of_lt h1 h2, Int.zero_add]
  rw [hs, show (q - q / 60 * 60) * (T : Int) + r - (q - q / 60 * 60) * T = r by omega]
  congr 1
  simp only [Int.natCast_pow, Int.cast_ofNat_Int]
  rw [Int.tdiv_eq_ediv_of_nonneg (Int.mul_nonneg h1 hp)]

/-- The fields are in their ranges, and the sign is the sign of the duration. -/
theorem c77_ranges (T : Nat) (hT : 0 < T) (c : Int) :
    0 ≤ (hhmmss T c).h ∧ 0 ≤ (hhmmss T c).m ∧ (hhmmss T c).m < 60 ∧ 0 ≤ (hhmmss T c).s ∧
    (hhmmss T c).s < 60 ∧ 0 ≤ (hhmmss T c).sub ∧ (hhmmss T c).sub < 10 ^ fractionalWidth T ∧
    ((hhmmss T c).neg = true ↔ c < 0) := by
  obtain ⟨q, r, e, h1, h2, h3, hf⟩ := hms_fields T hT c
  have hp : (0 : Int) < 10 ^ fractionalWidth T := Int.pow_pos (by omega)
  rw [hf]
  refine ⟨by simp only; omega, by simp only; omega, by simp only; omega, by simp only; omega,
    by simp only; omega, Int.ediv_nonneg (Int.mul_nonneg h1 (by omega)) (by omega), ?_, by simp⟩
  refine Int.ediv_lt_of_lt_mul (by omega) ?_
  rw [Int.mul_comm]
  exact Int.mul_lt_mul_of_pos_left h2 hp

/-- to_duration gives the duration back, truncated towards zero to the precision. -/
theorem c77_to_duration (T : Nat) (hT : 0 < T) (c : Int) :
    (hhmmss T c).toDuration T = (c * 10 ^ fractionalWidth T).tdiv T := by
  obtain ⟨q, r, e, h1, h2, h3, hf⟩ := hms_fields T hT c
  have hp : (0 : Int) < 10 ^ fractionalWidth T := Int.pow_pos (by omega)
  rw [hf]
  simp only [HMS.toDuration, pow10_eq]
  simp only [Int.natCast_pow, Int.cast_ofNat_Int]
  generalize (10 : Int) ^ fractionalWidth T = p at *
  have hsum : (q - q / 60 * 60) * p + r * p / T + (q / 60 - 60 * (q / 3600)) * (60 * p)
      + q / 3600 * (3600 * p) = q * p + r * p / T := by
    generalize q / 3600 = x
    generalize q / 60 = y
    generalize r * p / (T : Int) = z
    grind
  rw [hsum]
  have habs : ((c.natAbs : Int) * p).tdiv T = q * p + r * p / T := by
    rw [e, Int.add_mul, Int.mul_assoc, Int.mul_comm (T : Int) p, ← Int.mul_assoc]
    rw [Int.tdiv_eq_ediv_of_nonneg (Int.add_nonneg
      (Int.mul_nonneg (Int.mul_nonneg h3 (by omega)) (by omega)) (Int.mul_nonneg h1 (by omega)))]
    rw [Int.add_comm, Int.add_mul_ediv_right _ _ (by omega), Int.add_comm]
  by_cases hc : c < 0
  · have : (c.natAbs : Int) = -c := by omega
    rw [this, Int.neg_mul, Int.neg_tdiv] at habs
    simp only [hc, decide_true, if_true]
    omega
  · have : (c.natAbs : Int) = c := by omega
    rw [this] at habs
    simp only [hc, decide_false]
    simp only [Bool.false_eq_true, if_false]
    omega

/-- If a tick has a finite decimal representation of up to 18 digits (all usual durations), the fields
add up to the absolute value exactly and to_duration loses nothing. -/
theorem c77_exact (T : Nat) (hT : 0 < T) (c : Int) (h : ∃ k, k ≤ 18 ∧ T ∣ 10 ^ k) :
    let x := hhmmss T c
    let p : Int := 10 ^ fractionalWidth T
    ((x.h * 3600 + x.m * 60 + x.s) * p + x.sub) * T = c.natAbs * p ∧ x.toDuration T * T = c * p := by
  intro x p
  have hd := ((c77_width T).1 h).1
  have hd' : (T : Int) ∣ 10 ^ fractionalWidth T := by
    have := Int.natCast_dvd_natCast.mpr hd
    simpa using this
  obtain ⟨q, r, e, h1, h2, h3, hf⟩ := hms_fields T hT c
  constructor
  · simp only [x, hf]
    have e1 : (q / 3600 * 3600 + (q / 60 - 60 * (q / 3600)) * 60 + (q - q / 60 * 60)) = q := by omega
    rw [e1, Int.add_mul, Int.ediv_mul_cancel (Int.dvd_mul_of_dvd_right hd'), e, Int.add_mul]
    simp only [p, Int.mul_comm, Int.mul_left_comm, Int.mul_assoc]
  · simp only [x, p]
    rw [c77_to_duration T hT c]
    exact Int.tdiv_mul_cancel (Int.dvd_mul_of_dvd_right hd')

/-- in_conventional_range says whether the duration is from 0 up to a day. -/
theorem c77_conventional (T : Nat) (hT : 0 < T) (c : Int) :
    (hhmmss T c).conventional T = true ↔ 0 ≤ c ∧ c < 86400 * T := by
  have hr := c77_ranges T hT c
  obtain ⟨q, r, e, h1, h2, h3, hf⟩ := hms_fields T hT c
  have hh : (hhmmss T c).h = q / 3600 := by rw [hf]
  have hsub : (hhmmss T c).sub < ((pow10 (fractionalWidth T) : Nat) : Int) := by
    rw [pow10_eq]; push_cast; exact hr.2.2.2.2.2.2.1
  have hq : q < 86400 ↔ (c.natAbs : Int) < 86400 * T := by
    constructor
    · intro h
      have : q * (T : Int) ≤ 86399 * T := Int.mul_le_mul_of_nonneg_right (by omega) (by omega)
      omega
    · intro h
      rcases Int.lt_or_le q 86400 with hlt | hle
      · exact hlt
      · have : 86400 * (T : Int) ≤ q * T := Int.mul_le_mul_of_nonneg_right hle (by omega)
        omega
  simp only [HMS.conventional, Bool.and_eq_true, Bool.not_eq_true', decide_eq_true_eq]
  rw [hh]
  constructor
  · rintro ⟨⟨⟨hn, h24⟩, -⟩, -⟩
    have hc : ¬ c < 0 := fun h => by rw [hr.2.2.2.2.2.2.2.mpr h] at hn; exact absurd hn (by decide)
    exact ⟨by omega, by have := hq.mp (by omega); omega⟩
  · rintro ⟨h0, hlt⟩
    have := hq.mpr (by omega)
    refine ⟨⟨⟨?_, by omega⟩, hr.2.2.1⟩, hsub, hr.2.2.2.2.1⟩
    rcases hb : (hhmmss T c).neg with _ | _
    · rfl
    · have := hr.2.2.2.2.2.2.2.mp hb; omega

/-- The 12-hour clock: every hour of the day has one 12-hour form and comes back from it, and
conversely. -/
theorem c77_clock :
    (∀ h : Int, 0 ≤ h → h < 24 → 1 ≤ make12 h ∧ make12 h ≤ 12 ∧ make24 (make12 h) (isPm h) = h ∧
      isAm h = !isPm h) ∧
    (∀ (h : Int) (pm : Bool), 1 ≤ h → h ≤ 12 → 0 ≤ make24 h pm ∧ make24 h pm < 24 ∧
      make12 (make24 h pm) = h ∧ isPm (make24 h pm) = pm) ∧
    (∀ h : Int, (isAm h = true ↔ 0 ≤ h ∧ h < 12) ∧ (isPm h = true ↔ 12 ≤ h ∧ h < 24)) := by
  refine ⟨?_, ?_, fun h => by simp [isAm, isPm]⟩
  · intro h h0 h1
    have : h = 0 ∨ h = 1 ∨ h = 2 ∨ h = 3 ∨ h = 4 ∨ h = 5 ∨ h = 6 ∨ h = 7 ∨ h = 8 ∨ h = 9 ∨ h = 10 ∨ h = 11 ∨
      h = 12 ∨ h = 13 ∨ h = 14 ∨ h = 15 ∨ h = 16 ∨ h = 17 ∨ h = 18 ∨ h = 19 ∨ h = 20 ∨ h = 21 ∨ h = 22 ∨
      h = 23 := by omega
    rcases this with e | e | e | e | e | e | e | e | e | e | e | e | e | e | e | e | e | e | e | e | e |
      e | e | e <;> subst e <;> decide
  · intro h pm h0 h1
    have : h = 1 ∨ h = 2 ∨ h = 3 ∨ h = 4 ∨ h = 5 ∨ h = 6 ∨ h = 7 ∨ h = 8 ∨ h = 9 ∨ h = 10 ∨ h = 11 ∨
      h = 12 := by omega
    cases pm <;> rcases this with e | e | e | e | e | e | e | e | e | e | e | e <;> subst e <;> decide

example : hhmmss 1000 (-45296789) = ⟨12, 34, 56, 789, true⟩ := by
  simp [hhmmss, fractionalWidth, width, absDur, pow10_eq]
example : fractionalWidth 3 = 6 ∧ fractionalWidth 1000000000 = 9 ∧ fractionalWidth 4 = 2 := by decide

end Gul14.Date
