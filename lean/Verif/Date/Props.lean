import Verif.Date.Lemmas

/-! # C71-C76: dates, weekdays, months -/
namespace Gul14.Date
open Gul14.Spec.Calendar

/-- The date that the fields of a year_month_day name. -/
def YMD.date (x : YMD) : Date := ⟨x.y.toInt, x.m.toNat, x.d.toNat⟩

theorem ofDate_date (x : YMD) : ofDate x.date = x := by
  cases x; simp [ofDate, YMD.date]

theorem date_ofDate {x : Date} (h : x.Valid) (h1 : -32768 ≤ x.year) (h2 : x.year ≤ 32767) :
    (ofDate x).date = x := by
  obtain ⟨a, b, c, d⟩ := h
  have hl : monthLength x.year x.month ≤ 31 := by
    unfold monthLength; repeat' split
    all_goals omega
  cases x with | mk y m dd =>
  simp only at a b c d h1 h2 hl
  simp only [ofDate, YMD.date, Date.mk.injEq]
  refine ⟨?_, ?_, ?_⟩
  · rw [Int16.toInt_ofInt]; simp only [Int.bmod, Int16.size]; split <;> omega
  · simp; omega
  · simp; omega

theorem date_inj {x y : YMD} (h : x.date = y.date) : x = y := by
  rw [← ofDate_date x, ← ofDate_date y, h]

/-! ### C71: dates and day counts -/

/-- Specification check: every day has one date, every date is one day. -/
theorem c71_calendar_bijection :
    (∀ n, ∃ x, DayOf n x ∧ ∀ y, DayOf n y → y = x) ∧
    (∀ x : Date, x.Valid → ∃ n, DayOf n x ∧ ∀ k, DayOf k x → k = n) ∧
    (∀ n x, DayOf n x → x.Valid) := by
  refine ⟨fun n => ⟨Calc.dateOf n, Calc.dayOf_dateOf n, fun y h => Calc.dayOf_eq h⟩,
    fun x hx => ⟨_, Calc.dayOf_iff.mpr ⟨hx, rfl⟩, fun k h => (Calc.dayOf_iff.mp h).2.symm⟩,
    fun n x h => (Calc.dayOf_iff.mp h).1⟩

/-- The conversion of an existing date to a day count is the number of days one counts from
1970-01-01. -/
theorem c71_to_days (x : YMD) (h : x.date.Valid) : ∃ n, x.toDays = .ok n ∧ DayOf n x.date := by
  rw [toDays_eq]
  exact ⟨_, rfl, Calc.dayOf_iff.mpr ⟨h, rfl⟩⟩

/-- The date of a day count, for every day in a representable year. -/
theorem c71_from_days {n : Int} {x : Date} (h : DayOf n x) (h1 : -32768 ≤ x.year)
    (h2 : x.year ≤ 32767) : ∃ r, fromDays n = .ok r ∧ r.date = x := by
  obtain ⟨hv, hn⟩ := Calc.dayOf_iff.mp h
  have hb : -12700000 ≤ n ∧ n ≤ 12700000 := by
    have a1 : x.month ≤ 12 := hv.2.1
    have a2 : 1 ≤ x.month := hv.1
    have a3 : x.day ≤ 31 := by
      have := hv.2.2.2
      have hl : monthLength x.year x.month ≤ 31 := by
        unfold monthLength; repeat' split
        all_goals omega
      omega
    rw [← hn]
    simp only [Calc.dayNum, Calc.fy, Calc.marchYear, Calc.marchMonth]
    split <;> split <;> omega
  rw [fromDays_eq (by omega) (by omega), ← Calc.dayOf_eq h]
  exact ⟨_, rfl, date_ofDate hv h1 h2⟩

/-- Date to day count and back. -/
theorem c71_round_trip (x : YMD) (h : x.date.Valid) :
    ∃ n, x.toDays = .ok n ∧ fromDays n = .ok x := by
  obtain ⟨n, hn, hd⟩ := c71_to_days x h
  have hy := year_range x.y
  obtain ⟨r, hr, hx⟩ := c71_from_days hd hy.1 hy.2
  exact ⟨n, hn, by rw [hr, date_inj hx]⟩

/-- Day count to date and back, for every day in a representable year. -/
theorem c71_round_trip_days {n : Int} {x : Date} (h : DayOf n x) (h1 : -32768 ≤ x.year)
    (h2 : x.year ≤ 32767) : ∃ r, fromDays n = .ok r ∧ r.toDays = .ok n := by
  obtain ⟨r, hr, hx⟩ := c71_from_days h h1 h2
  refine ⟨r, hr, ?_⟩
  have := Calc.dayOf_iff.mp h
  obtain ⟨k, hk, hd⟩ := c71_to_days r (by rw [hx]; exact this.1)
  rw [hx] at hd
  rw [hk, ← (Calc.dayOf_iff.mp hd).2, this.2]

/-- Which day counts these are: from -32768-01-01 to 32767-12-31. -/
theorem c71_representable {n : Int} {x : Date} (h : DayOf n x) :
    (-32768 ≤ x.year ∧ x.year ≤ 32767) ↔ (-12687794 ≤ n ∧ n ≤ 11248737) := by
  have hv := (Calc.dayOf_iff.mp h).1
  have hn := (Calc.dayOf_iff.mp h).2
  have lo : (⟨-32768, 1, 1⟩ : Date).Valid := by decide
  have hi : (⟨32767, 12, 31⟩ : Date).Valid := by decide
  have elo : Calc.dayNum (-32768) ((1 : Nat) : Int) ((1 : Nat) : Int) = -12687794 := by decide
  have ehi : Calc.dayNum 32767 ((12 : Nat) : Int) ((31 : Nat) : Int) = 11248737 := by decide
  have a3 : x.day ≤ 31 := by
    have := hv.2.2.2
    have hl : monthLength x.year x.month ≤ 31 := by
      unfold monthLength; repeat' split
      all_goals omega
    omega
  have a1 := hv.1
  have a2 := hv.2.1
  have a4 := hv.2.2.1
  constructor
  · intro ⟨p, q⟩
    constructor
    · rcases Calc.before_total ⟨-32768, 1, 1⟩ x with hb | hb | hb
      · have := Calc.dayNum_lt lo hv hb; simp only [elo] at this; omega
      · rw [← hb] at hn; simp only [elo] at hn; omega
      · simp only [Date.Before] at hb; omega
    · rcases Calc.before_total ⟨32767, 12, 31⟩ x with hb | hb | hb
      · simp only [Date.Before] at hb; omega
      · rw [← hb] at hn; simp only [ehi] at hn; omega
      · have := Calc.dayNum_lt hv hi hb; simp only [ehi] at this; omega
  · intro ⟨p, q⟩
    constructor
    · rcases Calc.before_total ⟨-32768, 1, 1⟩ x with hb | hb | hb
      · simp only [Date.Before] at hb; omega
      · rw [← hb]; decide
      · have := Calc.dayNum_lt hv lo hb; simp only [elo] at this; omega
    · rcases Calc.before_total ⟨32767, 12, 31⟩ x with hb | hb | hb
      · have := Calc.dayNum_lt hi hv hb; simp only [ehi] at this; omega
      · rw [← hb]; decide
      · simp only [Date.Before] at hb; omega

/-- The day field may leave the month: the conversion counts on from the first of the month, for every
value of the field. -/
theorem c71_day_overflow (y : Int16) (m d : UInt8) : ∃ n : Int,
    (YMD.mk y m 1).toDays = .ok n ∧ (YMD.mk y m d).toDays = .ok (n + d.toNat - 1) := by
  rw [toDays_eq, toDays_eq]
  refine ⟨_, rfl, ?_⟩
  have : val 1 = 1 := rfl
  simp only [this]
  rw [Calc.dayNum_day y.toInt (val m) (val d)]
  unfold val
  congr 1; omega

/-- Exactly the largest 719468 day counts of `int` are beyond the conversion; for the others outside the
representable years month and day are right and the year is reduced to 16 bits. -/
theorem c71_from_days_outside {n : Int} (h1 : -2147483648 ≤ n) (h2 : n ≤ 2147483647) :
    (fromDays n = .ub ↔ 2146764179 < n) ∧
    ∀ x, DayOf n x → fromDays n ≠ .ub → ∃ r, fromDays n = .ok r ∧
      r.m.toNat = x.month ∧ r.d.toNat = x.day ∧ (65536 : Int) ∣ r.y.toInt - x.year := by
  constructor
  · constructor
    · intro h
      by_cases hr : 2146764179 < n
      · exact hr
      · rw [fromDays_eq (by omega) (by omega)] at h; simp at h
    · intro h; exact fromDays_ub h1 h2 (by omega)
  · intro x hx hu
    have hb : ¬(n + 573372 < -2147483648 ∨ 2147483647 < n + 719468) :=
      fun h => hu (fromDays_ub h1 h2 h)
    rw [fromDays_eq (by omega) (by omega), ← Calc.dayOf_eq hx]
    obtain ⟨a, b, c, d⟩ := (Calc.dayOf_iff.mp hx).1
    have hl : monthLength x.year x.month ≤ 31 := by
      unfold monthLength; repeat' split
      all_goals omega
    refine ⟨_, rfl, ?_, ?_, ?_⟩
    · simp [ofDate]; omega
    · simp [ofDate]; omega
    · simp only [ofDate, Int16.toInt_ofInt, Int.bmod, Int16.size]; split <;> omega

example : (YMD.mk 2024 2 29).toDays = .ok 19782 := by decide +kernel
example : fromDays 19782 = .ok ⟨2024, 2, 29⟩ := by decide +kernel
example : fromDays (-1) = .ok ⟨1969, 12, 31⟩ := by decide +kernel
example : (YMD.mk 2024 2 29).date.Valid := by decide
example : (YMD.mk 2023 2 31).toDays = (YMD.mk 2023 3 3).toDays := by decide +kernel
example : fromDays 11248738 = .ok ⟨-32768, 1, 1⟩ := by decide +kernel

/-! ### C72: which dates exist -/

theorem c72_leap (y : Int16) : isLeap y = true ↔ Leap y.toInt := by
  have e : ∀ k : Int, y.toInt.tmod k = 0 ↔ k ∣ y.toInt := fun k => by
    rw [Int.dvd_iff_tmod_eq_zero]
  unfold isLeap Leap
  simp only [Bool.and_eq_true, Bool.or_eq_true, beq_iff_eq, bne_iff_ne, ne_eq, e]

theorem monthOk_iff (m : UInt8) : monthOk m = true ↔ 1 ≤ m.toNat ∧ m.toNat ≤ 12 := by
  have h1 : (1 : UInt8).toNat = 1 := rfl
  have h2 : (12 : UInt8).toNat = 12 := rfl
  simp [monthOk, UInt8.le_iff_toNat_le, h1, h2]

/-- The last day of a month is its length. -/
theorem c72_last_day (y : Int16) (m : UInt8) (h : monthOk m = true) :
    (lastDay y m).toNat = monthLength y.toInt m.toNat := by
  have hm := (monthOk_iff m).mp h
  have hl := c72_leap y
  have : ∀ k : UInt8, monthOk k = true → k ≠ 2 → ∀ yy : Int,
      (([31, 28, 31, 30, 31, 30, 31, 31, 30, 31, 30, 31] : List UInt8).getD (k.toNat - 1) 0).toNat
        = monthLength yy k.toNat := by
    intro k hk h2 yy
    have hk' := (monthOk_iff k).mp hk
    have hk2 : k.toNat ≠ 2 := fun e => h2 (UInt8.toNat_inj.mp e)
    unfold monthLength
    rw [if_neg hk2]
    have : k.toNat = 1 ∨ k.toNat = 3 ∨ k.toNat = 4 ∨ k.toNat = 5 ∨ k.toNat = 6 ∨ k.toNat = 7 ∨
      k.toNat = 8 ∨ k.toNat = 9 ∨ k.toNat = 10 ∨ k.toNat = 11 ∨ k.toNat = 12 := by omega
    rcases this with e | e | e | e | e | e | e | e | e | e | e <;> rw [e] <;> rfl
  unfold lastDay
  by_cases h2 : m = 2
  · subst h2
    by_cases hL : isLeap y = true
    · rw [if_neg (by simp [hL])]
      have : (2 : UInt8).toNat = 2 := rfl
      simp [monthLength, this, hl.mp hL]
    · have hL' : ¬ Leap y.toInt := fun h => hL (hl.mpr h)
      have : (2 : UInt8).toNat = 2 := rfl
      rw [if_pos ⟨Or.inr (by simpa using hL), h⟩]
      simp [monthLength, this, hL']
  · rw [if_pos ⟨Or.inl h2, h⟩]
    exact this m h h2 _

/-- ok() says whether the date exists; the year -32768 is never ok. -/
theorem c72_ok (x : YMD) : x.ok = true ↔ x.date.Valid ∧ x.y.toInt ≠ -32768 := by
  unfold YMD.ok Date.Valid YMD.date
  have hm := monthOk_iff x.m
  by_cases h : monthOk x.m = true
  · have hd := c72_last_day x.y x.m h
    have h1 : (1 : UInt8).toNat = 1 := rfl
    by_cases hy : x.y.toInt = -32768
    · simp [yearOk, hy]
    · simp [yearOk, hy, h, UInt8.le_iff_toNat_le, hd, h1, hm.mp h]
  · simp only [h, Bool.and_false, Bool.not_false, if_true]
    simp only [Bool.false_eq_true, false_iff]
    intro ⟨⟨a, b, _⟩, _⟩
    exact h (hm.mpr ⟨a, b⟩)

/-- month_day::ok says whether the day exists in some year. -/
theorem c72_month_day_ok (m d : UInt8) :
    monthDayOk m d = true ↔ ∃ y : Int, (⟨y, m.toNat, d.toNat⟩ : Date).Valid := by
  have hm := monthOk_iff m
  have h1 : (1 : UInt8).toNat = 1 := rfl
  have tab : monthOk m = true →
      (([31, 29, 31, 30, 31, 30, 31, 31, 30, 31, 30, 31] : List UInt8).getD (m.toNat - 1) 0).toNat
        = monthLength 4 m.toNat := by
    intro h
    have : m.toNat = 1 ∨ m.toNat = 2 ∨ m.toNat = 3 ∨ m.toNat = 4 ∨ m.toNat = 5 ∨ m.toNat = 6 ∨
      m.toNat = 7 ∨ m.toNat = 8 ∨ m.toNat = 9 ∨ m.toNat = 10 ∨ m.toNat = 11 ∨ m.toNat = 12 := by
      have := hm.mp h; omega
    rcases this with e | e | e | e | e | e | e | e | e | e | e | e <;> rw [e] <;> decide
  have big : ∀ y k, monthLength y k ≤ monthLength 4 k := by
    intro y k
    have : Leap 4 := by decide
    unfold monthLength
    repeat' split
    all_goals first | omega | contradiction
  unfold monthDayOk Date.Valid
  by_cases h : monthOk m = true
  · have hm' := hm.mp h
    simp only [h, Bool.true_and, Bool.and_eq_true, decide_eq_true_eq, UInt8.le_iff_toNat_le, tab h, h1]
    constructor
    · intro ⟨a, b⟩; exact ⟨4, hm'.1, hm'.2, a, b⟩
    · intro ⟨y, _, _, a, b⟩; exact ⟨a, Nat.le_trans b (big _ _)⟩
  · simp only [h, Bool.false_and, Bool.false_eq_true, false_iff]
    intro ⟨y, a, b, _⟩
    exact h (hm.mpr ⟨a, b⟩)

/-- year/month/last is the last existing day of the month: it exists and the next day is in another
month. -/
theorem c72_last (y : Int16) (m : UInt8) (h : monthOk m = true) :
    (ymdLast y m).date.Valid ∧ (ymdLast y m).date.next.day = 1 := by
  have hd := c72_last_day y m h
  have hm := (monthOk_iff m).mp h
  have hml : ∀ y m, 1 ≤ monthLength y m := by
    intro y m; unfold monthLength; repeat' split
    all_goals omega
  constructor
  · exact ⟨hm.1, hm.2, by simp only [YMD.date, ymdLast, hd]; exact hml _ _,
      by simp only [YMD.date, ymdLast, hd]; exact Nat.le_refl _⟩
  · simp only [Date.next, YMD.date, ymdLast, hd, Nat.lt_irrefl, if_false]
    split <;> rfl

/-- The dates from_days produces are ok, except in the year -32768. -/
theorem c72_from_days_ok {n : Int} (h1 : -12687428 ≤ n) (h2 : n ≤ 11248737) :
    ∃ r, fromDays n = .ok r ∧ r.ok = true := by
  have hd := Calc.dayOf_dateOf n
  have hr := (c71_representable hd).mpr ⟨by omega, h2⟩
  obtain ⟨r, e, hx⟩ := c71_from_days hd hr.1 hr.2
  refine ⟨r, e, (c72_ok r).mpr ⟨by rw [hx]; exact (Calc.dayOf_iff.mp hd).1, ?_⟩⟩
  intro hy
  obtain ⟨hv, hn⟩ := Calc.dayOf_iff.mp hd
  rw [← hx] at hn hv
  have lo : (⟨-32767, 1, 1⟩ : Date).Valid := by decide
  have elo : Calc.dayNum (-32767) ((1 : Nat) : Int) ((1 : Nat) : Int) = -12687428 := by decide
  have := Calc.dayNum_lt hv lo (by left; simp only [YMD.date]; omega)
  rw [hn] at this
  simp only [elo] at this
  omega

/-- day, year and year_month: ok() says whether the fields are in range. -/
theorem c72_fields_ok (d : UInt8) (y : Int16) (x : YM) :
    (dayOk d = true ↔ 1 ≤ d.toNat ∧ d.toNat ≤ 31) ∧ (yearOk y = true ↔ y.toInt ≠ -32768) ∧
    (x.ok = true ↔ x.y.toInt ≠ -32768 ∧ 1 ≤ x.m.toNat ∧ x.m.toNat ≤ 12) := by
  have h1 : (1 : UInt8).toNat = 1 := rfl
  have h2 : (31 : UInt8).toNat = 31 := rfl
  refine ⟨by simp [dayOk, UInt8.le_iff_toNat_le, h1, h2], by simp [yearOk], ?_⟩
  unfold YM.ok
  rw [Bool.and_eq_true, monthOk_iff]
  simp [yearOk]

example : (YMD.mk 1900 2 29).ok = false := by decide +kernel
example : (YMD.mk 2000 2 29).ok = true := by decide +kernel
example : (YMD.mk (-32768) 1 1).ok = false := by decide +kernel

/-! ### C73: weekdays -/

theorem asUchar_toNat (x : Int) : (asUchar x).toNat = (x % 256).toNat := by
  unfold asUchar
  simp; omega

/-- The weekday of every representable day count. -/
theorem c73_weekday {z : Int} (h1 : -2147483648 ≤ z) (h2 : z ≤ 2147483647) :
    (weekday z).toNat = dayOfWeek z := by
  simp only [weekday, asUchar_toNat, dayOfWeek, uns]
  rcases Int.le_total 0 z with h | h
  · have e : z % 4294967296 = z := by omega
    have e' : (z + 4) % 4294967296 = z + 4 := by omega
    rw [e, e']; split <;> omega
  · by_cases h0 : z = 0
    · subst h0; decide
    · have e : z % 4294967296 = z + 4294967296 := by omega
      rw [e]; split
      · have e' : (z + 4294967296 + 4) % 4294967296 = z + 4 := by omega
        rw [e']; omega
      · omega

/-- From day to day the weekdays follow each other, beginning with Thursday, 1970-01-01. -/
theorem c73_cycle : weekday 0 = 4 ∧ ∀ z : Int, -2147483648 ≤ z → z < 2147483647 →
    weekday (z + 1) = if weekday z = 6 then 0 else weekday z + 1 := by
  refine ⟨by decide +kernel, fun z h1 h2 => ?_⟩
  have a := c73_weekday h1 (by omega)
  have b := c73_weekday (z := z + 1) (by omega) (by omega)
  have e6 : (6 : UInt8).toNat = 6 := rfl
  split
  · rename_i h
    rw [h] at a
    apply UInt8.toNat_inj.mp
    rw [b]; simp only [dayOfWeek, e6] at *
    have : (0 : UInt8).toNat = 0 := rfl
    omega
  · rename_i h
    have h' : (weekday z).toNat ≠ 6 := fun e => h (UInt8.toNat_inj.mp e)
    apply UInt8.toNat_inj.mp
    rw [b, UInt8.toNat_add, a]
    have : (1 : UInt8).toNat = 1 := rfl
    simp only [dayOfWeek, this] at *
    omega

theorem weekdayOf_toNat {x : Int} (h0 : 0 ≤ x) (h1 : x ≤ 6) : (weekdayOf x).toNat = x.toNat := by
  unfold weekdayOf
  rw [if_pos (by omega), asUchar_toNat]; omega

theorem weekdayPlus_toNat (x : UInt8) (n : Int) :
    (weekdayPlus x n).toNat = (((x.toNat : Int) + n) % 7).toNat := by
  simp only [weekdayPlus]
  rw [longDiv_eq _ (by omega)]
  have : uns (val x + n - (val x + n) / 7 * 7) = (val x + n) % 7 := by unfold uns; omega
  rw [this, weekdayOf_toNat (by omega) (by omega)]
  rfl

theorem weekdayMinus_eq (x y : UInt8) :
    weekdayMinus x y = ((x.toNat : Int) - y.toNat) % 7 := by
  simp only [weekdayMinus]
  rw [longDiv_eq _ (by omega)]
  unfold val; omega

/-- Adding days to a weekday gives the weekday of the day so many days later. -/
theorem c73_plus {z n : Int} (h1 : -2147483648 ≤ z) (h2 : z ≤ 2147483647)
    (h3 : -2147483648 ≤ z + n) (h4 : z + n ≤ 2147483647) :
    weekdayPlus (weekday z) n = weekday (z + n) := by
  apply UInt8.toNat_inj.mp
  rw [weekdayPlus_toNat, c73_weekday h1 h2, c73_weekday h3 h4]
  simp only [dayOfWeek]; omega

/-- The same with subtraction; the smallest count cannot be negated. -/
theorem c73_minus_days (w : UInt8) {n : Int} (h1 : -2147483648 ≤ n) (h2 : n ≤ 2147483647) :
    weekdayMinusDays w n = (if n = -2147483648 then .ub else .ok (weekdayPlus w (-n))) := by
  unfold weekdayMinusDays
  split
  · rename_i h; subst h; rfl
  · rw [int_ok (by omega) (by omega)]; rfl

/-- The difference of two weekdays is the number of days, from 0 to 6, from the second to the next
first. -/
theorem c73_minus (x y : UInt8) (hx : weekdayOk x = true) :
    0 ≤ weekdayMinus x y ∧ weekdayMinus x y ≤ 6 ∧ weekdayPlus y (weekdayMinus x y) = x := by
  have hx' : x.toNat ≤ 6 := by
    have : (6 : UInt8).toNat = 6 := rfl
    simpa [weekdayOk, UInt8.le_iff_toNat_le, this] using hx
  have := weekdayMinus_eq x y
  refine ⟨by omega, by omega, UInt8.toNat_inj.mp ?_⟩
  rw [weekdayPlus_toNat, this]; omega

/-- Every weekday of a day count, and every sum, is ok; 7 in the constructor means Sunday, and the two
encodings differ only for Sunday. -/
theorem c73_ok (w : UInt8) (n : Int) :
    weekdayOk (weekdayPlus w n) = true ∧ (∀ k, 0 ≤ k → k ≤ 7 → weekdayOk (weekdayOf k) = true) ∧
    weekdayOf 7 = weekdayOf 0 ∧
    (weekdayOk w = true → weekdayOf (isoEncoding w) = w ∧ weekdayOf (cEncoding w) = w ∧
      1 ≤ isoEncoding w ∧ isoEncoding w ≤ 7 ∧ 0 ≤ cEncoding w ∧ cEncoding w ≤ 6) := by
  have h6 : (6 : UInt8).toNat = 6 := rfl
  refine ⟨?_, ?_, rfl, ?_⟩
  · simp only [weekdayOk, UInt8.le_iff_toNat_le, h6, decide_eq_true_eq, weekdayPlus_toNat]; omega
  · intro k a b
    by_cases h : k = 7
    · subst h; decide
    · simp only [weekdayOk, UInt8.le_iff_toNat_le, h6, decide_eq_true_eq]
      rw [weekdayOf_toNat (by omega) (by omega)]; omega
  · intro hw
    have hw' : w.toNat ≤ 6 := by simpa [weekdayOk, UInt8.le_iff_toNat_le, h6] using hw
    have hv : val w = w.toNat := rfl
    have hc : weekdayOf (val w) = w := UInt8.toNat_inj.mp (by
      rw [weekdayOf_toNat (by omega) (by omega)]; omega)
    by_cases h0 : w = 0
    · subst h0; decide
    · have : w.toNat ≠ 0 := fun e => h0 (UInt8.toNat_inj.mp e)
      simp only [isoEncoding, h0, if_false, cEncoding]
      exact ⟨hc, hc, by omega, by omega, by omega, by omega⟩

example : weekday (-2147483648) = 2 ∧ weekday 2147483647 = 5 ∧ weekday (-5) = 6 := by decide +kernel
example : weekdayMinus 1 3 = 5 := by decide +kernel

/-! ### C74: months -/

/-- Adding months to a month goes round the year; the result is always a month. -/
theorem c74_month_plus (m : UInt8) (n : Int) :
    (monthPlus m n).toNat = (((m.toNat : Int) - 1 + n) % 12 + 1).toNat ∧
    monthOk (monthPlus m n) = true := by
  have e : (monthPlus m n).toNat = (((m.toNat : Int) - 1 + n) % 12 + 1).toNat := by
    simp only [monthPlus]
    rw [longDiv_eq _ (by omega), asUchar_toNat]
    unfold uns val; omega
  refine ⟨e, (monthOk_iff _).mpr ?_⟩
  rw [e]; omega

/-- The difference of two months is the number of months, 0 to 11, from the second to the next
first. -/
theorem c74_month_minus (x y : UInt8) (hx : monthOk x = true) (hy : monthOk y = true) :
    0 ≤ monthMinus x y ∧ monthMinus x y ≤ 11 ∧ monthPlus y (monthMinus x y) = x := by
  have hx' := (monthOk_iff x).mp hx
  have hy' := (monthOk_iff y).mp hy
  have e : monthMinus x y = ((x.toNat : Int) - y.toNat) % 12 := by
    have ex : val x = x.toNat := rfl
    have ey : val y = y.toNat := rfl
    simp only [monthMinus]
    by_cases h : y.toNat ≤ x.toNat
    · have e : uns (val x - val y) = val x - val y := by unfold uns; omega
      rw [e, if_pos (show val x - val y ≤ 11 by omega)]
      unfold asInt
      rw [if_pos (by omega)]; omega
    · have e : uns (val x - val y) = val x - val y + 4294967296 := by unfold uns; omega
      have e' : uns (val x - val y + 4294967296 + 12) = val x - val y + 12 := by unfold uns; omega
      rw [e, if_neg (show ¬ val x - val y + 4294967296 ≤ 11 by omega), e']
      unfold asInt
      rw [if_pos (by omega)]; omega
  refine ⟨by omega, by omega, UInt8.toNat_inj.mp ?_⟩
  rw [(c74_month_plus y _).1, e]; omega

theorem year_toInt {y : Int} (h1 : -32768 ≤ y) (h2 : y ≤ 32767) : (year y).toInt = y := by
  unfold year
  rw [Int16.toInt_ofInt]; simp only [Int.bmod, Int16.size]; split <;> omega

/-- Adding months to a year_month moves it by so many months, for every month field and every count
that does not overflow `int`, provided the resulting year is representable. -/
theorem c74_year_month_plus (x : YM) {n : Int}
    (h1 : -2147483648 ≤ (x.m.toNat : Int) - 1 + n - 11) (h2 : (x.m.toNat : Int) - 1 + n ≤ 2147483647)
    (h3 : -32768 * 12 ≤ monthNumber x.y.toInt x.m.toNat + n)
    (h4 : monthNumber x.y.toInt x.m.toNat + n < 32768 * 12) :
    ∃ r, x.plus n = .ok r ∧ monthOk r.m = true ∧
      monthNumber r.y.toInt r.m.toNat = monthNumber x.y.toInt x.m.toNat + n := by
  have hv := val_range x.m
  have hy := year_range x.y
  have he : val x.m = x.m.toNat := rfl
  unfold YM.plus
  rw [int_ok (by omega) (by omega)]
  simp only [Res.ok_bind]
  rw [int_ok (by omega) (by omega)]
  simp only [Res.ok_bind]
  rw [intDiv_eq (by omega) (by omega) (by omega)]
  simp only [Res.ok_bind]
  rw [int_ok (by omega) (by omega)]
  simp only [Res.ok_bind]
  rw [int_ok (by omega) (by omega)]
  simp only [Res.ok_bind, yearPlus]
  simp only [monthNumber] at h3 h4 ⊢
  rw [int_ok (by omega) (by omega)]
  simp only [Res.ok_bind, Res.pure_eq]
  refine ⟨_, rfl, ?_, ?_⟩
  · rw [monthOk_iff, asUchar_toNat]; simp only [uns]; omega
  · rw [year_toInt (by omega) (by omega), asUchar_toNat]; simp only [uns]; omega

/-- The difference of two year_months is the number of months between them. -/
theorem c74_year_month_minus (x y : YM) :
    x.minus y = .ok (monthNumber x.y.toInt x.m.toNat - monthNumber y.y.toInt y.m.toNat) := by
  have hx := year_range x.y
  have hy := year_range y.y
  have ha := val_range x.m
  have hb := val_range y.m
  have he : val x.m = x.m.toNat := rfl
  have he' : val y.m = y.m.toNat := rfl
  unfold YM.minus
  rw [int_ok (by omega) (by omega)]
  simp only [Res.ok_bind]
  rw [int_ok (by omega) (by omega)]
  simp only [Res.ok_bind]
  have e : asInt (uns (val x.m - val y.m)) = val x.m - val y.m := by
    unfold asInt uns; split <;> omega
  rw [e, int_ok (by omega) (by omega)]
  simp only [monthNumber]
  congr 1; omega

/-- So adding the difference leads from one to the other. -/
theorem c74_year_month_inverse (x y : YM) (hx : monthOk x.m = true) (hy : monthOk y.m = true) :
    ∃ n, x.minus y = .ok n ∧ y.plus n = .ok x := by
  have rx := year_range x.y
  have ry := year_range y.y
  have ha := (monthOk_iff _).mp hx
  have hb := (monthOk_iff _).mp hy
  refine ⟨_, c74_year_month_minus x y, ?_⟩
  simp only [monthNumber]
  obtain ⟨r, hr, hok, hn⟩ := c74_year_month_plus y
    (n := (12 * x.y.toInt + x.m.toNat - 1) - (12 * y.y.toInt + y.m.toNat - 1))
    (by omega) (by omega) (by simp only [monthNumber]; omega) (by simp only [monthNumber]; omega)
  rw [hr]
  have hok' := (monthOk_iff _).mp hok
  simp only [monthNumber] at hn
  have e1 : r.y.toInt = x.y.toInt := by omega
  have e2 : r.m.toNat = x.m.toNat := by omega
  cases r; cases x
  simp only at e1 e2
  rw [Int16.toInt_inj.mp e1, UInt8.toNat_inj.mp e2]

/-- Adding months to a date keeps the day: the result exists exactly if the target month is long
enough. -/
theorem c74_date_plus_months (x : YMD) (hx : x.ok = true) {n : Int}
    (h1 : -2147483000 ≤ n) (h2 : n ≤ 2147483000)
    (h3 : -32767 * 12 ≤ monthNumber x.y.toInt x.m.toNat + n)
    (h4 : monthNumber x.y.toInt x.m.toNat + n < 32768 * 12) :
    ∃ r, x.plusMonths n = .ok r ∧ r.d = x.d ∧
      monthNumber r.y.toInt r.m.toNat = monthNumber x.y.toInt x.m.toNat + n ∧
      (r.ok = true ↔ x.d.toNat ≤ monthLength r.y.toInt r.m.toNat) := by
  have hv := val_range x.m
  have he : val x.m = x.m.toNat := rfl
  obtain ⟨r, hr, hok, hn⟩ := c74_year_month_plus ⟨x.y, x.m⟩ (n := n) (by simp only; omega)
    (by simp only; omega) (by simp only; omega) h4
  unfold YMD.plusMonths
  rw [hr]
  refine ⟨_, rfl, rfl, hn, ?_⟩
  have hok' := (monthOk_iff _).mp hok
  have hx' := (c72_ok x).mp hx
  rw [c72_ok]
  simp only [Date.Valid, YMD.date] at hx' ⊢
  constructor
  · intro h; exact h.1.2.2.2
  · intro h
    refine ⟨⟨hok'.1, hok'.2, hx'.1.2.2.1, h⟩, ?_⟩
    simp only [monthNumber] at hn h3 h4
    intro hc; omega

/-- Adding years to a date keeps month and day: of the existing dates only February 29th can turn into
one that does not exist, and it does exactly if the target year is not a leap year. -/
theorem c74_date_plus_years (x : YMD) (hx : x.ok = true) {n : Int}
    (h3 : -32767 ≤ x.y.toInt + n) (h4 : x.y.toInt + n ≤ 32767) :
    ∃ r, x.plusYears n = .ok r ∧ r.d = x.d ∧ r.m = x.m ∧ r.y.toInt = x.y.toInt + n ∧
      (r.ok = true ↔ ¬ (x.m = 2 ∧ x.d = 29 ∧ ¬ Leap (x.y.toInt + n))) := by
  have hy := year_range x.y
  have e : x.plusYears n = .ok ⟨year (x.y.toInt + n), x.m, x.d⟩ := by
    unfold YMD.plusYears yearPlus
    rw [int_ok (by omega) (by omega)]; rfl
  have ey := year_toInt (y := x.y.toInt + n) (by omega) (by omega)
  refine ⟨_, e, rfl, rfl, ey, ?_⟩
  have hx' := (c72_ok x).mp hx
  rw [c72_ok]
  simp only [Date.Valid, YMD.date, ey] at hx' ⊢
  have e2 : x.m = 2 ↔ x.m.toNat = 2 := by
    constructor
    · intro h; rw [h]; rfl
    · intro h; exact UInt8.toNat_inj.mp h
  have e29 : x.d = 29 ↔ x.d.toNat = 29 := by
    constructor
    · intro h; rw [h]; rfl
    · intro h; exact UInt8.toNat_inj.mp h
  rw [e2, e29]
  obtain ⟨⟨a, b, c, d⟩, -⟩ := hx'
  by_cases hm : x.m.toNat = 2
  · rw [hm] at d
    have d' : x.d.toNat ≤ 29 := by
      refine Nat.le_trans d ?_
      unfold monthLength; repeat' split
      all_goals omega
    by_cases hl : Leap (x.y.toInt + n)
    · have : monthLength (x.y.toInt + n) 2 = 29 := by simp [monthLength, hl]
      rw [hm, this]
      exact ⟨fun _ h => h.2.2 hl, fun _ => ⟨⟨by omega, by omega, c, d'⟩, by omega⟩⟩
    · have : monthLength (x.y.toInt + n) 2 = 28 := by simp [monthLength, hl]
      rw [hm, this]
      constructor
      · intro h h'; omega
      · intro h
        have : x.d.toNat ≠ 29 := fun e => h ⟨rfl, e, hl⟩
        exact ⟨⟨by omega, by omega, c, by omega⟩, by omega⟩
  · have : monthLength (x.y.toInt + n) x.m.toNat = monthLength x.y.toInt x.m.toNat := by
      simp [monthLength, hm]
    rw [this]
    exact ⟨fun _ h => hm h.1, fun _ => ⟨⟨a, b, c, d⟩, by omega⟩⟩

/-- Subtraction of months is addition of the negative count; the smallest count cannot be negated. -/
theorem c74_minus_months (m : UInt8) (x : YM) {n : Int} (h1 : -2147483648 ≤ n) (h2 : n ≤ 2147483647) :
    monthMinusMonths m n = (if n = -2147483648 then .ub else .ok (monthPlus m (-n))) ∧
    x.minusMonths n = (if n = -2147483648 then .ub else x.plus (-n)) := by
  unfold monthMinusMonths YM.minusMonths
  split
  · rename_i h; subst h; exact ⟨rfl, rfl⟩
  · rw [int_ok (by omega) (by omega)]; exact ⟨rfl, rfl⟩

/-- Adding years to a year_month keeps the month. -/
theorem c74_year_month_plus_years (x : YM) {n : Int} (h1 : -32768 ≤ x.y.toInt + n)
    (h2 : x.y.toInt + n ≤ 32767) :
    ∃ r, x.plusYears n = .ok r ∧ r.y.toInt = x.y.toInt + n ∧ r.m = x.m := by
  unfold YM.plusYears yearPlus
  rw [int_ok (by omega) (by omega)]
  exact ⟨_, rfl, year_toInt h1 h2, rfl⟩

/-- Days: the difference is exact, the sum is exact as long as it fits the field. -/
theorem c74_days (x y : UInt8) (n : Int) :
    dayMinus x y = (x.toNat : Int) - y.toNat ∧
    (0 ≤ (x.toNat : Int) + n → (x.toNat : Int) + n ≤ 255 →
      ((dayPlus x n).toNat : Int) = x.toNat + n) := by
  have hx := val_range x
  have hy := val_range y
  have ex : val x = x.toNat := rfl
  have ey : val y = y.toNat := rfl
  constructor
  · unfold dayMinus asInt uns; split <;> omega
  · intro h1 h2
    unfold dayPlus
    rw [asUchar_toNat]
    unfold uns
    have : (val x + n % 4294967296) % 4294967296 = val x + n := by omega
    rw [this]; omega

example : (YM.mk 2023 11).plus 3 = .ok ⟨2024, 2⟩ := by decide +kernel
example : (YM.mk 2023 11).plus (-23) = .ok ⟨2021, 12⟩ := by decide +kernel
example : (YM.mk 1970 2).plus 2147483647 = .ub := by decide +kernel
example : (YM.mk 2024 2).minus ⟨2021, 12⟩ = .ok 26 := by decide +kernel
example : (YMD.mk 2023 1 31).plusMonths 1 = .ok ⟨2023, 2, 31⟩ := by decide +kernel

/-! ### C76: order -/

/-- The order of dates is the order of their day counts. -/
theorem c76_order (x y : YMD) (hx : x.date.Valid) (hy : y.date.Valid) :
    ∃ a b, x.toDays = .ok a ∧ y.toDays = .ok b ∧ (x.lt y = true ↔ a < b) ∧ (x = y ↔ a = b) := by
  have hlt : ∀ x y : YMD, x.lt y = true ↔ x.date.Before y.date := by
    intro x y
    unfold YMD.lt Date.Before YMD.date val
    simp only
    repeat' split
    all_goals simp <;> omega
  obtain ⟨a, ha, da⟩ := c71_to_days x hx
  obtain ⟨b, hb, db⟩ := c71_to_days y hy
  obtain ⟨-, ea⟩ := Calc.dayOf_iff.mp da
  obtain ⟨-, eb⟩ := Calc.dayOf_iff.mp db
  refine ⟨a, b, ha, hb, ?_, ?_⟩
  · rw [hlt]
    constructor
    · intro h; have := Calc.dayNum_lt hx hy h; omega
    · intro h
      rcases Calc.before_total x.date y.date with h' | h' | h'
      · exact h'
      · rw [h'] at ea; omega
      · have := Calc.dayNum_lt hy hx h'; omega
  · constructor
    · intro h; subst h; omega
    · intro h; exact date_inj (Calc.dayNum_inj hx hy (by omega))

/-- For all fields, existing dates or not, the order is a strict total order. -/
theorem c76_total (x y z : YMD) :
    (x.lt x = false) ∧ (x.lt y = true → y.lt z = true → x.lt z = true) ∧
    (x = y ∨ x.lt y = true ∨ y.lt x = true) := by
  have hlt : ∀ x y : YMD, x.lt y = true ↔ x.date.Before y.date := by
    intro x y
    unfold YMD.lt Date.Before YMD.date val
    simp only
    repeat' split
    all_goals simp <;> omega
  refine ⟨?_, ?_, ?_⟩
  · have : ¬ x.lt x = true := by rw [hlt]; simp only [Date.Before]; omega
    simpa using this
  · rw [hlt, hlt, hlt]; simp only [Date.Before]; omega
  · rw [hlt, hlt]
    rcases Calc.before_total x.date y.date with h | h | h
    · exact Or.inr (Or.inl h)
    · exact Or.inl (date_inj h)
    · exact Or.inr (Or.inr h)

/-- year_months are ordered by the number of the month. -/
theorem c76_year_month (x y : YM) (hx : monthOk x.m = true) (hy : monthOk y.m = true) :
    x.lt y = true ↔ monthNumber x.y.toInt x.m.toNat < monthNumber y.y.toInt y.m.toNat := by
  have a := (monthOk_iff _).mp hx
  have b := (monthOk_iff _).mp hy
  unfold YM.lt monthNumber val
  repeat' split
  all_goals simp <;> omega

example : (YMD.mk (-1) 12 31).lt ⟨0, 1, 1⟩ = true := by decide +kernel

end Gul14.Date
