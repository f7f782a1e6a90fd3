import Verif.Date.Props

/-! # C75: the n-th and the last weekday of a month -/
namespace Gul14.Date
open Gul14.Spec.Calendar

theorem dow_lt (n : Int) : dayOfWeek n < 7 := by unfold dayOfWeek; omega

theorem dow_val (n : Int) : (dayOfWeek n : Int) = (4 + n) % 7 := by unfold dayOfWeek; omega

theorem count_weekday (n : Int) (d : Nat) :
    ((List.range d).filter fun (i : Nat) => dayOfWeek (n - i) = dayOfWeek n).length = (d + 6) / 7 := by
  induction d with
  | zero => rfl
  | succ d ih =>
    rw [List.range_succ, List.filter_append, List.length_append, ih]
    have hv := dow_val n
    have hv' := dow_val (n - d)
    by_cases h : dayOfWeek (n - d) = dayOfWeek n
    · simp [h]; omega
    · simp [h]; omega

theorem nth_iff (y : Int) (m wd k : Nat) (n : Int) :
    NthWeekday y m wd k n ↔ ∃ d, DayOf n ⟨y, m, d⟩ ∧ dayOfWeek n = wd ∧ (d + 6) / 7 = k := by
  unfold NthWeekday
  constructor
  · rintro ⟨d, h1, h2, h3⟩
    exact ⟨d, h1, h2, by rw [← h3, ← h2, count_weekday]⟩
  · rintro ⟨d, h1, h2, h3⟩
    exact ⟨d, h1, h2, by rw [← h2, count_weekday, h3]⟩

theorem dayNum_range (y : Int16) (m d : UInt8) :
    -13000000 ≤ Calc.dayNum y.toInt (val m) (val d) ∧ Calc.dayNum y.toInt (val m) (val d) ≤ 13000000 := by
  have hy := year_range y
  have hm := val_range m
  have hd := val_range d
  simp only [Calc.dayNum, Calc.fy, Calc.marchYear, Calc.marchMonth]
  split <;> split <;> omega

theorem ymwd_weekday_lt (x : YMWD) (h : weekdayOk x.weekday = true) : x.weekday.toNat ≤ 6 := by
  have h6 : (6 : UInt8).toNat = 6 := rfl
  simpa [weekdayOk, UInt8.le_iff_toNat_le, h6] using h

/-- year_month_weekday to days: from the first such weekday of the month, in steps of seven days;
index 0 means seven days before the first. -/
theorem ymwd_toDays (x : YMWD) :
    x.toDays = .ok (Calc.dayNum x.y.toInt x.m.toNat 1 +
      ((x.weekday.toNat : Int) - dayOfWeek (Calc.dayNum x.y.toInt x.m.toNat 1)) % 7
      + 7 * ((x.idx.toNat : Int) - 1)) := by
  have hr := dayNum_range x.y x.m 1
  have v1 : val 1 = 1 := rfl
  have vm : val x.m = x.m.toNat := rfl
  have vi := val_range x.idx
  have vi' : val x.idx = x.idx.toNat := rfl
  unfold YMWD.toDays
  rw [toDays_eq]
  simp only [Res.ok_bind, v1, vm] at *
  rw [weekdayMinus_eq, c73_weekday (by omega) (by omega)]
  have e : asInt (uns (uns (val x.idx - 1) * 7)) = (val x.idx - 1) * 7 := by
    unfold asInt uns; split <;> omega
  rw [e, int_ok (by omega) (by omega)]
  simp only [Res.ok_bind]
  rw [int_ok (by omega) (by omega)]
  congr 1; omega

theorem monthLength_range (y : Int) (m : Nat) : 28 ≤ monthLength y m ∧ monthLength y m ≤ 31 := by
  unfold monthLength; repeat' split
  all_goals omega

theorem ymwd_ok (x : YMWD) : x.ok = .ok (decide (x.y.toInt ≠ -32768 ∧ (1 ≤ x.m.toNat ∧ x.m.toNat ≤ 12) ∧
    x.weekday.toNat ≤ 6 ∧ 1 ≤ x.idx.toNat ∧
    ((x.weekday.toNat : Int) - dayOfWeek (Calc.dayNum x.y.toInt x.m.toNat 1)) % 7
      + 7 * ((x.idx.toNat : Int) - 1) + 1 ≤ monthLength x.y.toInt x.m.toNat)) := by
  have hr := dayNum_range x.y x.m 1
  have v1 : val 1 = 1 := rfl
  have vm : val x.m = x.m.toNat := rfl
  have vi := val_range x.idx
  have vi' : val x.idx = x.idx.toNat := rfl
  have hl := monthLength_range x.y.toInt x.m.toNat
  have h6 : (6 : UInt8).toNat = 6 := rfl
  have hwd : weekdayOk x.weekday = true ↔ x.weekday.toNat ≤ 6 := by
    simp [weekdayOk, UInt8.le_iff_toNat_le, h6]
  have hmo := monthOk_iff x.m
  have hyo : yearOk x.y = true ↔ x.y.toInt ≠ -32768 := by simp [yearOk]
  unfold YMWD.ok
  by_cases c1 : yearOk x.y = true
  rotate_left
  · rw [if_pos (by simp [c1])]
    have := fun h => c1 (hyo.mpr h)
    simp only [Res.pure_eq]; congr 1; symm
    rw [decide_eq_false_iff_not]; intro h; exact this h.1
  by_cases c2 : monthOk x.m = true
  rotate_left
  · rw [if_pos (by simp [c2])]
    have := fun h => c2 (hmo.mpr h)
    simp only [Res.pure_eq]; congr 1; symm
    rw [decide_eq_false_iff_not]; intro h; exact this h.2.1
  by_cases c3 : weekdayOk x.weekday = true
  rotate_left
  · rw [if_pos (by simp [c3])]
    have := fun h => c3 (hwd.mpr h)
    simp only [Res.pure_eq]; congr 1; symm
    rw [decide_eq_false_iff_not]; intro h; exact this h.2.2.1
  by_cases c4 : val x.idx < 1
  · rw [if_pos (by simp [c4])]
    simp only [Res.pure_eq]; congr 1; symm
    rw [decide_eq_false_iff_not]; intro h; omega
  rw [if_neg (by simp [c1, c2, c3, c4])]
  by_cases c5 : val x.idx ≤ 4
  · rw [if_pos c5]
    simp only [Res.pure_eq]; congr 1; symm
    rw [decide_eq_true_iff]
    exact ⟨hyo.mp c1, hmo.mp c2, hwd.mp c3, by omega, by omega⟩
  · rw [if_neg c5, toDays_eq]
    simp only [Res.ok_bind, v1, vm] at *
    rw [weekdayMinus_eq, c73_weekday (by omega) (by omega)]
    have e : asInt (uns (uns (val x.idx - 1) * 7 + 1)) = (val x.idx - 1) * 7 + 1 := by
      unfold asInt uns; split <;> omega
    rw [e, int_ok (by omega) (by omega)]
    simp only [Res.ok_bind, Res.pure_eq]
    have hld : val (lastDay x.y x.m) = monthLength x.y.toInt x.m.toNat := by
      unfold val; rw [c72_last_day x.y x.m c2]
    rw [hld]
    congr 1
    rw [decide_eq_decide]
    have hm := hmo.mp c2
    have hw := hwd.mp c3
    have hy := hyo.mp c1
    have e2 : uns (((x.weekday.toNat : Int) - dayOfWeek (Calc.dayNum x.y.toInt x.m.toNat 1)) % 7
        + ((val x.idx - 1) * 7 + 1)) = ((x.weekday.toNat : Int)
        - dayOfWeek (Calc.dayNum x.y.toInt x.m.toNat 1)) % 7 + ((val x.idx - 1) * 7 + 1) := by
      unfold uns; omega
    rw [e2]
    constructor
    · intro h; exact ⟨hy, hm, hw, by omega, by omega⟩
    · intro h; omega

/-- A day converted to year_month_weekday names the right weekday and its number in the month, is ok
(unless the year is -32768), and converts back. -/
theorem c75_from_days {n : Int} {x : Date} (h : DayOf n x) (h1 : -32768 ≤ x.year)
    (h2 : x.year ≤ 32767) : ∃ r, ymwdFromDays n = .ok r ∧ r.y.toInt = x.year ∧ r.m.toNat = x.month ∧
      NthWeekday x.year x.month r.weekday.toNat r.idx.toNat n ∧ r.toDays = .ok n ∧
      (x.year ≠ -32768 → r.ok = .ok true) := by
  obtain ⟨hv, hn⟩ := Calc.dayOf_iff.mp h
  have hrep := (c71_representable h).mp ⟨h1, h2⟩
  obtain ⟨r, hr, hx⟩ := c71_from_days h h1 h2
  have hl := monthLength_range x.year x.month
  obtain ⟨a, b, c, d⟩ := hv
  have hd : val r.d = x.day := by rw [← hx]; rfl
  have hw := c73_weekday (z := n) (by omega) (by omega)
  have hwl := dow_lt n
  have hwv : val (weekday n) = dayOfWeek n := by unfold val; rw [hw]
  unfold ymwdFromDays
  rw [hr]
  simp only [Res.ok_bind, Res.pure_eq]
  have e1 : (weekdayIndexed r.y r.m (weekday n) (uns (val r.d - 1) / 7 + 1)).weekday.toNat = dayOfWeek n := by
    have ea : val (asUchar ((dayOfWeek n : Int) % 16)) = dayOfWeek n := by
      unfold val; rw [asUchar_toNat]; omega
    simp only [weekdayIndexed, YMWD.weekday, hwv, ea]
    rw [weekdayOf_toNat (by omega) (by omega)]; omega
  have e2 : (weekdayIndexed r.y r.m (weekday n) (uns (val r.d - 1) / 7 + 1)).idx.toNat = (x.day + 6) / 7 := by
    simp only [weekdayIndexed, asUchar_toNat, hd, uns]; omega
  have ey : r.y.toInt = x.year := by rw [← hx]; rfl
  have em : r.m.toNat = x.month := by rw [← hx]; rfl
  have hfirst := Calc.dayNum_day x.year x.month x.day
  have hfv := dow_val (Calc.dayNum x.year x.month 1)
  have hnv := dow_val n
  refine ⟨_, rfl, ey, em, ?_, ?_, ?_⟩
  · rw [e1, e2, nth_iff]
    exact ⟨x.day, h, rfl, rfl⟩
  · rw [ymwd_toDays, e1, e2]
    simp only [weekdayIndexed, ey, em]
    congr 1; omega
  · intro hy
    rw [ymwd_ok, e1, e2]
    simp only [weekdayIndexed, ey, em]
    congr 1
    rw [decide_eq_true_iff]
    exact ⟨hy, ⟨a, b⟩, by omega, by omega, by omega⟩

/-- ok() says whether the month has that many such weekdays (and the year is not -32768). -/
theorem c75_ok (x : YMWD) : ∃ b, x.ok = .ok b ∧ (b = true ↔ x.y.toInt ≠ -32768 ∧
    ∃ n, NthWeekday x.y.toInt x.m.toNat x.weekday.toNat x.idx.toNat n) := by
  refine ⟨_, ymwd_ok x, ?_⟩
  rw [decide_eq_true_iff]
  have hfv := dow_val (Calc.dayNum x.y.toInt x.m.toNat 1)
  constructor
  · rintro ⟨hy, hm, hw, hi, hl⟩
    generalize hk : ((x.weekday.toNat : Int) - dayOfWeek (Calc.dayNum x.y.toInt x.m.toNat 1)) % 7
      + 7 * ((x.idx.toNat : Int) - 1) = k at hl
    refine ⟨hy, Calc.dayNum x.y.toInt x.m.toNat 1 + k, (nth_iff _ _ _ _ _).mpr ⟨(k + 1).toNat, ?_, ?_, ?_⟩⟩
    · rw [Calc.dayOf_iff]
      refine ⟨⟨hm.1, hm.2, by simp only; omega, by simp only; omega⟩, ?_⟩
      simp only
      rw [Calc.dayNum_day]; omega
    · have := dow_val (Calc.dayNum x.y.toInt x.m.toNat 1 + k); omega
    · omega
  · rintro ⟨hy, n, hn⟩
    obtain ⟨d, hd, hw, hk⟩ := (nth_iff _ _ _ _ _).mp hn
    obtain ⟨⟨a, b, c, e⟩, hnum⟩ := Calc.dayOf_iff.mp hd
    simp only at a b c e hnum
    rw [Calc.dayNum_day] at hnum
    have hnv := dow_val n
    exact ⟨hy, ⟨a, b⟩, by omega, by omega, by omega⟩

/-- An ok year_month_weekday converts to the day it names. -/
theorem c75_to_days (x : YMWD) (h : x.ok = .ok true) : ∃ n, x.toDays = .ok n ∧
    NthWeekday x.y.toInt x.m.toNat x.weekday.toNat x.idx.toNat n ∧
    ∀ n', NthWeekday x.y.toInt x.m.toNat x.weekday.toNat x.idx.toNat n' → n' = n := by
  obtain ⟨b, hb, hiff⟩ := c75_ok x
  rw [h] at hb
  simp only [Res.ok.injEq] at hb
  obtain ⟨-, n, hn⟩ := hiff.mp hb.symm
  have hfv := dow_val (Calc.dayNum x.y.toInt x.m.toNat 1)
  have key : ∀ n', NthWeekday x.y.toInt x.m.toNat x.weekday.toNat x.idx.toNat n' →
      n' = Calc.dayNum x.y.toInt x.m.toNat 1 +
      ((x.weekday.toNat : Int) - dayOfWeek (Calc.dayNum x.y.toInt x.m.toNat 1)) % 7
      + 7 * ((x.idx.toNat : Int) - 1) := by
    intro n' hn'
    obtain ⟨d, hd, hw, hk⟩ := (nth_iff _ _ _ _ _).mp hn'
    obtain ⟨⟨a, b, c, e⟩, hnum⟩ := Calc.dayOf_iff.mp hd
    simp only at a b c e hnum
    rw [Calc.dayNum_day] at hnum
    have hnv := dow_val n'
    omega
  refine ⟨_, ymwd_toDays x, by rw [← key n hn]; exact hn, key⟩

/-- Also for an index that the month does not reach, and for index 0, the conversion counts in steps of
a week. -/
theorem c75_index_steps (y : Int16) (m wd idx : UInt8) : ∃ n,
    (YMWD.mk y m wd 1).toDays = .ok n ∧
    (YMWD.mk y m wd idx).toDays = .ok (n + 7 * ((idx.toNat : Int) - 1)) := by
  rw [ymwd_toDays, ymwd_toDays]
  refine ⟨_, rfl, ?_⟩
  simp only [YMWD.weekday]
  have : (1 : UInt8).toNat = 1 := rfl
  rw [this]
  congr 1; omega

/-- year/month/weekday[last] is the last such weekday of the month. -/
theorem c75_last (y : Int16) (m wd : UInt8) (hm : monthOk m = true) (hw : weekdayOk wd = true) :
    ∃ n, ymwdLastToDays y m wd = .ok n ∧ LastWeekday y.toInt m.toNat wd.toNat n := by
  have hm' := (monthOk_iff m).mp hm
  have hl := c72_last_day y m hm
  have hlr := monthLength_range y.toInt m.toNat
  have h6 : (6 : UInt8).toNat = 6 := rfl
  have hw' : wd.toNat ≤ 6 := by simpa [weekdayOk, UInt8.le_iff_toNat_le, h6] using hw
  have hr := dayNum_range y m (lastDay y m)
  have vm : val m = m.toNat := rfl
  have vl : val (lastDay y m) = monthLength y.toInt m.toNat := by unfold val; rw [hl]
  unfold ymwdLastToDays
  rw [toDays_eq]
  simp only [ymdLast, Res.ok_bind, vm, vl] at *
  rw [weekdayMinus_eq, c73_weekday (by omega) (by omega), int_ok (by omega) (by omega)]
  refine ⟨_, rfl, ?_⟩
  rw [Calc.dayNum_day] at *
  generalize hF : Calc.dayNum y.toInt m.toNat 1 = F at *
  generalize hL : monthLength y.toInt m.toNat = L at *
  have hlv := dow_val (F + ((L : Int) - 1))
  generalize hk : ((dayOfWeek (F + ((L : Int) - 1)) : Int) - wd.toNat) % 7 = k
  have hkv := dow_val (F + ((L : Int) - 1) - k)
  refine ⟨⟨((L : Int) - k).toNat, Calc.dayOf_iff.mpr ⟨⟨hm'.1, hm'.2, by simp only; omega, by
    simp only [hL]; omega⟩, ?_⟩⟩, by omega, ?_⟩
  · simp only; rw [Calc.dayNum_day, hF]; omega
  · intro n' hgt hwn ⟨d, hd⟩
    obtain ⟨⟨a, b, c, e⟩, hnum⟩ := Calc.dayOf_iff.mp hd
    simp only [hL] at a b c e hnum
    rw [Calc.dayNum_day, hF] at hnum
    have := dow_val n'
    omega

/-- ok() of year_month_weekday_last says whether there is such a day (and the year is not -32768). -/
theorem c75_last_ok (y : Int16) (m wd : UInt8) : ymwdLastOk y m wd = true ↔
    y.toInt ≠ -32768 ∧ ∃ n, LastWeekday y.toInt m.toNat wd.toNat n := by
  have h6 : (6 : UInt8).toNat = 6 := rfl
  have hw : weekdayOk wd = true ↔ wd.toNat ≤ 6 := by simp [weekdayOk, UInt8.le_iff_toNat_le, h6]
  unfold ymwdLastOk
  rw [Bool.and_eq_true, Bool.and_eq_true]
  constructor
  · rintro ⟨⟨h1, h2⟩, h3⟩
    obtain ⟨n, -, hn⟩ := c75_last y m wd h2 h3
    exact ⟨by simpa [yearOk] using h1, n, hn⟩
  · rintro ⟨h1, n, ⟨d, hd⟩, hdow, -⟩
    obtain ⟨⟨a, b, -, -⟩, -⟩ := Calc.dayOf_iff.mp hd
    have := dow_lt n
    exact ⟨⟨by simpa [yearOk] using h1, (monthOk_iff m).mpr ⟨a, b⟩⟩, hw.mpr (by omega)⟩

example : (YMWD.mk 2024 3 5 5).ok = .ok true ∧ (YMWD.mk 2024 3 5 5).toDays = .ok 19811 := by decide +kernel
example : (YMWD.mk 2024 3 1 5).ok = .ok false := by decide +kernel
example : ymwdLastToDays 2024 2 4 = .ok 19782 := by decide +kernel
example : ymwdFromDays 19782 = .ok ⟨2024, 2, 4, 5⟩ := by decide +kernel

end Gul14.Date
