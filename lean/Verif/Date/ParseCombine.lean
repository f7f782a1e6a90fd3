import Verif.Date.ParseRead

/-! # From the variables of parse to a date and a time -/
namespace Gul14.Date
open Gul14.Spec.Calendar Gul14.Spec.DateText Gul14.Spec.DateFormat Gul14.Spec.DateParse

/-! ### Weeks -/

theorem isoWeek_thursday {n g : Int} {k : Nat} (h : IsoWeek n g k) :
    Calc.dayNum g 1 1 ≤ n + 3 - (n + 3) % 7 ∧ n + 3 - (n + 3) % 7 < Calc.dayNum (g + 1) 1 1 ∧
    k = countWeekday 4 (Calc.dayNum g 1 1) (n + 3 - (n + 3) % 7) := by
  obtain ⟨th, ny, m, d, h1, h2, h3, h4, h5, h6⟩ := h
  have hv := dow_val th
  have e : th = n + 3 - (n + 3) % 7 := by omega
  subst e
  have := year_bounds h4
  rw [newYear_iff.mp h5] at h6
  exact ⟨this.1, this.2, h6⟩

theorem isoWeek_unique {n g g' : Int} {k k' : Nat} (h : IsoWeek n g k) (h' : IsoWeek n g' k') : g = g' ∧ k = k' := by
  obtain ⟨a1, a2, a3⟩ := isoWeek_thursday h
  obtain ⟨b1, b2, b3⟩ := isoWeek_thursday h'
  have : g = g' := (year_unique a1 a2).symm.trans (year_unique b1 b2)
  subst this
  exact ⟨rfl, a3.trans b3.symm⟩

/-- The day from ISO year, week and weekday: `st` is the Monday of week 1. -/
theorem isoWeek_day {n g st : Int} {k : Nat} (h : IsoWeek n g k) (h1 : st % 7 = 4) (h2 : Calc.dayNum g 1 1 - 3 ≤ st)
    (h3 : st ≤ Calc.dayNum g 1 1 + 3) : st + 7 * ((k : Int) - 1) + ((dayOfWeek n : Int) - 1) % 7 = n := by
  obtain ⟨a1, a2, a3⟩ := isoWeek_thursday h
  have hc := countWeekday_eq (wd := 4) (by omega) (a := Calc.dayNum g 1 1) (b := n + 3 - (n + 3) % 7) (by omega)
  rw [← a3] at hc
  have hv := dow_val n
  generalize Calc.dayNum g 1 1 = ny at *
  omega

theorem isoWeek_bounds {n g : Int} {k : Nat} {d : Date} (h : IsoWeek n g k) (hd : DayOf n d) :
    d.year - 1 ≤ g ∧ g ≤ d.year + 1 ∧ 1 ≤ k ∧ k ≤ 53 := by
  obtain ⟨a1, a2, a3⟩ := isoWeek_thursday h
  have hb := year_bounds hd
  have l0 := year_length (d.year - 1)
  have l1 := year_length d.year
  have l2 := year_length (d.year + 1)
  have l3 := year_length g
  rw [Int.sub_add_cancel] at l0
  have hc := countWeekday_eq (wd := 4) (by omega) (a := Calc.dayNum g 1 1) (b := n + 3 - (n + 3) % 7) (by omega)
  rw [← a3] at hc
  have hk : 1 ≤ k ∧ k ≤ 53 := by omega
  have hy := year_unique a1 a2
  rcases Int.lt_or_le (n + 3 - (n + 3) % 7) (Calc.dayNum d.year 1 1) with h | h
  · have := year_unique (y := d.year - 1) (n := n + 3 - (n + 3) % 7) (by omega) (by rw [Int.sub_add_cancel]; omega)
    omega
  · rcases Int.lt_or_le (n + 3 - (n + 3) % 7) (Calc.dayNum (d.year + 1) 1 1) with h' | h'
    · have := year_unique h h'; omega
    · have := year_unique (y := d.year + 1) (n := n + 3 - (n + 3) % 7) (by omega) (by omega)
      omega

/-! ### A date that is known -/

/-- Every variable is unset or has the value for the date in question. -/
structure Sound (n : Int) (d : Date) (v : PVars) : Prop where
  Y : v.Y = -32768 ∨ v.Y = d.year
  m : v.m = 0 ∨ v.m = d.month
  dd : v.d = 0 ∨ v.d = d.day
  j : v.j = -1 ∨ v.j = n - Calc.dayNum d.year 1 1 + 1
  wd : v.wd = 8 ∨ v.wd = dayOfWeek n
  G : v.G = -32768 ∨ ∃ k, IsoWeek n v.G k
  V : v.V = 100 ∨ ∃ g k, IsoWeek n g k ∧ v.V = (k : Nat)
  U : v.U = 100 ∨ v.U = countWeekday 0 (Calc.dayNum d.year 1 1) n
  W : v.W = 100 ∨ v.W = countWeekday 1 (Calc.dayNum d.year 1 1) n

/-- Year, month and day are filled in. -/
def full (d : Date) (v : PVars) : PVars := { v with Y := d.year, m := d.month, d := d.day }

theorem full_full (d : Date) (v : PVars) : full d (full d v) = full d v := rfl

theorem Sound.full {n : Int} {d : Date} {v : PVars} (h : Sound n d v) : Sound n d (full d v) :=
  ⟨Or.inr rfl, Or.inr rfl, Or.inr rfl, h.j, h.wd, h.G, h.V, h.U, h.W⟩

section
variable {f : Fields} {n : Int} {d : Date} (H : HasDate f n d) {v : PVars}
include H

theorem year_back : year d.year = f.ymd.y := by
  rw [← H.ey]; exact Int16.toInt_inj.mp (by rw [year_toInt]; exacts [(year_range _).1, (year_range _).2])

theorem fields_back : asUchar (uns (d.month : Int)) = f.ymd.m ∧ asUchar (uns (d.day : Int)) = f.ymd.d := by
  have h1 := H.em
  have h2 := H.ed
  have := H.m12
  have := H.d31
  unfold val at h1 h2
  constructor <;> apply UInt8.toNat_inj.mp <;> rw [asUchar_toNat] <;> unfold uns <;> omega

theorem fromDays_back : fromDays n = .ok f.ymd := by
  have := H.lo
  have := H.hi
  obtain ⟨r, h1, h2⟩ := c71_from_days H.dayOf (by omega) (by omega)
  rw [h1]
  have : f.ymd.date = d := by
    have h3 := H.em
    have h4 := H.ed
    unfold val at h3 h4
    have e : f.ymd.date = ⟨f.ymd.y.toInt, f.ymd.m.toNat, f.ymd.d.toNat⟩ := rfl
    rw [e, H.ey, Int.ofNat_inj.mp h3, Int.ofNat_inj.mp h4]
  rw [date_inj (h2.trans this.symm)]

theorem useTrialMD_sound (hv : Sound n d v) :
    useTrialMD v f.ymd = .ok { v with m := d.month, d := d.day } := by
  have h1 := H.m1
  have h2 := H.d1
  have e1 : useMonth v f.ymd = .ok { v with m := d.month } := by
    unfold useMonth
    rcases hv.m with h | h
    · rw [if_pos h, H.em]; rfl
    · rw [if_neg (by omega), h, (fields_back H).1, if_neg (by simp), ← h]; rfl
  unfold useTrialMD
  rw [e1]
  simp only [Res.ok_bind, useDay]
  rcases hv.dd with h | h
  · rw [if_pos h, H.ed]; rfl
  · rw [if_neg (by omega), h, (fields_back H).2, if_neg (by simp), ← h]; rfl

theorem useTrial_sound (hv : Sound n d v) : useTrial v f.ymd = .ok (full d v) := by
  have e1 : useYear v f.ymd = .ok { v with Y := d.year } := by
    unfold useYear
    rcases hv.Y with h | h
    · rw [if_pos h, H.ey]; rfl
    · have := H.lo
      rw [if_neg (by omega), h, year_back H, if_neg (by simp), ← h]; rfl
  unfold useTrial
  rw [e1]
  simp only [Res.ok_bind]
  rw [useTrialMD_sound H (v := { v with Y := d.year }) ⟨Or.inr rfl, hv.m, hv.dd, hv.j, hv.wd, hv.G, hv.V, hv.U, hv.W⟩]
  rfl

theorem dayInWeek_eq {st k : Int} {first : UInt8} (hf : first.toNat < 7) (h1 : -14000000 ≤ st) (h2 : st ≤ 14000000)
    (h3 : 0 ≤ k) (h4 : k ≤ 99) (h : st + 7 * (k - 1) + ((dayOfWeek n : Int) - first.toNat) % 7 = n) :
    dayInWeek st k (dayOfWeek n) first = .ok n := by
  have := dow_lt n
  unfold dayInWeek
  rw [int_ok (by omega) (by omega)]
  simp only [Res.ok_bind]
  rw [int_ok (by omega) (by omega)]
  simp only [Res.ok_bind]
  rw [int_ok (by omega) (by omega)]
  simp only [Res.ok_bind]
  have e : uns (dayOfWeek n : Int) = dayOfWeek n := by unfold uns; omega
  rw [e, weekdayMinus_eq, weekdayOf_toNat (by omega) (by omega), Int.toNat_natCast, h]
  have := H.nlo
  have := H.nhi
  exact int_ok (by omega) (by omega)

theorem fromIsoWeek_sound (hv : Sound n d v) (hu : usesIso v = true) : fromIsoWeek v = .ok (full d v) := by
  simp only [usesIso, Bool.and_eq_true, decide_eq_true_eq] at hu
  obtain ⟨⟨hG, hV⟩, hw⟩ := hu
  obtain ⟨k, h1⟩ := hv.G.resolve_left hG
  obtain ⟨g, k', h2, h3⟩ := hv.V.resolve_left hV
  obtain ⟨rfl, rfl⟩ := isoWeek_unique h1 h2
  have h4 := hv.wd.resolve_left hw
  have hb := isoWeek_bounds h1 H.dayOf
  have := H.lo
  have := H.hi
  have ey : (year v.G).toInt = v.G := year_toInt (by omega) (by omega)
  obtain ⟨st, s1, s2, s3, s4⟩ := isoStart_eq (year v.G) (by omega)
  rw [ey] at s3 s4
  have hd := isoWeek_day h1 s2 s3 s4
  unfold isoStart at s1
  rw [yearPlus_toInt (by omega) (by omega), ey] at s1
  unfold fromIsoWeek
  rw [int_ok (by omega) (by omega)]
  simp only [Res.ok_bind] at s1 ⊢
  rw [show v.G - 1 = v.G + -1 by omega]
  cases hl : ymwdLastToDays (year (v.G + -1)) 12 4 with
  | ok a =>
    rw [hl] at s1
    simp only [Res.ok_bind] at s1 ⊢
    rw [s1]
    simp only [Res.ok_bind]
    have := H.nlo
    have := H.nhi
    have := dow_lt n
    rw [h3, h4, dayInWeek_eq H (by decide) (by omega) (by omega) (by omega) (by omega)
      (by rw [show (1 : UInt8).toNat = 1 from rfl]; exact hd)]
    simp only [Res.ok_bind, fromDays_back H]
    exact useTrial_sound H hv
  | _ => rw [hl] at s1; cases s1

theorem firstWeekday_eq (wd : UInt8) (hw : wd.toNat < 7) : firstWeekday f.ymd.y wd =
    .ok (Calc.dayNum d.year 1 1 + ((wd.toNat : Int) - dayOfWeek (Calc.dayNum d.year 1 1)) % 7) := by
  have hwd : (weekdayIndexed f.ymd.y 1 wd 1).weekday.toNat = wd.toNat := by
    simp only [YMWD.weekday, weekdayIndexed]
    have hv : val (asUchar (val wd % 16)) = wd.toNat := by
      have : (asUchar (val wd % 16)).toNat = (val wd % 16 % 256).toNat := asUchar_toNat _
      unfold val at *
      omega
    rw [hv, weekdayOf_toNat (by omega) (by omega)]
    omega
  have hidx : (weekdayIndexed f.ymd.y 1 wd 1).idx.toNat = 1 := rfl
  have hst := ymwd_toDays (weekdayIndexed f.ymd.y 1 wd 1)
  rw [hwd, hidx] at hst
  have e1 : (weekdayIndexed f.ymd.y 1 wd 1).y.toInt = d.year := H.ey
  have e2 : (weekdayIndexed f.ymd.y 1 wd 1).m.toNat = 1 := rfl
  rw [e1, e2] at hst
  unfold firstWeekday
  rw [hst]
  simp

/-- The number of the week, and the first day of the first week. -/
theorem week_calc (wd : UInt8) (hw : wd.toNat < 7) :
    let st := Calc.dayNum d.year 1 1 + ((wd.toNat : Int) - dayOfWeek (Calc.dayNum d.year 1 1)) % 7
    let k : Int := countWeekday wd.toNat (Calc.dayNum d.year 1 1) n
    st + 7 * (k - 1) + ((dayOfWeek n : Int) - wd.toNat) % 7 = n ∧ k ≤ 53 ∧
    n - 400 ≤ st ∧ st ≤ n + 7 ∧ k = (n - st) / 7 + 1 := by
  have hb := year_bounds H.dayOf
  have hl := year_length d.year
  have hv := dow_val (Calc.dayNum d.year 1 1)
  have hn := dow_val n
  have hc := countWeekday_eq (wd := wd.toNat) hw (a := Calc.dayNum d.year 1 1) (b := n) (by omega)
  generalize Calc.dayNum d.year 1 1 = ny at *
  intro st k
  omega

theorem fromWeek_sound (hv : Sound n d v) (wd : UInt8) (hw : wd.toNat < 7) (hY : v.Y ≠ -32768) (h8 : v.wd ≠ 8) :
    fromWeek v (countWeekday wd.toNat (Calc.dayNum d.year 1 1) n) wd = .ok (full d v) := by
  obtain ⟨c1, c2, c3, c4, -⟩ := week_calc H wd hw
  have := H.nlo
  have := H.nhi
  unfold fromWeek
  rw [hv.Y.resolve_left hY, year_back H, firstWeekday_eq H wd hw]
  simp only [Res.ok_bind]
  rw [hv.wd.resolve_left h8, dayInWeek_eq H hw (by omega) (by omega) (by omega) (by omega) c1]
  simp only [Res.ok_bind, fromDays_back H]
  exact useTrial_sound H hv

theorem fromYearDay_sound (hv : Sound n d v) (hu : usesJ v = true) :
    fromYearDay v = .ok { full d v with j := -1 } := by
  simp only [usesJ, Bool.and_eq_true, decide_eq_true_eq] at hu
  have hj := hv.j.resolve_left hu.1
  have hY := hv.Y.resolve_left hu.2
  have hb := year_bounds H.dayOf
  have hl := year_length d.year
  have := H.nlo
  have := H.nhi
  unfold fromYearDay
  rw [hY, year_back H, H.ny]
  simp only [Res.ok_bind]
  rw [hj, int_ok (by omega) (by omega)]
  simp only [Res.ok_bind]
  rw [int_ok (by omega) (by omega)]
  simp only [Res.ok_bind]
  rw [show Calc.dayNum d.year 1 1 + (n - Calc.dayNum d.year 1 1 + 1 - 1) = n by omega, fromDays_back H]
  simp only [Res.ok_bind]
  rw [useTrialMD_sound H hv]
  simp only [Res.ok_bind, Res.pure_eq, full, hY]

/-- The variables determine the date. -/
def Enough (v : PVars) : Prop :=
  usesIso v = true ∨ (v.Y ≠ -32768 ∧ ((v.m ≠ 0 ∧ v.d ≠ 0) ∨ usesU v = true ∨ usesW v = true ∨ usesJ v = true))

omit H in
theorem full_of {v : PVars} (hv : Sound n d v) (h1 : v.Y ≠ -32768) (h2 : v.m ≠ 0) (h3 : v.d ≠ 0) : full d v = v := by
  unfold full
  rw [← hv.Y.resolve_left h1, ← hv.m.resolve_left h2, ← hv.dd.resolve_left h3]

theorem weeks_sound (hv : Sound n d v) (he : Enough v) :
    ∃ b, weeks v = .ok ({ full d v with j := -1 }, b) := by
  have hlo := H.lo
  have hfY : (full d v).Y ≠ -32768 := by simp only [full]; omega
  have hm1 := H.m1
  have hd1 := H.d1
  -- one step
  have s1 : ∃ v1, whenUsed (usesIso v) (fromIsoWeek v) v = .ok v1 ∧ (v1 = full d v ∨ (v1 = v ∧ v.Y ≠ -32768 ∧
      ((v.m ≠ 0 ∧ v.d ≠ 0) ∨ usesU v = true ∨ usesW v = true ∨ usesJ v = true))) := by
    unfold whenUsed
    by_cases h : usesIso v = true
    · rw [if_pos h]; exact ⟨_, fromIsoWeek_sound H hv h, Or.inl rfl⟩
    · rw [if_neg h]; exact ⟨_, rfl, Or.inr ⟨rfl, he.resolve_left h⟩⟩
  obtain ⟨v1, e1, p1⟩ := s1
  have q1 : Sound n d v1 ∧ v1.Y ≠ -32768 ∧ full d v1 = full d v := by
    rcases p1 with rfl | ⟨rfl, h, -⟩
    · exact ⟨hv.full, hfY, rfl⟩
    · exact ⟨hv, h, rfl⟩
  have s2 : ∃ v2, whenUsed (usesU v1) (fromWeek v1 v1.U 0) v1 = .ok v2 ∧ (v2 = full d v ∨ (v2 = v ∧
      ((v.m ≠ 0 ∧ v.d ≠ 0) ∨ usesW v = true ∨ usesJ v = true))) ∧ Sound n d v2 ∧ v2.Y ≠ -32768 ∧ full d v2 = full d v := by
    unfold whenUsed
    by_cases h : usesU v1 = true
    · rw [if_pos h]
      simp only [usesU, Bool.and_eq_true, decide_eq_true_eq] at h
      have := fromWeek_sound H q1.1 0 (by decide) h.1.1 h.2
      rw [show (0 : UInt8).toNat = 0 from rfl, ← q1.1.U.resolve_left h.1.2] at this
      exact ⟨_, this, Or.inl q1.2.2, q1.1.full, by simp only [full]; omega, q1.2.2⟩
    · rw [if_neg h]
      refine ⟨_, rfl, ?_, q1⟩
      rcases p1 with rfl | ⟨rfl, -, h'⟩
      · exact Or.inl rfl
      · exact Or.inr ⟨rfl, by tauto⟩
  obtain ⟨v2, e2, p2, q2⟩ := s2
  have s3 : ∃ v3, whenUsed (usesW v2) (fromWeek v2 v2.W 1) v2 = .ok v3 ∧ (v3 = full d v ∨ (v3 = v ∧
      ((v.m ≠ 0 ∧ v.d ≠ 0) ∨ usesJ v = true))) ∧ Sound n d v3 ∧ v3.Y ≠ -32768 ∧ full d v3 = full d v := by
    unfold whenUsed
    by_cases h : usesW v2 = true
    · rw [if_pos h]
      simp only [usesW, Bool.and_eq_true, decide_eq_true_eq] at h
      have := fromWeek_sound H q2.1 1 (by decide) h.1.1 h.2
      rw [show (1 : UInt8).toNat = 1 from rfl, ← q2.1.W.resolve_left h.1.2] at this
      exact ⟨_, this, Or.inl q2.2.2, q2.1.full, by simp only [full]; omega, q2.2.2⟩
    · rw [if_neg h]
      refine ⟨_, rfl, ?_, q2⟩
      rcases p2 with rfl | ⟨rfl, h'⟩
      · exact Or.inl rfl
      · exact Or.inr ⟨rfl, by tauto⟩
  obtain ⟨v3, e3, p3, q3⟩ := s3
  have s4 : whenUsed (usesJ v3) (fromYearDay v3) v3 = .ok { full d v with j := -1 } := by
    unfold whenUsed
    by_cases h : usesJ v3 = true
    · rw [if_pos h, fromYearDay_sound H q3.1 h, q3.2.2]
    · rw [if_neg h]
      have hj : v3.j = -1 := by
        simp only [usesJ, Bool.and_eq_true, decide_eq_true_eq, not_and, not_not] at h
        by_contra hc
        exact q3.2.1 (h hc)
      have : full d v3 = v3 := by
        rcases p3 with rfl | ⟨rfl, h'⟩
        · rfl
        · rcases h' with h' | h'
          · exact full_of q3.1 q3.2.1 h'.1 h'.2
          · exact absurd h' h
      rw [← q3.2.2, this, ← hj]; rfl
  refine ⟨usesIso v || usesU v1 || usesW v2, ?_⟩
  unfold weeks
  rw [e1]; simp only [Res.ok_bind]
  rw [e2]; simp only [Res.ok_bind]
  rw [e3]; simp only [Res.ok_bind]
  rw [s4]; simp only [Res.ok_bind, Res.pure_eq]

theorem floor7 (x : Int) : floorTo 1 7 x = x / 7 := by
  have := c78_floor 1 7 x (by omega)
  omega

theorem checkWeek_sound (k : Int) (wd : UInt8) (hw : wd.toNat < 7)
    (hk : k = 100 ∨ k = countWeekday wd.toNat (Calc.dayNum d.year 1 1) n) : checkWeek k f.ymd.y wd n = .ok () := by
  obtain ⟨c1, c2, c3, c4, c5⟩ := week_calc H wd hw
  unfold checkWeek
  split
  · rfl
  · rename_i h
    rw [firstWeekday_eq H wd hw]
    simp only [Res.ok_bind]
    rw [int_ok (by omega) (by omega)]
    simp only [Res.ok_bind]
    rw [floor7 H, if_neg]
    · rfl
    · rw [hk.resolve_left h]; omega

end

section
variable {e : FmtEnv} {n : Int} {d : Date} (H : HasDate e.fds n d) {v : PVars}
include H

theorem checkIso_sound (hv : Sound n d v) : checkIso v n = .ok () := by
  unfold checkIso
  split
  · rfl
  · obtain ⟨y0, st, h1, h2, h3, hlo, hhi⟩ := iso_calc H
    have := H.nlo
    have := H.nhi
    rw [int_ok (by omega) (by omega)]
    simp only [Res.ok_bind, h1, h2]
    rcases h3 with ⟨a, b, c⟩ | ⟨a, g0, st', g1, g2, g3, g4⟩
    · rw [if_neg (by omega)]
      simp only [Res.ok_bind, Res.pure_eq]
      rw [if_neg]
      · split
        · rename_i hV
          obtain ⟨g, k', i1, i2⟩ := hv.V.resolve_left hV
          obtain ⟨-, i3⟩ := isoWeek_unique b i1
          rw [int_ok (by omega) (by omega)]
          simp only [Res.ok_bind]
          rw [if_neg]
          rw [Int.tdiv_eq_ediv_of_nonneg (by omega), i2]
          omega
        · rfl
      · simp only [Bool.and_eq_true, decide_eq_true_eq, not_and, not_not]
        intro hG
        obtain ⟨k, i1⟩ := hv.G.resolve_left hG
        exact (isoWeek_unique i1 b).1
    · rw [if_pos a, yearPlus_toInt (by omega) (by omega)]
      have ey : (year (y0.y.toInt - 1)).toInt = y0.y.toInt - 1 := year_toInt (by omega) (by omega)
      rw [show y0.y.toInt + -1 = y0.y.toInt - 1 by omega]
      simp only [Res.ok_bind, g1, Res.pure_eq]
      have hG : ¬ ((decide (v.G ≠ -32768) && decide (v.G ≠ (year (y0.y.toInt - 1)).toInt)) = true) := by
        simp only [Bool.and_eq_true, decide_eq_true_eq, not_and, not_not]
        intro hG
        obtain ⟨k, i1⟩ := hv.G.resolve_left hG
        rw [ey]
        exact (isoWeek_unique i1 g4).1
      by_cases hV : v.V = 100
      · simp only [hV, ne_eq, not_true_eq_false, if_false, Res.ok_bind]
        rw [if_neg hG]
      · simp only [ne_eq, hV, not_false_eq_true, if_true, Res.ok_bind]
        rw [if_neg hG]
        obtain ⟨g, k', i1, i2⟩ := hv.V.resolve_left hV
        obtain ⟨-, i3⟩ := isoWeek_unique g4 i1
        rw [int_ok (by omega) (by omega)]
        simp only [Res.ok_bind]
        rw [if_neg]
        rw [Int.tdiv_eq_ediv_of_nonneg (by omega), i2]
        omega

theorem theDate_sound (hv : Sound n d v) (b : Bool) :
    theDate { full d v with j := -1 } b = .ok (e.fds.ymd, (dayOfWeek n : Int)) := by
  have hymd : (⟨year d.year, asUchar (uns (d.month : Int)), asUchar (uns (d.day : Int))⟩ : YMD) = e.fds.ymd := by
    rw [year_back H, (fields_back H).1, (fields_back H).2]
  have hs : Sound n d { full d v with j := -1 } :=
    ⟨Or.inr rfl, Or.inr rfl, Or.inr rfl, Or.inl rfl, hv.wd, hv.G, hv.V, hv.U, hv.W⟩
  have := H.nlo
  have := H.nhi
  have hdl := dow_lt n
  have hw : weekdayMinus (weekday n) 0 = dayOfWeek n := by
    rw [weekdayMinus_eq, c73_weekday (by omega) (by omega), show (0 : UInt8).toNat = 0 from rfl]
    omega
  unfold theDate
  have hymd' : (⟨year ({ full d v with j := -1 } : PVars).Y, asUchar (uns ({ full d v with j := -1 } : PVars).m),
      asUchar (uns ({ full d v with j := -1 } : PVars).d)⟩ : YMD) = e.fds.ymd := hymd
  simp only [hymd', H.ok, if_true, H.days, Res.ok_bind, hw]
  rw [if_neg]
  · have hc : checkWeeks { full d v with j := -1 } e.fds.ymd = .ok () := by
      unfold checkWeeks
      simp only [H.days, Res.ok_bind]
      rw [checkIso_sound H hs, checkWeek_sound H _ 0 (by decide) hs.U, checkWeek_sound H _ 1 (by decide) hs.W]
      rfl
    cases b <;> simp [hc]
  · simp only [Bool.and_eq_true, decide_eq_true_eq, not_and, not_not]
    intro h
    exact hs.wd.resolve_left h

end

/-! ### The year -/

theorem yearIn_eq {y : Int} (h1 : -9999 ≤ y) (h2 : y ≤ 9999) : yearIn (y / 100) (y.natAbs % 100 : Nat) = .ok y := by
  unfold yearIn
  split
  · rw [int_ok (by omega) (by omega)]
    simp only [Res.ok_bind]
    rw [int_ok (by omega) (by omega)]
    congr 1; omega
  · rw [int_ok (by omega) (by omega)]
    simp only [Res.ok_bind]
    split
    · rw [int_ok (by omega) (by omega)]
      congr 1; omega
    · rw [int_ok (by omega) (by omega)]
      congr 1; omega

theorem century_full {y two : Int} (h1 : -9999 ≤ y) (h2 : y ≤ 9999) (h : 0 ≤ y ∨ ¬ 100 ∣ y) :
    century two y (-327) = .ok (y / 100) := by
  unfold century
  rw [if_neg (by simp), if_neg (by omega)]
  by_cases h0 : y ≥ 0
  · simp only [if_pos h0, Res.pure_eq, Res.ok_bind]
    rw [Int.tdiv_eq_ediv_of_nonneg h0]
  · simp only [if_neg h0]
    rw [int_ok (by omega) (by omega)]
    simp only [Res.pure_eq, Res.ok_bind]
    have e : (y - 100).tdiv 100 = -((100 - y) / 100) := by
      rw [show y - 100 = -(100 - y) by omega, Int.neg_tdiv, Int.tdiv_eq_ediv_of_nonneg (by omega)]
    rw [e]
    congr 1; omega

theorem fullYear_vars {F : Facts} {L : List Char} {n : Int} {d : Date} (h1 : F.Y = d.year)
    (h2 : F.y = (d.year.natAbs % 100 : Nat)) (h3 : F.C = d.year / 100) (h : YearReadable L n d.year) :
    ∃ C, fullYear (vars F L).y (vars F L).Y (vars F L).C = .ok (if YearGiven L then d.year else -32768, C) := by
  obtain ⟨b1, b2, -, b3, b4⟩ := h
  simp only [vars, h1, h2, h3]
  unfold fullYear
  by_cases hy : 'y' ∈ L ∨ 'D' ∈ L
  · rw [if_pos hy, if_neg (by omega), if_neg (by simp; omega)]
    have hg : YearGiven L := by unfold YearGiven; tauto
    rw [if_pos hg]
    -- the century
    have key : ∃ C, century (d.year.natAbs % 100 : Nat) (if 'Y' ∈ L ∨ 'F' ∈ L then d.year else -32768)
        (if 'C' ∈ L then d.year / 100 else -327) = .ok C ∧ yearIn C (d.year.natAbs % 100 : Nat) = .ok d.year := by
      refine ⟨d.year / 100, ?_, yearIn_eq b1 b2⟩
      by_cases hC : 'C' ∈ L
      · rw [if_pos hC]
        unfold century
        rw [if_pos (by omega)]; rfl
      · rw [if_neg hC]
        rcases b4 hy with h | ⟨h, h'⟩ | h
        · exact absurd h hC
        · rw [if_pos h]; exact century_full b1 b2 h'
        · by_cases hY : 'Y' ∈ L ∨ 'F' ∈ L
          · rw [if_pos hY]; exact century_full b1 b2 (by omega)
          · rw [if_neg hY]
            unfold century
            rw [if_neg (by simp), if_pos rfl]
            simp only [Res.pure_eq]
            congr 1
            split <;> omega
    obtain ⟨C, c1, c2⟩ := key
    refine ⟨C, ?_⟩
    rw [c1]
    simp only [Res.ok_bind]
    rw [c2]
    simp only [Res.ok_bind]
    rw [if_neg]
    · rfl
    · split <;> simp
  · rw [if_neg hy, if_pos rfl]
    have hg : YearGiven L ↔ 'Y' ∈ L ∨ 'F' ∈ L := by unfold YearGiven; tauto
    simp only [hg]
    exact ⟨_, rfl⟩

/-! ### The time -/

/-- The hour, minute and second fields that were read. -/
theorem theTime_vars {T : Nat} (hT : 0 < T) {F : Facts} {L : List Char} {v : PVars} (hM : v.M = (vars F L).M)
    (hs : v.s = (vars F L).s) (hj : v.j = -1) (H0 : 0 ≤ F.H) (M0 : 0 ≤ F.M) (s0 : 0 ≤ F.s) (has : Bool) :
    theTime T v (vars F L).H ⟨0, 0, 0, 0, false⟩ has =
      (⟨if 'H' ∈ L ∨ 'T' ∈ L ∨ 'R' ∈ L then F.H else 0, if 'M' ∈ L ∨ 'T' ∈ L ∨ 'R' ∈ L then F.M else 0,
        if 'S' ∈ L ∨ 'T' ∈ L then F.s / T else 0,
        if 'S' ∈ L ∨ 'T' ∈ L then F.s % T * 10 ^ fractionalWidth T / T else 0, false⟩,
       has || decide ('H' ∈ L ∨ 'T' ∈ L ∨ 'R' ∈ L ∨ 'M' ∈ L ∨ 'S' ∈ L)) := by
  have hh : hhmmss T (F.H * (3600 * T)) = ⟨F.H, 0, 0, 0, false⟩ := by
    have a1 : absDur (F.H * (3600 * T)) = F.H * (3600 * T) := by
      unfold absDur; rw [if_pos (Int.mul_nonneg H0 (by omega))]
    have a2 : (F.H * (3600 * T)).tdiv (3600 * T) = F.H := Int.mul_tdiv_cancel _ (by omega)
    have a3 : (F.H * (3600 * (T : Int))).tdiv (60 * T) = 60 * F.H := by
      rw [show F.H * (3600 * (T : Int)) = 60 * F.H * (60 * T) by ring]
      exact Int.mul_tdiv_cancel _ (by omega)
    unfold hhmmss
    simp only [a1, a2, a3]
    have : ¬ F.H * (3600 * (T : Int)) < 0 := Int.not_lt.mpr (Int.mul_nonneg H0 (by omega))
    simp [this]
  have hsec : theSeconds T F.s = (F.s / T, F.s % T * 10 ^ fractionalWidth T / T) := by
    unfold theSeconds
    rw [Int.tdiv_eq_ediv_of_nonneg s0]
    have e : F.s - F.s / T * T = F.s % T := by
      have := Int.emod_def F.s T; rw [this, Int.mul_comm]
    simp only [e, pow10_eq]
    rw [Int.tdiv_eq_ediv_of_nonneg]
    · push_cast; rfl
    · exact Int.mul_nonneg (Int.emod_nonneg _ (by omega)) (by positivity)
  unfold theTime
  rw [hM, hs]
  simp only [vars, hj]
  by_cases c1 : 'H' ∈ L ∨ 'T' ∈ L ∨ 'R' ∈ L <;> by_cases c2 : 'M' ∈ L ∨ 'T' ∈ L ∨ 'R' ∈ L <;>
    by_cases c3 : 'S' ∈ L ∨ 'T' ∈ L <;>
    simp only [c1, c2, c3, if_true, if_false, hh, hsec, ne_eq, not_true_eq_false] <;>
    simp [show ¬ F.H = -2147483648 by omega, show ¬ F.M = -2147483648 by omega, show ¬ F.s = -9223372036854775808 by omega] <;>
    tauto

theorem told_toDuration {T : Nat} (hT : 0 < T) {F : Facts} {L : List Char} {t : Int} (hw : T ∣ 10 ^ fractionalWidth T)
    (hH : F.H = t / (3600 * T)) (hM : F.M = t / (60 * T) % 60) (hs : F.s = t % (60 * T)) :
    HMS.toDuration ⟨if 'H' ∈ L ∨ 'T' ∈ L ∨ 'R' ∈ L then F.H else 0, if 'M' ∈ L ∨ 'T' ∈ L ∨ 'R' ∈ L then F.M else 0,
        if 'S' ∈ L ∨ 'T' ∈ L then F.s / T else 0,
        if 'S' ∈ L ∨ 'T' ∈ L then F.s % T * 10 ^ fractionalWidth T / T else 0, false⟩ T * T =
      told L T t * 10 ^ fractionalWidth T := by
  obtain ⟨q, hq⟩ := hw
  have hT' : (T : Int) ≠ 0 := by omega
  have hp : (10 : Int) ^ fractionalWidth T = T * q := by exact_mod_cast hq
  have hsub : F.s % T * 10 ^ fractionalWidth T / T = F.s % T * q := by
    rw [hp, show F.s % T * ((T : Int) * q) = F.s % T * q * T by ring]
    exact Int.mul_ediv_cancel _ hT'
  have hmod : F.s / T * T + F.s % T = F.s := by
    have := Int.mul_ediv_add_emod F.s T; rwa [Int.mul_comm] at this
  simp only [HMS.toDuration, told, pow10_eq, hsub]
  push_cast
  rw [hp]
  simp only [Bool.false_eq_true, if_false, ← hH, ← hM, ← hs]
  by_cases c1 : 'H' ∈ L ∨ 'T' ∈ L ∨ 'R' ∈ L <;> by_cases c2 : 'M' ∈ L ∨ 'T' ∈ L ∨ 'R' ∈ L <;>
    by_cases c3 : 'S' ∈ L ∨ 'T' ∈ L <;> simp only [c1, c2, c3, if_true, if_false] <;>
    first
    | (have : (F.s : Int) * (T * q) = (F.s / T * T + F.s % T) * (T * q) := by rw [hmod]
       linarith)
    | ring

theorem timeOf_exact {T w : Nat} (hT : 0 < T) {t : Int} {x : Time} (hw : T ∣ 10 ^ w) (h : TimeOf T w t x) (h0 : 0 ≤ t) :
    (x.hour : Int) = t / (3600 * T) ∧ (x.min : Int) = t / (60 * T) % 60 ∧
    t % (60 * T) * 10 ^ w = ((x.sec * 10 ^ w + x.frac) * T : Nat) := by
  obtain ⟨q, hq⟩ := hw
  obtain ⟨h1, h2, h3, h4, h5⟩ := h
  have hT' : (0 : Int) < T := by omega
  have hp : (10 : Int) ^ w = T * q := by exact_mod_cast hq
  have hq0 : 0 < q := by
    rcases Nat.eq_zero_or_pos q with rfl | h
    · have : 0 < 10 ^ w := Nat.pow_pos (by omega)
      omega
    · exact h
  have hq0' : (0 : Int) < q := by omega
  rw [hp] at h4 h5
  obtain ⟨A, hA⟩ : ∃ A, (x.hour * 3600 + x.min * 60 + x.sec : Nat) = A := ⟨_, rfl⟩
  have hA' : (x.hour : Int) * 3600 + x.min * 60 + x.sec = A := by exact_mod_cast hA
  rw [hA'] at h4 h5
  have e1 : ((A : Int) * T * q + x.frac) * T ≤ (t * q) * T := by linarith
  have e2 : (t * q) * T < ((A : Int) * T * q + x.frac + 1) * T := by linarith
  have e3 := Int.le_of_mul_le_mul_right e1 hT'
  have e4 := Int.lt_of_mul_lt_mul_right e2 (by omega)
  have e5 : (x.frac : Int) = (t - A * T) * q := by
    have : (t - A * T) * q = t * q - A * T * q := by ring
    omega
  have e6 : 0 ≤ t - A * T := by
    by_contra hc
    have : (t - A * T) * q < 0 := Int.mul_neg_of_neg_of_pos (by omega) hq0'
    omega
  have e7 : t - A * T < T := by
    by_contra hc
    have h1 : (T : Int) * q ≤ (t - A * T) * q := Int.mul_le_mul_of_nonneg_right (by omega) (by omega)
    have h2 : (x.frac : Int) < T * q := by rw [← hp]; exact_mod_cast h3
    omega
  have e8 : t / T = A := by
    refine (Int.ediv_eq_iff_of_pos hT').mpr ⟨?_, ?_⟩ <;> linarith
  have d1 : t / (3600 * T) = t / T / 3600 := by
    rw [Int.ediv_ediv_of_nonneg (by omega), Int.mul_comm]
  have d2 : t / (60 * T) = t / T / 60 := by
    rw [Int.ediv_ediv_of_nonneg (by omega), Int.mul_comm]
  refine ⟨by rw [d1, e8]; omega, by rw [d2, e8]; omega, ?_⟩
  have e9 : t % (60 * T) = x.sec * T + (t - A * T) := by
    rw [Int.emod_def, d2, e8]
    have : ((A : Int) / 60) = x.hour * 60 + x.min := by omega
    rw [this]
    rw [← hA']
    ring
  rw [e9]
  push_cast
  rw [hp, e5]
  ring

end Gul14.Date
