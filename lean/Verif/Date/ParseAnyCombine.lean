import Verif.Date.ParseAmounts
import Verif.Date.ParseAnySpec

/-! # Putting the parts together, whatever was read -/
namespace Gul14.Date.AnyFormat
open Gul14.Spec.Calendar Gul14.Spec.DateText Gul14.Spec.DateFormat Gul14.Spec.DateParse Gul14.Spec.DateParse.AnyFormat
open Gul14.Ieee

/-- Numbers of up to seven digits. -/
def In (x : Int) : Prop := -10000000 ≤ x ∧ x ≤ 10000000

/-- The variables that are used in sums. -/
structure Wide (v : PVars) : Prop where
  Y : In v.Y
  C : In v.C
  G : In v.G
  U : In v.U
  V : In v.V
  W : In v.W
  j : In v.j
  H : v.H = -2147483648 ∨ In v.H

theorem century_any {two full C : Int} (hF : In full) (hC : In C) : ∃ c, century two full C = .ok c ∧ In c := by
  unfold In at *
  unfold century
  split
  · exact ⟨_, rfl, hC⟩
  · split
    · refine ⟨_, rfl, ?_⟩
      split <;> omega
    · by_cases h0 : full ≥ 0
      · simp only [if_pos h0, Res.pure_eq, Res.ok_bind]
        rw [Int.tdiv_eq_ediv_of_nonneg h0]
        exact ⟨_, rfl, by omega, by omega⟩
      · simp only [if_neg h0]
        rw [int_ok (by omega) (by omega)]
        simp only [Res.pure_eq, Res.ok_bind]
        rw [show full - 100 = -(100 - full) by omega, Int.neg_tdiv, Int.tdiv_eq_ediv_of_nonneg (by omega)]
        exact ⟨_, rfl, by omega, by omega⟩

theorem yearIn_any {C two : Int} (hC : In C) (h0 : 0 ≤ two) (h1 : two ≤ 99) :
    ∃ t, yearIn C two = .ok t ∧ -1100000000 ≤ t ∧ t ≤ 1100000000 := by
  unfold In at hC
  unfold yearIn
  split
  · rw [int_ok (by omega) (by omega)]
    simp only [Res.ok_bind]
    rw [int_ok (by omega) (by omega)]
    exact ⟨_, rfl, by omega, by omega⟩
  · rw [int_ok (by omega) (by omega)]
    simp only [Res.ok_bind]
    split
    · rw [int_ok (by omega) (by omega)]
      exact ⟨_, rfl, by omega, by omega⟩
    · rw [int_ok (by omega) (by omega)]
      exact ⟨_, rfl, by omega, by omega⟩

/-- The year is found, or the text is not accepted. -/
theorem fullYear_any {two full C : Int} (hF : In full) (hC : In C) :
    (∃ x, fullYear two full C = .throw x) ∨ ∃ t c, fullYear two full C = .ok (t, c) ∧ (-1100000000 ≤ t ∧ t ≤ 1100000000) ∧ In c := by
  unfold fullYear
  split
  · refine Or.inr ⟨_, _, rfl, ?_, hC⟩
    unfold In at hF
    omega
  · split
    · exact Or.inl ⟨_, rfl⟩
    · rename_i h1
      simp only [Bool.not_eq_true', Bool.not_eq_false, Bool.and_eq_true, decide_eq_true_eq] at h1
      obtain ⟨c, c1, c2⟩ := century_any (two := two) hF hC
      obtain ⟨t, t1, t2⟩ := yearIn_any c2 h1.1 h1.2
      rw [c1]
      simp only [Res.ok_bind]
      rw [t1]
      simp only [Res.ok_bind]
      split
      · exact Or.inl ⟨_, rfl⟩
      · exact Or.inr ⟨_, _, rfl, t2, c2⟩

/-! ### The date -/

theorem fromDays_any {n : Int} (h1 : -200000000 ≤ n) (h2 : n ≤ 200000000) : ∃ t, fromDays n = .ok t :=
  ⟨_, fromDays_eq (by omega) (by omega)⟩

theorem ymwdLast_any (y : Int16) (m wd : UInt8) : ∃ n, ymwdLastToDays y m wd = .ok n ∧ -13000010 ≤ n ∧ n ≤ 13000010 := by
  unfold ymwdLastToDays
  rw [toDays_eq]
  have := dayNum_range (ymdLast y m).y (ymdLast y m).m (ymdLast y m).d
  simp only [Res.ok_bind]
  rw [weekdayMinus_eq, int_ok (by omega) (by omega)]
  exact ⟨_, rfl, by omega, by omega⟩

theorem yearPlus_any (y : Int16) : ∃ z, yearPlus y (-1) = .ok z := by
  unfold yearPlus
  have := year_range y
  rw [int_ok (by omega) (by omega)]
  exact ⟨_, rfl⟩

theorem isoStart_any (y : Int16) : ∃ n, isoStart y = .ok n ∧ -13000020 ≤ n ∧ n ≤ 13000020 := by
  unfold isoStart
  obtain ⟨z, hz⟩ := yearPlus_any y
  obtain ⟨n, h1, h2, h3⟩ := ymwdLast_any z 12 4
  rw [hz]
  simp only [Res.ok_bind]
  rw [h1]
  simp only [Res.ok_bind]
  rw [weekdayMinus_eq, int_ok (by omega) (by omega)]
  exact ⟨_, rfl, by omega, by omega⟩

theorem firstWeekday_any (y : Int16) (wd : UInt8) (hw : wd.toNat < 7) :
    ∃ n, firstWeekday y wd = .ok n ∧ -13000020 ≤ n ∧ n ≤ 13000020 := by
  have hy := year_range y
  have e : year y.toInt = y := by unfold year; exact Int16.ofInt_toInt _
  have h := firstWeekday_year hy.1 hy.2 wd hw
  rw [e] at h
  have hr := dayNum_range y 1 1
  rw [show val 1 = 1 from rfl] at hr
  exact ⟨_, h, by omega, by omega⟩

theorem dayInWeek_any {st n wd : Int} {first : UInt8} (h1 : -14000000 ≤ st) (h2 : st ≤ 14000000) (hn : In n) :
    ∃ d, dayInWeek st n wd first = .ok d ∧ -200000000 ≤ d ∧ d ≤ 200000000 := by
  unfold In at hn
  unfold dayInWeek
  rw [int_ok (by omega) (by omega)]
  simp only [Res.ok_bind]
  rw [int_ok (by omega) (by omega)]
  simp only [Res.ok_bind]
  rw [int_ok (by omega) (by omega)]
  simp only [Res.ok_bind]
  rw [weekdayMinus_eq, int_ok (by omega) (by omega)]
  exact ⟨_, rfl, by omega, by omega⟩

/-- The variables that are used after the year has been found. -/
structure Ready (v : PVars) : Prop where
  Y : -32768 ≤ v.Y ∧ v.Y ≤ 32767
  G : -1100000000 ≤ v.G ∧ v.G ≤ 1100000000
  U : In v.U
  V : In v.V
  W : In v.W
  j : In v.j
  H : v.H = -2147483648 ∨ In v.H

theorem useMonth_ready {v v' : PVars} {t : YMD} (hv : Ready v) (h : useMonth v t = .ok v') : Ready v' := by
  unfold useMonth at h
  split at h
  · cases h; exact ⟨hv.Y, hv.G, hv.U, hv.V, hv.W, hv.j, hv.H⟩
  · split at h
    · cases h
    · cases h; exact hv

theorem useDay_ready {v v' : PVars} {t : YMD} (hv : Ready v) (h : useDay v t = .ok v') : Ready v' := by
  unfold useDay at h
  split at h
  · cases h; exact ⟨hv.Y, hv.G, hv.U, hv.V, hv.W, hv.j, hv.H⟩
  · split at h
    · cases h
    · cases h; exact hv

theorem useYear_ready {v v' : PVars} {t : YMD} (hv : Ready v) (h : useYear v t = .ok v') : Ready v' := by
  unfold useYear at h
  split at h
  · cases h; exact ⟨year_range _, hv.G, hv.U, hv.V, hv.W, hv.j, hv.H⟩
  · split at h
    · cases h
    · cases h; exact hv

theorem useMD_ready {v v' : PVars} {t : YMD} (hv : Ready v) (h : useTrialMD v t = .ok v') : Ready v' := by
  unfold useTrialMD at h
  obtain ⟨v1, h1, h2⟩ := bind_ok h
  exact useDay_ready (useMonth_ready hv h1) h2

theorem useTrial_ready {v v' : PVars} {t : YMD} (hv : Ready v) (h : useTrial v t = .ok v') : Ready v' := by
  unfold useTrial at h
  obtain ⟨v1, h1, h2⟩ := bind_ok h
  exact useMD_ready (useYear_ready hv h1) h2

/-- A calm computation that keeps the variables in range. -/
def Keeps (r : Res PVars) : Prop := (∃ x, r = .throw x) ∨ ∃ v, r = .ok v ∧ Ready v

theorem trial_keeps {v : PVars} (hv : Ready v) (t : YMD) : Keeps (useTrial v t) := by
  rcases useTrial_calm v t with ⟨a, h⟩ | h
  · exact Or.inr ⟨a, h, useTrial_ready hv h⟩
  · exact Or.inl h

theorem iso_keeps {v : PVars} (hv : Ready v) : Keeps (fromIsoWeek v) := by
  have hG := hv.G
  unfold fromIsoWeek
  rw [int_ok (by omega) (by omega)]
  simp only [Res.ok_bind]
  obtain ⟨n, h1, h2, h3⟩ := ymwdLast_any (year (v.G - 1)) 12 4
  rw [h1]
  simp only [Res.ok_bind]
  rw [weekdayMinus_eq, int_ok (by omega) (by omega)]
  simp only [Res.ok_bind]
  obtain ⟨d, h4, h5, h6⟩ := dayInWeek_any (st := n + ((1 : UInt8).toNat - (4 : UInt8).toNat : Int) % 7) (n := v.V) (wd := v.wd) (first := 1)
    (by omega) (by omega) hv.V
  rw [h4]
  simp only [Res.ok_bind]
  obtain ⟨t, ht⟩ := fromDays_any h5 h6
  rw [ht]
  exact trial_keeps hv t

theorem week_keeps {v : PVars} (hv : Ready v) {n : Int} (hn : In n) (first : UInt8) (hf : first.toNat < 7) : Keeps (fromWeek v n first) := by
  unfold fromWeek
  obtain ⟨s, h1, h2, h3⟩ := firstWeekday_any (year v.Y) first hf
  rw [h1]
  simp only [Res.ok_bind]
  obtain ⟨d, h4, h5, h6⟩ := dayInWeek_any (st := s) (n := n) (wd := v.wd) (first := first) (by omega) (by omega) hn
  rw [h4]
  simp only [Res.ok_bind]
  obtain ⟨t, ht⟩ := fromDays_any h5 h6
  rw [ht]
  exact trial_keeps hv t

theorem day_keeps {v : PVars} (hv : Ready v) : Keeps (fromYearDay v) := by
  unfold fromYearDay
  have hj := hv.j
  unfold In at hj
  have hr := dayNum_range (year v.Y) 1 1
  rw [toDays_eq]
  simp only [Res.ok_bind]
  rw [int_ok (by omega) (by omega)]
  simp only [Res.ok_bind]
  rw [int_ok (by omega) (by omega)]
  simp only [Res.ok_bind]
  obtain ⟨t, ht⟩ := fromDays_any (n := Calc.dayNum (year v.Y).toInt (val 1) (val 1) + (v.j - 1)) (by omega) (by omega)
  rw [ht]
  simp only [Res.ok_bind]
  rcases useMD_calm v t with ⟨a, h⟩ | ⟨x, h⟩
  · have ha := useMD_ready hv h
    rw [h]
    exact Or.inr ⟨_, rfl, ha.Y, ha.G, ha.U, ha.V, ha.W, by simp [In], ha.H⟩
  · rw [h]
    exact Or.inl ⟨_, rfl⟩

theorem when_keeps {b : Bool} {a : Res PVars} {v : PVars} (hv : Ready v) (h : Keeps a) : Keeps (whenUsed b a v) := by
  cases b
  · exact Or.inr ⟨v, rfl, hv⟩
  · exact h

theorem weeks_any {v : PVars} (hv : Ready v) : (∃ x, weeks v = .throw x) ∨ ∃ v' b, weeks v = .ok (v', b) ∧ Ready v' := by
  unfold weeks
  rcases when_keeps (b := usesIso v) hv (iso_keeps hv) with ⟨x, h⟩ | ⟨v1, h, hv1⟩ <;> rw [h]
  · exact Or.inl ⟨x, rfl⟩
  simp only [Res.ok_bind]
  rcases when_keeps (b := usesU v1) hv1 (week_keeps hv1 hv1.U 0 (by decide)) with ⟨x, h⟩ | ⟨v2, h, hv2⟩ <;> rw [h]
  · exact Or.inl ⟨x, rfl⟩
  simp only [Res.ok_bind]
  rcases when_keeps (b := usesW v2) hv2 (week_keeps hv2 hv2.W 1 (by decide)) with ⟨x, h⟩ | ⟨v3, h, hv3⟩ <;> rw [h]
  · exact Or.inl ⟨x, rfl⟩
  simp only [Res.ok_bind]
  rcases when_keeps (b := usesJ v3) hv3 (day_keeps hv3) with ⟨x, h⟩ | ⟨v4, h, hv4⟩ <;> rw [h]
  · exact Or.inl ⟨x, rfl⟩
  exact Or.inr ⟨_, _, rfl, hv4⟩

theorem checkIso_any (v : PVars) {sd : Int} (h1 : -13000000 ≤ sd) (h2 : sd ≤ 13000000) : Calm (checkIso v sd) := by
  unfold checkIso
  split
  · exact Calm.pure _
  · rw [int_ok (by omega) (by omega)]
    simp only [Res.ok_bind]
    obtain ⟨t, ht⟩ := fromDays_any (n := sd + 3) (by omega) (by omega)
    rw [ht]
    simp only [Res.ok_bind]
    obtain ⟨s, a1, a2, a3⟩ := isoStart_any t.y
    rw [a1]
    simp only [Res.ok_bind]
    have fin : ∀ (g : Int16) (s : Int), -13000020 ≤ s → s ≤ 13000020 → Calm (if (v.G ≠ -32768 && v.G ≠ g.toInt) = true then broken
        else if v.V ≠ 100 then do
          if v.V ≠ (← int (sd - s)).tdiv 7 + 1 then broken else pure ()
        else pure () : Res Unit) := by
      intro g s b1 b2
      split
      · exact Calm.broken
      · split
        · rw [int_ok (by omega) (by omega)]
          simp only [Res.ok_bind]
          split
          · exact Calm.broken
          · exact Calm.pure _
        · exact Calm.pure _
    by_cases hlt : sd < s
    · simp only [if_pos hlt]
      obtain ⟨g, hg⟩ := yearPlus_any t.y
      rw [hg]
      simp only [Res.ok_bind]
      by_cases hV : v.V = 100
      · simp only [hV, ne_eq, not_true_eq_false, if_false, Res.pure_eq, Res.ok_bind]
        split
        · exact Calm.broken
        · exact Calm.pure _
      · obtain ⟨s', b1, b2, b3⟩ := isoStart_any g
        simp only [ne_eq, hV, not_false_eq_true, if_true]
        rw [b1]
        simp only [Res.pure_eq, Res.ok_bind]
        have := fin g s' b2 b3
        simpa only [ne_eq, hV, not_false_eq_true, if_true, Res.pure_eq] using this
    · simp only [if_neg hlt, Res.pure_eq, Res.ok_bind]
      exact fin _ s a2 a3

theorem checkWeek_any (n : Int) (y : Int16) (first : UInt8) (hf : first.toNat < 7) {sd : Int} (h1 : -13000000 ≤ sd) (h2 : sd ≤ 13000000) :
    Calm (checkWeek n y first sd) := by
  unfold checkWeek
  split
  · exact Calm.pure _
  · obtain ⟨s, a1, a2, a3⟩ := firstWeekday_any y first hf
    rw [a1]
    simp only [Res.ok_bind]
    rw [int_ok (by omega) (by omega)]
    simp only [Res.ok_bind]
    split
    · exact Calm.broken
    · exact Calm.pure _

theorem theDate_any (v : PVars) (b : Bool) : Calm (theDate v b) := by
  rw [theDate_eq]
  split
  · generalize hymd : (⟨year v.Y, asUchar (uns v.m), asUchar (uns v.d)⟩ : YMD) = ymd at *
    have hr := dayNum_range ymd.y ymd.m ymd.d
    rw [toDays_eq]
    simp only [Res.bind]
    split
    · exact Calm.broken
    · refine Calm.bind ?_ fun _ _ => Calm.pure _
      split
      · exact Calm.pure _
      · unfold checkWeeks
        rw [toDays_eq]
        simp only [Res.ok_bind]
        exact Calm.bind (checkIso_any v hr.1 hr.2) fun _ _ =>
          Calm.bind (checkWeek_any _ _ 0 (by decide) hr.1 hr.2) fun _ _ => checkWeek_any _ _ 1 (by decide) hr.1 hr.2
  · exact Calm.pure _

theorem theHour_any {v : PVars} (hv : v.H = -2147483648 ∨ In v.H) : Calm (theHour v) := by
  unfold theHour
  split
  · exact Calm.pure _
  · split
    · exact Calm.broken
    · split
      · simp only
        generalize (v.I + (if v.I = 12 then v.p - 1 else v.p) * 12) = I
        split
        · exact Calm.pure _
        · split
          · exact Calm.broken
          · exact Calm.pure _
      · split
        · rename_i hH
          have hH' := hv.resolve_left hH
          unfold In at hH'
          split
          · split
            · exact Calm.broken
            · exact Calm.pure _
          · split
            · exact Calm.pure _
            · rw [int_ok (by omega) (by omega)]
              simp only [Res.ok_bind]
              split
              · exact Calm.pure _
              · exact Calm.broken
        · exact Calm.broken

theorem combine_any {e : PEnv} {v : PVars} {fds : Fields} (hv : Wide v) : Calm (combine e v fds) := by
  unfold combine
  rcases fullYear_any (two := v.y) hv.Y hv.C with ⟨x, h⟩ | ⟨Y, C, h, hY, hC⟩ <;> rw [h]
  · exact Or.inr ⟨x, rfl⟩
  simp only [Res.ok_bind]
  rcases fullYear_any (two := v.g) hv.G hC with ⟨x, h⟩ | ⟨G, C', h, hG, -⟩ <;> rw [h]
  · exact Or.inr ⟨x, rfl⟩
  simp only [Res.ok_bind]
  generalize hY2 : (if Y < -32767 ∨ Y > 32767 then -32768 else Y) = Y2
  have hr : Ready { v with Y := Y2, G := G } := by
    refine ⟨?_, hG, hv.U, hv.V, hv.W, hv.j, hv.H⟩
    simp only
    split at hY2 <;> omega
  rcases weeks_any hr with ⟨x, h⟩ | ⟨v', b, h, hv'⟩ <;> rw [h]
  · exact Or.inr ⟨x, rfl⟩
  simp only [Res.ok_bind]
  exact Calm.bind (theDate_any v' b) fun _ _ => Calm.bind (theHour_any hv'.H) fun _ _ => Calm.pure _

end Gul14.Date.AnyFormat
