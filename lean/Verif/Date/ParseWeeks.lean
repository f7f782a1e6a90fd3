import Verif.Date.ParseJoin

/-! # Which date parse finds -/
namespace Gul14.Date
open Gul14.Spec.Calendar Gul14.Spec.DateText Gul14.Spec.DateFormat Gul14.Spec.DateParse

/-- The variables have the date of day `n`. -/
def On (n : Int) (v : PVars) : Prop :=
  v.Y = (Calc.dateOf n).year ∧ v.m = (Calc.dateOf n).month ∧ v.d = (Calc.dateOf n).day ∧ v.Y ≠ -32768

theorem dateOf_pos (n : Int) : 1 ≤ (Calc.dateOf n).month ∧ 1 ≤ (Calc.dateOf n).day := by
  obtain ⟨⟨a1, a2, a3, a4⟩, -⟩ := Calc.dayOf_iff.mp (Calc.dayOf_dateOf n)
  exact ⟨a1, a3⟩

theorem dayOf_days_unique {n n' : Int} {d : Date} (h : DayOf n d) (h' : DayOf n' d) : n = n' := by
  have a := (Calc.dayOf_iff.mp h).2
  have b := (Calc.dayOf_iff.mp h').2
  omega

theorem dateOf_inj {n n' : Int} (h : Calc.dateOf n = Calc.dateOf n') : n = n' :=
  dayOf_days_unique (Calc.dayOf_dateOf n) (h ▸ Calc.dayOf_dateOf n')

theorem dateOf_of {n : Int} {d : Date} (h : DayOf n d) : Calc.dateOf n = d := (Calc.dayOf_eq h).symm

theorem On.unique {n n' : Int} {v : PVars} (h : On n v) (h' : On n' v) : n = n' := by
  obtain ⟨a1, a2, a3, -⟩ := h
  obtain ⟨b1, b2, b3, -⟩ := h'
  apply dateOf_inj
  cases e : Calc.dateOf n
  cases e' : Calc.dateOf n'
  rw [e] at a1 a2 a3
  rw [e'] at b1 b2 b3
  simp only at *
  simp only [Date.mk.injEq]
  omega

theorem On.kept {n : Int} {v v' : PVars} (h : On n v) (hk : Kept v v') : On n v' := by
  obtain ⟨a1, a2, a3, a4⟩ := h
  obtain ⟨h1, h2, h3, -⟩ := hk
  have := dateOf_pos n
  refine ⟨?_, ?_, ?_, ?_⟩ <;> omega

theorem on_full {n : Int} {v : PVars} (h : Sane (full (Calc.dateOf n) v))
    (h3 : -10005 ≤ (Calc.dateOf n).year) : On n (full (Calc.dateOf n) v) := by
  refine ⟨rfl, rfl, rfl, ?_⟩
  simp only [full]; omega

/-- A week of the year. -/
theorem stepWeek {v v' : PVars} {k : Int} {first : UInt8} {b : Bool} (hf : first.toNat < 7) (hv : Sane v) (h3 : 0 ≤ k) (h4 : k ≤ 100)
    (hb : b = (decide (v.Y ≠ -32768) && decide (k ≠ 100) && decide (v.wd ≠ 8)))
    (h : whenUsed b (fromWeek v k first) v = .ok v') :
    Sane v' ∧ Kept v v' ∧ v'.j = v.j ∧
      ((b = true ∧ ∃ n, On n v' ∧ k = countWeekday first.toNat (Calc.dayNum (Calc.dateOf n).year 1 1) n) ∨ (b = false ∧ v' = v)) := by
  cases b
  · cases h
    exact ⟨hv, Kept.refl v, rfl, Or.inr ⟨rfl, rfl⟩⟩
  · simp only [whenUsed, if_true] at h
    have hb' := hb.symm
    simp only [Bool.and_eq_true, decide_eq_true_eq] at hb'
    obtain ⟨n, rfl, h1, h2, h5⟩ := fromWeek_inv hf hv hb'.1.1 hb'.2 h3 h4 h
    have hY := hv.Y'.resolve_left hb'.1.1
    have := h1.1.resolve_left hb'.1.1
    exact ⟨h2, kept_full h1, rfl, Or.inl ⟨rfl, n, on_full h2 (by omega), h5⟩⟩

/-- The day that an ISO year, a week and a weekday determine. -/
def IsoDay (g k wd n : Int) : Prop :=
  ∃ st, st % 7 = 4 ∧ Calc.dayNum g 1 1 - 3 ≤ st ∧ st ≤ Calc.dayNum g 1 1 + 3 ∧ n = st + 7 * (k - 1) + (wd - 1) % 7

theorem stepIso {v v' : PVars} (hv : Sane v) (h : whenUsed (usesIso v) (fromIsoWeek v) v = .ok v') :
    Sane v' ∧ Kept v v' ∧ v'.j = v.j ∧
      ((usesIso v = true ∧ ∃ n, On n v' ∧ IsoDay v.G v.V v.wd n) ∨ (usesIso v = false ∧ v' = v)) := by
  rcases hu : usesIso v with _ | _
  · rw [hu] at h
    cases h
    exact ⟨hv, Kept.refl v, rfl, Or.inr ⟨rfl, rfl⟩⟩
  · rw [hu] at h
    simp only [whenUsed, if_true] at h
    obtain ⟨n, st, rfl, h1, h2, h3⟩ := fromIsoWeek_inv hv hu h
    refine ⟨h2, kept_full h1, rfl, Or.inl ⟨rfl, n, ?_, st, h3⟩⟩
    refine ⟨rfl, rfl, rfl, ?_⟩
    have := h2.Y'
    have h5 := dateOf_range4 (n := n)
    simp only [usesIso, Bool.and_eq_true, decide_eq_true_eq] at hu
    have hG := hv.G.resolve_left hu.1.1
    have hV := hv.V
    have hny : -4371700 ≤ Calc.dayNum v.G 1 1 ∧ Calc.dayNum v.G 1 1 ≤ 2932900 := by
      simp only [Calc.dayNum, Calc.fy, Calc.marchYear, Calc.marchMonth]
      omega
    have := h5 (by omega) (by omega)
    simp only [full]; omega

/-- What the variables have to do with the date `n`, if a week was used. -/
structure Weeks (v : PVars) (n : Int) : Prop where
  wd : v.wd ≠ 8
  U : v.U = 100 ∨ v.U = countWeekday 0 (Calc.dayNum (Calc.dateOf n).year 1 1) n
  W : v.W = 100 ∨ v.W = countWeekday 1 (Calc.dayNum (Calc.dateOf n).year 1 1) n
  iso : v.G = -32768 ∨ v.V = 100 ∨ IsoDay v.G v.V v.wd n
  used : v.U ≠ 100 ∨ v.W ≠ 100 ∨ (v.G ≠ -32768 ∧ v.V ≠ 100)

/-- The day of the year, and the date. -/
def YearDay (v v' : PVars) : Prop :=
  v.j = -1 ∨ ∃ n, n = Calc.dayNum v'.Y 1 1 + v.j - 1 ∧ v'.m = (Calc.dateOf n).month ∧ v'.d = (Calc.dateOf n).day

theorem Kept.fields {v v' : PVars} (h : Kept v v') : v'.wd = v.wd ∧ v'.G = v.G ∧ v'.V = v.V ∧ v'.U = v.U ∧ v'.W = v.W := by
  obtain ⟨-, -, -, Y, m, d, j, rfl⟩ := h
  exact ⟨rfl, rfl, rfl, rfl, rfl⟩

theorem weeks_inv {v v' : PVars} {b : Bool} (hv : Sane v) (h : weeks v = .ok (v', b)) :
    Kept v v' ∧ (-99 ≤ v'.m ∧ v'.m ≤ 99) ∧ (-99 ≤ v'.d ∧ v'.d ≤ 99) ∧
      (v'.Y ≠ -32768 → (-10005 ≤ v'.Y ∧ v'.Y ≤ 10005) ∧ YearDay v v' ∧ v'.j = -1) ∧
      (b = true → ∃ n, On n v' ∧ Weeks v n) := by
  unfold weeks at h
  obtain ⟨v1, h1, h⟩ := bind_ok h
  obtain ⟨v2, h2, h⟩ := bind_ok h
  obtain ⟨v3, h3, h⟩ := bind_ok h
  obtain ⟨v4, h4, h⟩ := bind_ok h
  simp only [Res.pure_eq, Res.ok.injEq, Prod.mk.injEq] at h
  obtain ⟨rfl, rfl⟩ := h
  obtain ⟨s1, k1, j1, c1⟩ := stepIso hv h1
  obtain ⟨s2, k2, j2, c2⟩ := stepWeek (by decide) s1 s1.U.1 s1.U.2 rfl h2
  obtain ⟨s3, k3, j3, c3⟩ := stepWeek (by decide) s2 s2.W.1 s2.W.2 rfl h3
  have k13 := (k1.trans k2).trans k3
  have hlast : Kept v3 v4 ∧ (-99 ≤ v4.m ∧ v4.m ≤ 99) ∧ (-99 ≤ v4.d ∧ v4.d ≤ 99) ∧
      (v4.Y ≠ -32768 → (-10005 ≤ v4.Y ∧ v4.Y ≤ 10005) ∧ YearDay v v4 ∧ v4.j = -1) := by
    rcases hu : usesJ v3 with _ | _
    · rw [hu] at h4
      cases h4
      refine ⟨Kept.refl _, s3.m, s3.d, fun hY => ⟨s3.Y'.resolve_left hY, ?_⟩⟩
      simp only [usesJ, Bool.and_eq_false_iff, decide_eq_false_iff_not, not_not] at hu
      have : v3.j = -1 := hu.resolve_right hY
      exact ⟨Or.inl (by omega), this⟩
    · rw [hu] at h4
      simp only [whenUsed, if_true] at h4
      obtain ⟨n, e1, rfl, e3, e4⟩ := fromYearDay_inv s3 hu h4
      have hu' := hu
      simp only [usesJ, Bool.and_eq_true, decide_eq_true_eq] at hu'
      have hY := s3.Y'.resolve_left hu'.2
      have hj := s3.j
      have hny := newYear_range hY.1 hY.2
      have hr := dateOf_range (n := n) (by omega) (by omega)
      refine ⟨⟨Or.inr rfl, e3.imp id Eq.symm, e4.imp id Eq.symm, _, _, _, _, rfl⟩, by simp only; omega, by simp only; omega, fun _ => ⟨hY, Or.inr ?_, rfl⟩⟩
      exact ⟨n, by rw [e1, j3, j2, j1], rfl, rfl⟩
  obtain ⟨k4, l1, l2, l3⟩ := hlast
  refine ⟨k13.trans k4, l1, l2, l3, ?_⟩
  intro hb
  have on2 : ∀ n, On n v1 → On n v4 := fun n h => ((h.kept k2).kept k3).kept k4
  have on3 : ∀ n, On n v2 → On n v4 := fun n h => (h.kept k3).kept k4
  have on4 : ∀ n, On n v3 → On n v4 := fun n h => h.kept k4
  have f1 := k1.fields
  have f2 := (k1.trans k2).fields
  have hwd : v.wd ≠ 8 := by
    intro h8
    have g1 : v1.wd = 8 := f1.1.trans h8
    have g2 : v2.wd = 8 := f2.1.trans h8
    simp [usesIso, usesU, usesW, h8, g1, g2] at hb
  -- the day
  have hn : ∃ n, On n v4 := by
    rcases c1 with ⟨-, n, o, -⟩ | ⟨u1, -⟩
    · exact ⟨n, on2 n o⟩
    · rcases c2 with ⟨-, n, o, -⟩ | ⟨u2, -⟩
      · exact ⟨n, on3 n o⟩
      · rcases c3 with ⟨-, n, o, -⟩ | ⟨u3, -⟩
        · exact ⟨n, on4 n o⟩
        · have e2 : usesU v1 = false := u2
          have e3 : usesW v2 = false := u3
          rw [u1, e2, e3] at hb
          cases hb
  obtain ⟨n, on⟩ := hn
  -- the year is known before the weeks of the year are considered
  have hY : v1.Y ≠ -32768 ∧ v2.Y ≠ -32768 := by
    have key : v1.Y ≠ -32768 → v2.Y ≠ -32768 := by
      intro h
      have := k2.1
      omega
    rcases c1 with ⟨-, n, o, -⟩ | ⟨u1, -⟩
    · exact ⟨o.2.2.2, key o.2.2.2⟩
    · have e2 : usesU v1 = true ∨ usesW v2 = true := by
        rw [u1] at hb
        simpa using hb
      rcases e2 with e2 | e2
      · simp only [usesU, Bool.and_eq_true, decide_eq_true_eq] at e2
        exact ⟨e2.1.1, key e2.1.1⟩
      · simp only [usesW, Bool.and_eq_true, decide_eq_true_eq] at e2
        refine ⟨?_, e2.1.1⟩
        rcases c2 with ⟨u2, -⟩ | ⟨-, u2⟩
        · have u2' : usesU v1 = true := u2
          simp only [usesU, Bool.and_eq_true, decide_eq_true_eq] at u2'
          exact u2'.1.1
        · rw [← u2]; exact e2.1.1
  refine ⟨n, on, hwd, ?_, ?_, ?_, ?_⟩
  · rw [← f1.2.2.2.1]
    rcases c2 with ⟨-, n', o, e⟩ | ⟨u2, -⟩
    · have := on.unique (on3 n' o)
      subst this
      exact Or.inr e
    · left
      have u2' : usesU v1 = false := u2
      simp only [usesU, Bool.and_eq_false_iff, decide_eq_false_iff_not, not_not] at u2'
      rcases u2' with (u2 | u2) | u2
      · exact absurd u2 hY.1
      · exact u2
      · exact absurd (f1.1.symm.trans u2) hwd
  · rw [← f2.2.2.2.2]
    rcases c3 with ⟨-, n', o, e⟩ | ⟨u2, -⟩
    · have := on.unique (on4 n' o)
      subst this
      exact Or.inr e
    · left
      have u2' : usesW v2 = false := u2
      simp only [usesW, Bool.and_eq_false_iff, decide_eq_false_iff_not, not_not] at u2'
      rcases u2' with (u2 | u2) | u2
      · exact absurd u2 hY.2
      · exact u2
      · exact absurd (f2.1.symm.trans u2) hwd
  · rcases c1 with ⟨-, n', o, e⟩ | ⟨u1, -⟩
    · have := on.unique (on2 n' o)
      subst this
      exact Or.inr (Or.inr e)
    · simp only [usesIso, Bool.and_eq_false_iff, decide_eq_false_iff_not, not_not] at u1
      rcases u1 with (u1 | u1) | u1
      · exact Or.inl u1
      · exact Or.inr (Or.inl u1)
      · exact absurd u1 hwd
  · simp only [usesIso, usesU, usesW, Bool.or_eq_true, Bool.and_eq_true, decide_eq_true_eq] at hb
    rw [f1.2.2.2.1, f2.2.2.2.2] at hb
    rcases hb with (hb | hb) | hb
    · exact Or.inr (Or.inr hb.1)
    · exact Or.inl hb.1.2
    · exact Or.inr (Or.inl hb.1.2)

/-! ### The checks of the date -/

section
variable {e : FmtEnv} {n : Int} {d : Date} (H : HasDate e.fds n d) {v : PVars}
include H

theorem checkIso_inv (h : checkIso v n = .ok ()) :
    (v.G = -32768 ∨ ∃ k, IsoWeek n v.G k) ∧ (v.V = 100 ∨ ∃ g k, IsoWeek n g k ∧ v.V = (k : Nat)) := by
  unfold checkIso at h
  split at h
  · rename_i h0
    simp only [Bool.and_eq_true, decide_eq_true_eq] at h0
    exact ⟨Or.inl h0.1, Or.inl h0.2⟩
  · obtain ⟨y0, st, h1, h2, h3, hlo, hhi⟩ := iso_calc H
    have := H.nlo
    have := H.nhi
    rw [int_ok (by omega) (by omega)] at h
    simp only [Res.ok_bind, h1, h2] at h
    rcases h3 with ⟨a, b, c⟩ | ⟨a, g0, st', g1, g2, g3, g4⟩
    · rw [if_neg (by omega)] at h
      simp only [Res.ok_bind, Res.pure_eq] at h
      split at h
      · cases h
      · rename_i hG
        simp only [Bool.and_eq_true, decide_eq_true_eq, not_and, not_not] at hG
        refine ⟨?_, ?_⟩
        · by_cases hg : v.G = -32768
          · exact Or.inl hg
          · right; rw [hG hg]; exact ⟨_, b⟩
        · split at h
          · rw [int_ok (by omega) (by omega)] at h
            simp only [Res.ok_bind] at h
            split at h
            · cases h
            · rename_i hV
              right
              refine ⟨_, _, b, ?_⟩
              rw [Int.tdiv_eq_ediv_of_nonneg (by omega)] at hV
              omega
          · rename_i hV
            exact Or.inl (not_not.mp hV)
    · rw [if_pos a, yearPlus_toInt (by omega) (by omega)] at h
      have ey : (year (y0.y.toInt - 1)).toInt = y0.y.toInt - 1 := year_toInt (by omega) (by omega)
      rw [show y0.y.toInt + -1 = y0.y.toInt - 1 by omega] at h
      simp only [Res.ok_bind, g1, Res.pure_eq] at h
      have hG : v.G = -32768 ∨ ∃ k, IsoWeek n v.G k := by
        by_cases hg : v.G = -32768
        · exact Or.inl hg
        · right
          by_cases hV : v.V = 100
          · simp only [hV, ne_eq, not_true_eq_false, if_false, Res.ok_bind] at h
            split at h
            · cases h
            · rename_i hG
              simp only [Bool.and_eq_true, decide_eq_true_eq, not_and, not_not] at hG
              rw [hG hg, ey]; exact ⟨_, g4⟩
          · simp only [ne_eq, hV, not_false_eq_true, if_true, Res.ok_bind] at h
            split at h
            · cases h
            · rename_i hG
              simp only [Bool.and_eq_true, decide_eq_true_eq, not_and, not_not] at hG
              rw [hG hg, ey]; exact ⟨_, g4⟩
      refine ⟨hG, ?_⟩
      by_cases hV : v.V = 100
      · exact Or.inl hV
      · simp only [ne_eq, hV, not_false_eq_true, if_true, Res.ok_bind] at h
        split at h
        · cases h
        · rw [int_ok (by omega) (by omega)] at h
          simp only [Res.ok_bind] at h
          split at h
          · cases h
          · rename_i hV'
            right
            refine ⟨_, _, g4, ?_⟩
            rw [Int.tdiv_eq_ediv_of_nonneg (by omega)] at hV'
            omega

end

section
variable {f : Fields} {n : Int} {d : Date} (H : HasDate f n d)
include H

theorem checkWeek_inv (k : Int) (wd : UInt8) (hw : wd.toNat < 7) (h : checkWeek k f.ymd.y wd n = .ok ()) :
    k = 100 ∨ k = countWeekday wd.toNat (Calc.dayNum d.year 1 1) n := by
  obtain ⟨c1, c2, c3, c4, c5⟩ := week_calc H wd hw
  unfold checkWeek at h
  split at h
  · rename_i h0; exact Or.inl h0
  · rw [firstWeekday_eq H wd hw] at h
    simp only [Res.ok_bind] at h
    rw [int_ok (by omega) (by omega)] at h
    simp only [Res.ok_bind] at h
    rw [floor7 H] at h
    split at h
    · cases h
    · rename_i h; right; omega

end

/-- Every variable is unset or fits the date; not every combination is considered by the code. -/
structure FitsDate (n : Int) (d : Date) (v : PVars) : Prop where
  Y : v.Y = -32768 ∨ v.Y = d.year
  m : v.m = 0 ∨ v.m = d.month
  dd : v.d = 0 ∨ v.d = d.day
  wd : v.wd = 8 ∨ v.wd = dayOfWeek n
  U : v.U = 100 ∨ v.U = countWeekday 0 (Calc.dayNum d.year 1 1) n
  W : v.W = 100 ∨ v.W = countWeekday 1 (Calc.dayNum d.year 1 1) n
  iso : ((v.U ≠ 100 ∨ v.W ≠ 100) ∧ (v.G = -32768 ∨ v.V = 100)) ∨
    ((v.G = -32768 ∨ ∃ k, IsoWeek n v.G k) ∧ (v.V = 100 ∨ ∃ g k, IsoWeek n g k ∧ v.V = (k : Nat))) ∨
    (v.G ≠ -32768 ∧ v.V ≠ 100 ∧ IsoDay v.G v.V v.wd n ∧ v.wd ≠ 8)
  j : v.j = -1 ∨ ∃ n', n' = Calc.dayNum d.year 1 1 + v.j - 1 ∧ (Calc.dateOf n').month = d.month ∧ (Calc.dateOf n').day = d.day

theorem theDate_eq (v : PVars) (b : Bool) : theDate v b =
    if (YMD.mk (year v.Y) (asUchar (uns v.m)) (asUchar (uns v.d))).ok = true then
      (YMD.mk (year v.Y) (asUchar (uns v.m)) (asUchar (uns v.d))).toDays.bind fun n =>
        if (decide (v.wd ≠ 8) && decide (v.wd ≠ weekdayMinus (weekday n) 0)) = true then broken
        else (if b = true then .ok () else checkWeeks v (YMD.mk (year v.Y) (asUchar (uns v.m)) (asUchar (uns v.d)))).bind fun _ =>
          .ok (YMD.mk (year v.Y) (asUchar (uns v.m)) (asUchar (uns v.d)), weekdayMinus (weekday n) 0)
    else .ok (YMD.mk (year v.Y) (asUchar (uns v.m)) (asUchar (uns v.d)), v.wd) := by
  cases b <;> rfl

theorem theDate_inv {v : PVars} {b : Bool} {ymd : YMD} {wd : Int} (hY : v.Y = -32768 ∨ (-10005 ≤ v.Y ∧ v.Y ≤ 10005))
    (hm : -99 ≤ v.m ∧ v.m ≤ 99) (hd : -99 ≤ v.d ∧ v.d ≤ 99) (hok : ymd.ok = true) (h : theDate v b = .ok (ymd, wd)) :
    ∃ n, DayOf n ymd.date ∧ ymd.toDays = .ok n ∧ v.Y = ymd.date.year ∧ v.m = ymd.date.month ∧ v.d = ymd.date.day ∧ v.Y ≠ -32768 ∧
      (v.wd = 8 ∨ v.wd = dayOfWeek n) ∧ wd = dayOfWeek n ∧
      (b = false → (v.U = 100 ∨ v.U = countWeekday 0 (Calc.dayNum ymd.date.year 1 1) n) ∧
        (v.W = 100 ∨ v.W = countWeekday 1 (Calc.dayNum ymd.date.year 1 1) n) ∧
        (v.G = -32768 ∨ ∃ k, IsoWeek n v.G k) ∧ (v.V = 100 ∨ ∃ g k, IsoWeek n g k ∧ v.V = (k : Nat))) := by
  have hval := (c72_ok ymd).mp hok
  obtain ⟨⟨h1, h2, h3, h4⟩, h5⟩ := hval
  have hl := monthLength_range ymd.date.year ymd.date.month
  rw [theDate_eq] at h
  have hymd : (⟨year v.Y, asUchar (uns v.m), asUchar (uns v.d)⟩ : YMD) = ymd := by
    split at h
    · obtain ⟨n, -, h⟩ := bind_ok h
      split at h
      · cases h
      · obtain ⟨_, -, h⟩ := bind_ok h
        simp only [Res.pure_eq, Res.ok.injEq, Prod.mk.injEq] at h
        exact h.1
    · simp only [Res.pure_eq, Res.ok.injEq, Prod.mk.injEq] at h
      exact h.1
  have eY : v.Y = ymd.date.year := by
    have : (year v.Y).toInt = v.Y := year_toInt (by omega) (by omega)
    rw [← this]; rw [← hymd]; rfl
  have em : v.m = ymd.date.month := uchar_back hm.1 hm.2 (c := ymd.m) (by change ymd.date.month ≤ 31; omega) (by rw [← hymd])
  have ed : v.d = ymd.date.day := uchar_back hd.1 hd.2 (c := ymd.d) (by change ymd.date.day ≤ 31; omega) (by rw [← hymd])
  have hYne : v.Y ≠ -32768 := by rw [eY]; exact h5
  obtain ⟨n, hn, hdn⟩ := c71_to_days ymd ⟨h1, h2, h3, h4⟩
  have hYr := hY.resolve_left hYne
  have H : HasDate { ymd := ymd } n ymd.date := hasDate hok rfl hdn (by omega) (by omega) rfl
  have := H.nlo
  have := H.nhi
  have hdl := dow_lt n
  have hw : weekdayMinus (weekday n) 0 = dayOfWeek n := by
    rw [weekdayMinus_eq, c73_weekday (by omega) (by omega), show (0 : UInt8).toNat = 0 from rfl]
    omega
  simp only [hymd, hok, if_true, hn, Res.bind, hw] at h
  split at h
  · cases h
  · rename_i hwd
    simp only [Bool.and_eq_true, decide_eq_true_eq, not_and, not_not] at hwd
    obtain ⟨u, hc, h⟩ := bind_ok h
    simp only [Res.pure_eq, Res.ok.injEq, Prod.mk.injEq] at h
    refine ⟨n, hdn, hn, eY, em, ed, hYne, ?_, h.2.symm, ?_⟩
    · by_cases h8 : v.wd = 8
      · exact Or.inl h8
      · exact Or.inr (hwd h8)
    · intro hb
      subst hb
      simp only [Bool.false_eq_true, if_false, checkWeeks, hn, Res.ok_bind] at hc
      obtain ⟨_, a1, hc⟩ := bind_ok hc
      obtain ⟨_, a2, a3⟩ := bind_ok hc
      have i := checkIso_inv (e := ⟨0, ⟨fun _ _ _ => []⟩, { ymd := ymd }, none, none⟩) H a1
      exact ⟨checkWeek_inv H _ 0 (by decide) a2, checkWeek_inv H _ 1 (by decide) a3, i.1, i.2⟩

/-- What a successful call has found; `H` is the hour, from the hour or from the hour on a twelve-hour clock. -/
theorem combine_inv_hour {e : PEnv} {v : PVars} {fds : Fields} {r : Parsed} (hb : ∀ f, get v f = unset f ∨ InRange f (get v f))
    (hg : v.g = 100) (hok : r.fds.ymd.ok = true) (h : combine e v fds = .ok r) :
    ∃ H n Y, theHour v = .ok H ∧ r.abbr = v.abbr ∧ DayOf n r.fds.ymd.date ∧ r.fds.ymd.toDays = .ok n ∧ FitsDate n r.fds.ymd.date { v with Y := Y } ∧
      ((v.y = 100 ∧ Y = v.Y) ∨ (v.y ≠ 100 ∧ v.y = (Y.natAbs % 100 : Nat) ∧ (v.C ≠ -327 → v.C = Y / 100) ∧
        (v.Y ≠ -32768 → v.Y = Y) ∧ Y = r.fds.ymd.date.year)) ∧
      (r.fds.tod, r.fds.hasTod) = theTime e.T { v with j := -1 } H fds.tod fds.hasTod ∧
      r.offset = if v.offset ≠ -9223372036854775808 then some v.offset else none := by
  have bY := hb .Y; have by' := hb .y; have bC := hb .C; have bm := hb .m; have bd := hb .d; have bj := hb .j
  have bwd := hb .wd; have bG := hb .G; have bV := hb .V; have bU := hb .U; have bW := hb .W
  simp only [get, unset, InRange] at bY by' bC bm bd bj bwd bG bV bU bW
  unfold combine at h
  obtain ⟨⟨Y, C⟩, h1, h⟩ := bind_ok h
  obtain ⟨⟨G, C'⟩, h2, h⟩ := bind_ok h
  rw [hg] at h2
  simp only [fullYear, if_true, Res.pure_eq, Res.ok.injEq, Prod.mk.injEq] at h2
  obtain ⟨rfl, -⟩ := h2
  have hfy := fullYear_inv by' bY bC h1
  have hYr : Y = -32768 ∨ (-9999 ≤ Y ∧ Y ≤ 9999) := by
    rcases hfy with ⟨-, rfl⟩ | h
    · exact bY
    · exact Or.inr ⟨h.2.1, h.2.2.1⟩
  have hcl : (if Y < -32767 ∨ Y > 32767 then -32768 else Y) = Y := by split <;> omega
  simp only [hcl] at h
  obtain ⟨⟨v', b⟩, h3, h⟩ := bind_ok h
  obtain ⟨⟨ymd, wd⟩, h4, h⟩ := bind_ok h
  obtain ⟨H, h5, h⟩ := bind_ok h
  simp only [Res.pure_eq, Res.ok.injEq] at h
  subst h
  simp only at hok ⊢
  have hs : Sane { v with Y := Y, G := v.G } :=
    ⟨by simp only; omega, by simp only; omega, by simp only; omega, by simp only; omega, by simp only; omega, by simp only; omega,
      by simp only; omega, by simp only; omega, by simp only; omega, by simp only; omega⟩
  obtain ⟨k, k1, k2, k3, k4⟩ := weeks_inv hs h3
  have hY' : v'.Y = -32768 ∨ (-10005 ≤ v'.Y ∧ v'.Y ≤ 10005) := by
    by_cases hh : v'.Y = -32768
    · exact Or.inl hh
    · exact Or.inr (k3 hh).1
  obtain ⟨n, d1, d2, d3, d4, d5, d6, d7, d8, d9⟩ := theDate_inv hY' k1 k2 hok h4
  obtain ⟨-, q2, q3⟩ := k3 d6
  have kf := k.fields
  simp only at kf
  have kY := k.1
  have km := k.2.1
  have kd := k.2.2.1
  simp only at kY km kd
  have hyear : Y ≠ -32768 → Y = ymd.date.year := fun hh => by rw [← d3, kY.resolve_left hh]
  obtain ⟨-, -, -, Y0, m0, d0, j0, hv'⟩ := k
  have eM : v'.M = v.M ∧ v'.s = v.s ∧ v'.offset = v.offset ∧ theHour v' = theHour v ∧ v'.abbr = v.abbr := by
    subst hv'; exact ⟨rfl, rfl, rfl, rfl, rfl⟩
  have hon : ∀ n', On n' v' → n' = n := by
    intro n' ⟨o1, o2, o3, _⟩
    have e : Calc.dateOf n' = ymd.date := by
      cases e : Calc.dateOf n'
      cases e' : ymd.date
      rw [e] at o1 o2 o3
      rw [e'] at d3 d4 d5
      simp only at *
      simp only [Date.mk.injEq]
      omega
    exact dayOf_days_unique (e ▸ Calc.dayOf_dateOf n') d1
  refine ⟨H, n, Y, eM.2.2.2.1 ▸ h5, eM.2.2.2.2, d1, d2, ⟨?_, ?_, ?_, ?_, ?_, ?_, ?_, ?_⟩, ?_, ?_, by rw [eM.2.2.1]⟩
  · simp only
    by_cases hh : Y = -32768
    · exact Or.inl hh
    · exact Or.inr (hyear hh)
  · simp only
    rcases km with hh | hh
    · exact Or.inl hh
    · exact Or.inr (hh.symm.trans d4)
  · simp only
    rcases kd with hh | hh
    · exact Or.inl hh
    · exact Or.inr (hh.symm.trans d5)
  · simp only; rw [← kf.1]; exact d7
  · simp only
    cases b
    · rw [← kf.2.2.2.1]; exact (d9 rfl).1
    · obtain ⟨n', o, w⟩ := k4 rfl
      obtain rfl := hon n' o
      rw [← d3, o.1]; exact w.U
  · simp only
    cases b
    · rw [← kf.2.2.2.2]; exact (d9 rfl).2.1
    · obtain ⟨n', o, w⟩ := k4 rfl
      obtain rfl := hon n' o
      rw [← d3, o.1]; exact w.W
  · simp only
    cases b
    · right; left
      rw [← kf.2.1, ← kf.2.2.1]
      exact (d9 rfl).2.2
    · obtain ⟨n', o, w⟩ := k4 rfl
      obtain rfl := hon n' o
      have w1 := w.used
      have w2 := w.iso
      have w3 := w.wd
      simp only at w1 w2 w3
      by_cases hG : v.G = -32768
      · left; exact ⟨w1.elim Or.inl fun h => h.elim Or.inr fun h => absurd hG h.1, Or.inl hG⟩
      · by_cases hV : v.V = 100
        · left; exact ⟨w1.elim Or.inl fun h => h.elim Or.inr fun h => absurd hV h.2, Or.inr hV⟩
        · right; right
          exact ⟨hG, hV, (w2.resolve_left hG).resolve_left hV, w3⟩
  · simp only
    rcases q2 with q2 | ⟨n', q2, q4, q5⟩
    · exact Or.inl q2
    · right
      refine ⟨n', by rw [q2, d3], ?_, ?_⟩
      · have := q4.symm.trans d4; omega
      · have := q5.symm.trans d5; omega
  · rcases hfy with ⟨a, b⟩ | ⟨a1, a2, a3, a4, a5, a6⟩
    · exact Or.inl ⟨a, b⟩
    · exact Or.inr ⟨a1, a4, a5, a6, hyear (by omega)⟩
  · unfold theTime
    rw [eM.1, eM.2.1, q3]

/-- What a successful call has found. -/
theorem combine_inv {e : PEnv} {v : PVars} {fds : Fields} {r : Parsed} (hv : Bounded v) (hok : r.fds.ymd.ok = true)
    (h : combine e v fds = .ok r) :
    ∃ n Y, DayOf n r.fds.ymd.date ∧ r.fds.ymd.toDays = .ok n ∧ FitsDate n r.fds.ymd.date { v with Y := Y } ∧
      ((v.y = 100 ∧ Y = v.Y) ∨ (v.y ≠ 100 ∧ v.y = (Y.natAbs % 100 : Nat) ∧ (v.C ≠ -327 → v.C = Y / 100) ∧
        (v.Y ≠ -32768 → v.Y = Y) ∧ Y = r.fds.ymd.date.year)) ∧
      (r.fds.tod, r.fds.hasTod) = theTime e.T { v with j := -1 } v.H fds.tod fds.hasTod ∧
      r.offset = if v.offset ≠ -9223372036854775808 then some v.offset else none := by
  obtain ⟨hb, hg, hI, -, -⟩ := hv
  obtain ⟨H, n, Y, h1, -, h2⟩ := combine_inv_hour hb hg hok h
  have : H = v.H := by
    unfold theHour at h1
    rw [if_pos hI] at h1
    cases h1; rfl
  subst this
  exact ⟨n, Y, h2⟩

end Gul14.Date
