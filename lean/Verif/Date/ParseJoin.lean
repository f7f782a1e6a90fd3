import Verif.Date.ParseLoop

/-! # What a date that was put together has to do with the variables -/
namespace Gul14.Date
open Gul14.Spec.Calendar Gul14.Spec.DateText Gul14.Spec.DateFormat Gul14.Spec.DateParse

/-- Every variable is unset or has a value that can be read. -/
def Bounded (v : PVars) : Prop :=
  (∀ f, get v f = unset f ∨ InRange f (get v f)) ∧ v.g = 100 ∧ v.I = 0 ∧ v.p = -1 ∧ v.abbr = []

theorem Step.bounded {L : List Char} {v : PVars} (h : Step L {} v) : Bounded v := by
  refine ⟨fun f => ?_, h.2.1, h.2.2.1, h.2.2.2.1, h.2.2.2.2⟩
  rcases h.1 f with h | h
  · left; rw [h]; cases f <;> rfl
  · exact Or.inr h.2.1

theorem bind_ok {α β : Type} {x : Res α} {f : α → Res β} {y : β} (h : x.bind f = .ok y) : ∃ a, x = .ok a ∧ f a = .ok y := by
  cases x with
  | ok a => exact ⟨a, rfl, h⟩
  | _ => cases h

/-! ### The year -/

theorem fullYear_inv {y Y C Y' C' : Int} (hy : y = 100 ∨ (-99 ≤ y ∧ y ≤ 99)) (hY : Y = -32768 ∨ (-9999 ≤ Y ∧ Y ≤ 9999))
    (hC : C = -327 ∨ (-99 ≤ C ∧ C ≤ 99)) (h : fullYear y Y C = .ok (Y', C')) :
    (y = 100 ∧ Y' = Y) ∨ (y ≠ 100 ∧ -9999 ≤ Y' ∧ Y' ≤ 9999 ∧ y = (Y'.natAbs % 100 : Nat) ∧ (C ≠ -327 → C = Y' / 100) ∧
      (Y ≠ -32768 → Y = Y')) := by
  unfold fullYear at h
  split at h
  · rename_i h0
    cases h
    exact Or.inl ⟨h0, rfl⟩
  · rename_i h0
    right
    split at h
    · cases h
    · rename_i h1
      simp only [Bool.not_eq_true', Bool.not_eq_false, Bool.and_eq_true, decide_eq_true_eq] at h1
      obtain ⟨c, hc, h⟩ := bind_ok h
      obtain ⟨t, ht, h⟩ := bind_ok h
      have hcr : (C ≠ -327 → c = C) ∧ (-101 ≤ c ∧ c ≤ 100) := by
        unfold century at hc
        split at hc
        · cases hc; exact ⟨fun _ => rfl, by omega⟩
        · refine ⟨fun h => absurd h (by omega), ?_⟩
          split at hc
          · simp only [Res.pure_eq, Res.ok.injEq] at hc; subst hc; split <;> omega
          · by_cases h0 : Y ≥ 0
            · simp only [if_pos h0, Res.pure_eq, Res.ok_bind, Res.ok.injEq] at hc
              rw [Int.tdiv_eq_ediv_of_nonneg h0] at hc
              omega
            · simp only [if_neg h0] at hc
              rw [int_ok (by omega) (by omega)] at hc
              simp only [Res.pure_eq, Res.ok_bind, Res.ok.injEq] at hc
              rw [show Y - 100 = -(100 - Y) by omega, Int.neg_tdiv, Int.tdiv_eq_ediv_of_nonneg (by omega)] at hc
              omega
      have htr : t = if c ≥ 0 then 100 * c + y else 100 * (c + 1) - (if y = 0 then 100 else y) := by
        unfold yearIn at ht
        split at ht
        · rename_i hcc
          rw [int_ok (by omega) (by omega)] at ht
          simp only [Res.ok_bind] at ht
          rw [int_ok (by omega) (by omega)] at ht
          rw [if_pos hcc]
          cases ht; rfl
        · rename_i hcc
          rw [int_ok (by omega) (by omega)] at ht
          simp only [Res.ok_bind] at ht
          rw [if_neg hcc]
          split at ht
          · rw [int_ok (by omega) (by omega)] at ht; cases ht; simp [*]
          · rw [int_ok (by omega) (by omega)] at ht; cases ht; simp [*]
      split at h
      · cases h
      · rename_i h2
        simp only [Bool.and_eq_true, decide_eq_true_eq, not_and, not_not] at h2
        simp only [Res.pure_eq, Res.ok.injEq, Prod.mk.injEq] at h
        obtain ⟨rfl, -⟩ := h
        have hr : Y = -32768 → -99 ≤ c ∧ c ≤ 99 := by
          intro hYY
          rcases hC with hCC | hCC
          · unfold century at hc
            rw [if_neg (by omega), if_pos hYY] at hc
            simp only [Res.pure_eq, Res.ok.injEq] at hc; subst hc; split <;> omega
          · have := hcr.1 (by omega); omega
        refine ⟨h0, ?_, ?_, ?_, ?_, fun h => h2 h⟩
        · rcases hY with hY | hY
          · have := hr hY; split at htr <;> (try split at htr) <;> omega
          · rw [← h2 (by omega)]; omega
        · rcases hY with hY | hY
          · have := hr hY; split at htr <;> omega
          · rw [← h2 (by omega)]; omega
        · split at htr <;> (try split at htr) <;> omega
        · intro hh
          have := hcr.1 hh
          split at htr <;> (try split at htr) <;> omega

/-! ### Dates from weeks and days -/

/-- Year, month and day that are set agree with the date. -/
def Compat (d : Date) (v : PVars) : Prop :=
  (v.Y = -32768 ∨ v.Y = d.year) ∧ (v.m = 0 ∨ v.m = d.month) ∧ (v.d = 0 ∨ v.d = d.day)

theorem dateOf_range {n : Int} (h1 : -4700000 ≤ n) (h2 : n ≤ 3200000) :
    -11000 ≤ (Calc.dateOf n).year ∧ (Calc.dateOf n).year ≤ 11000 ∧ 1 ≤ (Calc.dateOf n).month ∧ (Calc.dateOf n).month ≤ 12 ∧
      1 ≤ (Calc.dateOf n).day ∧ (Calc.dateOf n).day ≤ 31 := by
  have hd := Calc.dayOf_dateOf n
  have hb := year_bounds hd
  obtain ⟨⟨a1, a2, a3, a4⟩, -⟩ := Calc.dayOf_iff.mp hd
  have hl := monthLength_range (Calc.dateOf n).year (Calc.dateOf n).month
  refine ⟨?_, ?_, a1, a2, a3, by omega⟩
  · obtain ⟨-, hb⟩ := hb
    simp only [Calc.dayNum, Calc.fy, Calc.marchYear, Calc.marchMonth] at hb
    omega
  · obtain ⟨hb, -⟩ := hb
    simp only [Calc.dayNum, Calc.fy, Calc.marchYear, Calc.marchMonth] at hb
    omega

theorem fromDays_dateOf {n : Int} (h1 : -4700000 ≤ n) (h2 : n ≤ 3200000) :
    ∃ t, fromDays n = .ok t ∧ t.y.toInt = (Calc.dateOf n).year ∧ t.m.toNat = (Calc.dateOf n).month ∧
      t.d.toNat = (Calc.dateOf n).day := by
  have := dateOf_range h1 h2
  obtain ⟨t, a, b⟩ := c71_from_days (Calc.dayOf_dateOf n) (by omega) (by omega)
  exact ⟨t, a, by rw [← b]; rfl, by rw [← b]; rfl, by rw [← b]; rfl⟩

theorem uchar_back {x : Int} {c : UInt8} (h1 : -99 ≤ x) (h2 : x ≤ 99) (hc : c.toNat ≤ 31) (h : asUchar (uns x) = c) : x = c.toNat := by
  rw [← h, asUchar_toNat] at hc ⊢
  unfold uns at *
  omega

theorem useMD_inv {v v' : PVars} {t : YMD} (hm : -99 ≤ v.m ∧ v.m ≤ 99) (hd : -99 ≤ v.d ∧ v.d ≤ 99) (tm : t.m.toNat ≤ 12)
    (td : t.d.toNat ≤ 31) (h : useTrialMD v t = .ok v') :
    v' = { v with m := t.m.toNat, d := t.d.toNat } ∧ (v.m = 0 ∨ v.m = t.m.toNat) ∧ (v.d = 0 ∨ v.d = t.d.toNat) := by
  unfold useTrialMD at h
  obtain ⟨v1, h1, h⟩ := bind_ok h
  have e1 : v1 = { v with m := t.m.toNat } ∧ (v.m = 0 ∨ v.m = t.m.toNat) := by
    unfold useMonth at h1
    split at h1
    · rename_i h0; cases h1; exact ⟨rfl, Or.inl h0⟩
    · split at h1
      · cases h1
      · rename_i h0
        have := uchar_back hm.1 hm.2 (by omega) (not_not.mp h0)
        cases h1
        exact ⟨by rw [← this], Or.inr this⟩
  obtain ⟨rfl, e1⟩ := e1
  unfold useDay at h
  split at h
  · rename_i h0; cases h; exact ⟨rfl, e1, Or.inl h0⟩
  · split at h
    · cases h
    · rename_i h0
      have := uchar_back hd.1 hd.2 (by omega) (not_not.mp h0)
      cases h
      exact ⟨by rw [← this], e1, Or.inr this⟩

/-- The variables before the date is computed. -/
structure Sane (v : PVars) : Prop where
  Y : -32768 ≤ v.Y ∧ v.Y ≤ 32767
  Y' : v.Y = -32768 ∨ (-10005 ≤ v.Y ∧ v.Y ≤ 10005)
  m : -99 ≤ v.m ∧ v.m ≤ 99
  d : -99 ≤ v.d ∧ v.d ≤ 99
  wd : v.wd = 8 ∨ (0 ≤ v.wd ∧ v.wd ≤ 6)
  G : v.G = -32768 ∨ (-9999 ≤ v.G ∧ v.G ≤ 9999)
  V : 0 ≤ v.V ∧ v.V ≤ 100
  U : 0 ≤ v.U ∧ v.U ≤ 100
  W : 0 ≤ v.W ∧ v.W ≤ 100
  j : -1 ≤ v.j ∧ v.j ≤ 999

theorem Sane.full {v : PVars} (h : Sane v) {n : Int} (h1 : -4700000 ≤ n) (h2 : n ≤ 3200000)
    (h3 : -10005 ≤ (Calc.dateOf n).year ∧ (Calc.dateOf n).year ≤ 10005) : Sane (full (Calc.dateOf n) v) := by
  have := dateOf_range h1 h2
  exact ⟨by simp only [Date.full]; omega, by simp only [Date.full]; omega, by simp only [Date.full]; omega,
    by simp only [Date.full]; omega, h.wd, h.G, h.V, h.U, h.W, h.j⟩

theorem useTrial_inv {v v' : PVars} (hv : Sane v) {n : Int} (h1 : -4700000 ≤ n) (h2 : n ≤ 3200000) {t : YMD} (ht : fromDays n = .ok t)
    (h : useTrial v t = .ok v') : v' = full (Calc.dateOf n) v ∧ Compat (Calc.dateOf n) v := by
  have hr := dateOf_range h1 h2
  obtain ⟨t', a1, a2, a3, a4⟩ := fromDays_dateOf h1 h2
  rw [ht] at a1; cases a1
  unfold useTrial at h
  obtain ⟨v1, b1, h⟩ := bind_ok h
  have e1 : v1 = { v with Y := t.y.toInt } ∧ (v.Y = -32768 ∨ v.Y = t.y.toInt) := by
    unfold useYear at b1
    split at b1
    · rename_i h0; cases b1; exact ⟨rfl, Or.inl h0⟩
    · split at b1
      · cases b1
      · rename_i h0
        have : v.Y = t.y.toInt := by
          rw [← not_not.mp h0, year_toInt hv.Y.1 hv.Y.2]
        cases b1
        exact ⟨by rw [← this], Or.inr this⟩
  obtain ⟨rfl, e1⟩ := e1
  obtain ⟨c1, c2, c3⟩ := useMD_inv (v := { v with Y := t.y.toInt }) hv.m hv.d (by omega) (by omega) h
  rw [a2] at e1
  rw [a3] at c2
  rw [a4] at c3
  refine ⟨?_, e1, c2, c3⟩
  rw [c1, a2, a3, a4]; rfl

/-- The variables at the beginning and at the end: those for the date are kept if they were set. -/
def Kept (v v' : PVars) : Prop :=
  (v.Y = -32768 ∨ v'.Y = v.Y) ∧ (v.m = 0 ∨ v'.m = v.m) ∧ (v.d = 0 ∨ v'.d = v.d) ∧
  ∃ Y m d j, v' = { v with Y := Y, m := m, d := d, j := j }

theorem Kept.refl (v : PVars) : Kept v v := ⟨Or.inr rfl, Or.inr rfl, Or.inr rfl, v.Y, v.m, v.d, v.j, rfl⟩

theorem Kept.trans {a b c : PVars} (h : Kept a b) (h' : Kept b c) : Kept a c := by
  obtain ⟨h1, h2, h3, Y, m, d, j, rfl⟩ := h
  obtain ⟨g1, g2, g3, Y', m', d', j', rfl⟩ := h'
  refine ⟨?_, ?_, ?_, Y', m', d', j', rfl⟩ <;> simp only at * <;> omega

theorem kept_full {v : PVars} {d : Date} (h : Compat d v) : Kept v (full d v) := by
  obtain ⟨h1, h2, h3⟩ := h
  exact ⟨h1.imp id Eq.symm, h2.imp id Eq.symm, h3.imp id Eq.symm, _, _, _, v.j, rfl⟩

/-- The day of a week. -/
theorem dayInWeek_inv {st k wd n : Int} {first : UInt8} (hf : first.toNat < 7) (h1 : -4500000 ≤ st) (h2 : st ≤ 3100000)
    (h3 : 0 ≤ k) (h4 : k ≤ 100) (h5 : 0 ≤ wd) (h6 : wd ≤ 6) (h : dayInWeek st k wd first = .ok n) :
    n = st + 7 * (k - 1) + (wd - first.toNat) % 7 := by
  unfold dayInWeek at h
  rw [int_ok (by omega) (by omega)] at h
  simp only [Res.ok_bind] at h
  rw [int_ok (by omega) (by omega)] at h
  simp only [Res.ok_bind] at h
  rw [int_ok (by omega) (by omega)] at h
  simp only [Res.ok_bind] at h
  have e : uns wd = wd := by unfold uns; omega
  rw [e, weekdayMinus_eq, weekdayOf_toNat (by omega) (by omega), Int.toNat_of_nonneg h5, int_ok (by omega) (by omega)] at h
  cases h; rfl

theorem newYear_range {y : Int} (h1 : -10005 ≤ y) (h2 : y ≤ 10005) : -4380000 ≤ Calc.dayNum y 1 1 ∧ Calc.dayNum y 1 1 ≤ 2940000 := by
  simp only [Calc.dayNum, Calc.fy, Calc.marchYear, Calc.marchMonth]
  omega

theorem dateOf_range4 {n : Int} (h1 : -4373000 ≤ n) (h2 : n ≤ 2934000) :
    -10005 ≤ (Calc.dateOf n).year ∧ (Calc.dateOf n).year ≤ 10005 := by
  have hb := year_bounds (Calc.dayOf_dateOf n)
  constructor
  · obtain ⟨-, hb⟩ := hb
    simp only [Calc.dayNum, Calc.fy, Calc.marchYear, Calc.marchMonth] at hb
    omega
  · obtain ⟨hb, -⟩ := hb
    simp only [Calc.dayNum, Calc.fy, Calc.marchYear, Calc.marchMonth] at hb
    omega

/-- The date from the ISO week. -/
theorem fromIsoWeek_inv {v v' : PVars} (hv : Sane v) (hu : usesIso v = true) (h : fromIsoWeek v = .ok v') :
    ∃ n st, v' = full (Calc.dateOf n) v ∧ Compat (Calc.dateOf n) v ∧ Sane v' ∧ st % 7 = 4 ∧ Calc.dayNum v.G 1 1 - 3 ≤ st ∧
      st ≤ Calc.dayNum v.G 1 1 + 3 ∧ n = st + 7 * (v.V - 1) + (v.wd - 1) % 7 := by
  simp only [usesIso, Bool.and_eq_true, decide_eq_true_eq] at hu
  have hG := hv.G.resolve_left hu.1.1
  have hw := hv.wd.resolve_left hu.2
  have hV := hv.V
  have ey : (year v.G).toInt = v.G := year_toInt (by omega) (by omega)
  obtain ⟨st, s1, s2, s3, s4⟩ := isoStart_eq (year v.G) (by omega)
  rw [ey] at s3 s4
  unfold isoStart at s1
  rw [yearPlus_toInt (by omega) (by omega), ey] at s1
  unfold fromIsoWeek at h
  rw [int_ok (by omega) (by omega)] at h
  simp only [Res.ok_bind] at s1 h
  rw [show v.G - 1 = v.G + -1 by omega] at h
  obtain ⟨a, h1, h⟩ := bind_ok h
  rw [h1] at s1
  simp only [Res.ok_bind] at s1
  obtain ⟨st', h2, h⟩ := bind_ok h
  rw [s1] at h2; cases h2
  obtain ⟨n, h3, h⟩ := bind_ok h
  obtain ⟨t, h4, h⟩ := bind_ok h
  have hny : -4371700 ≤ Calc.dayNum v.G 1 1 ∧ Calc.dayNum v.G 1 1 ≤ 2932900 := by
    simp only [Calc.dayNum, Calc.fy, Calc.marchYear, Calc.marchMonth]
    omega
  have hn := dayInWeek_inv (by decide) (by omega) (by omega) hV.1 hV.2 hw.1 hw.2 h3
  rw [show (1 : UInt8).toNat = 1 from rfl] at hn
  have b1 : -4700000 ≤ n := by omega
  have b2 : n ≤ 3200000 := by omega
  obtain ⟨rfl, c2⟩ := useTrial_inv hv b1 b2 h4 h
  exact ⟨n, st, rfl, c2, hv.full b1 b2 (dateOf_range4 (by omega) (by omega)), s2, s3, s4, hn⟩

theorem firstWeekday_year {y : Int} (h1 : -32768 ≤ y) (h2 : y ≤ 32767) (wd : UInt8) (hw : wd.toNat < 7) : firstWeekday (year y) wd =
    .ok (Calc.dayNum y 1 1 + ((wd.toNat : Int) - dayOfWeek (Calc.dayNum y 1 1)) % 7) := by
  have hwd : (weekdayIndexed (year y) 1 wd 1).weekday.toNat = wd.toNat := by
    simp only [YMWD.weekday, weekdayIndexed]
    have hv : val (asUchar (val wd % 16)) = wd.toNat := by
      have : (asUchar (val wd % 16)).toNat = (val wd % 16 % 256).toNat := asUchar_toNat _
      unfold val at *
      omega
    rw [hv, weekdayOf_toNat (by omega) (by omega)]
    omega
  have hidx : (weekdayIndexed (year y) 1 wd 1).idx.toNat = 1 := rfl
  have hst := ymwd_toDays (weekdayIndexed (year y) 1 wd 1)
  rw [hwd, hidx] at hst
  have e1 : (weekdayIndexed (year y) 1 wd 1).y.toInt = y := year_toInt h1 h2
  have e2 : (weekdayIndexed (year y) 1 wd 1).m.toNat = 1 := rfl
  rw [e1, e2] at hst
  unfold firstWeekday
  rw [hst]
  simp

/-- The date from a week of the year. -/
theorem fromWeek_inv {v v' : PVars} {k : Int} {first : UInt8} (hf : first.toNat < 7) (hv : Sane v) (hY : v.Y ≠ -32768) (hw : v.wd ≠ 8)
    (h3 : 0 ≤ k) (h4 : k ≤ 100) (h : fromWeek v k first = .ok v') :
    ∃ n, v' = full (Calc.dateOf n) v ∧ Compat (Calc.dateOf n) v ∧ Sane v' ∧
      k = countWeekday first.toNat (Calc.dayNum (Calc.dateOf n).year 1 1) n := by
  have hY' := hv.Y'.resolve_left hY
  have hw := hv.wd.resolve_left hw
  have hny := newYear_range hY'.1 hY'.2
  unfold fromWeek at h
  rw [firstWeekday_year (by omega) (by omega) first hf] at h
  simp only [Res.ok_bind] at h
  obtain ⟨n, h1, h⟩ := bind_ok h
  obtain ⟨t, h2, h⟩ := bind_ok h
  have hn := dayInWeek_inv hf (by omega) (by omega) h3 h4 hw.1 hw.2 h1
  have b1 : -4700000 ≤ n := by omega
  have b2 : n ≤ 3200000 := by omega
  obtain ⟨rfl, c2⟩ := useTrial_inv hv b1 b2 h2 h
  have ey := c2.1.resolve_left hY
  refine ⟨n, rfl, c2, hv.full b1 b2 (by omega), ?_⟩
  rw [← ey]
  have hb := year_bounds (Calc.dayOf_dateOf n)
  rw [← ey] at hb
  have hc := countWeekday_eq hf (a := Calc.dayNum v.Y 1 1) (b := n) (by omega)
  have hd := dow_val (Calc.dayNum v.Y 1 1)
  generalize Calc.dayNum v.Y 1 1 = ny at *
  omega

/-- The date from the day of the year. -/
theorem fromYearDay_inv {v v' : PVars} (hv : Sane v) (hu : usesJ v = true) (h : fromYearDay v = .ok v') :
    ∃ n, n = Calc.dayNum v.Y 1 1 + v.j - 1 ∧ v' = { v with m := (Calc.dateOf n).month, d := (Calc.dateOf n).day, j := -1 } ∧
      (v.m = 0 ∨ v.m = (Calc.dateOf n).month) ∧ (v.d = 0 ∨ v.d = (Calc.dateOf n).day) := by
  simp only [usesJ, Bool.and_eq_true, decide_eq_true_eq] at hu
  have hY' := hv.Y'.resolve_left hu.2
  have hny := newYear_range hY'.1 hY'.2
  have hj := hv.j
  unfold fromYearDay at h
  obtain ⟨jan, h1, h⟩ := bind_ok h
  have hjan : jan = Calc.dayNum v.Y 1 1 := by
    have := toDays_eq ⟨year v.Y, 1, 1⟩
    rw [h1] at this
    cases this
    rw [year_toInt (by omega) (by omega)]; rfl
  subst hjan
  rw [int_ok (by omega) (by omega)] at h
  simp only [Res.ok_bind] at h
  rw [int_ok (by omega) (by omega)] at h
  simp only [Res.ok_bind] at h
  obtain ⟨t, h2, h⟩ := bind_ok h
  obtain ⟨v1, h3, h⟩ := bind_ok h
  have b1 : -4700000 ≤ Calc.dayNum v.Y 1 1 + (v.j - 1) := by omega
  have b2 : Calc.dayNum v.Y 1 1 + (v.j - 1) ≤ 3200000 := by omega
  have hr := dateOf_range b1 b2
  obtain ⟨t', a1, a2, a3, a4⟩ := fromDays_dateOf b1 b2
  rw [h2] at a1; cases a1
  obtain ⟨c1, c2, c3⟩ := useMD_inv hv.m hv.d (by omega) (by omega) h3
  refine ⟨Calc.dayNum v.Y 1 1 + (v.j - 1), by omega, ?_, by rw [← a3]; exact c2, by rw [← a4]; exact c3⟩
  subst c1
  cases h
  rw [a3, a4]

end Gul14.Date
