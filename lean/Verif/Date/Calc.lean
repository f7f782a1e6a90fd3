import Verif.Date.Spec

/-!
# Arithmetic of the day count

The algorithm of to_days and from_days in mathematical integers, against the calendar.
-/
namespace Gul14.Date.Calc
open Gul14.Spec.Calendar

/-- Days before March 1st of year `y` (of the year that begins in March). -/
def fy (y : Int) : Int := 365 * y + y / 4 - y / 100 + y / 400

def marchYear (y : Int) (m : Int) : Int := y - (if m ≤ 2 then 1 else 0)
def marchMonth (m : Int) : Int := if m > 2 then m - 3 else m + 9

/-- The day number of a date. -/
def dayNum (y m d : Int) : Int :=
  fy (marchYear y m) + (153 * marchMonth m + 2) / 5 + d - 1 - 719468

theorem fy_split (y : Int) :
    fy y = y / 400 * 146097 + ((y - y / 400 * 400) * 365 + (y - y / 400 * 400) / 4
      - (y - y / 400 * 400) / 100) := by
  unfold fy; omega

theorem fy_succ (y : Int) :
    fy (y + 1) = fy y + 365 + (if Leap (y + 1) then 1 else 0) := by
  unfold fy Leap
  by_cases h1 : (4 : Int) ∣ y + 1 <;> by_cases h2 : (100 : Int) ∣ y + 1 <;> by_cases h3 : (400 : Int) ∣ y + 1 <;>
    simp [h1, h2, h3] <;> omega

theorem months {m : Nat} (h1 : 1 ≤ m) (h2 : m ≤ 12) :
    m = 1 ∨ m = 2 ∨ m = 3 ∨ m = 4 ∨ m = 5 ∨ m = 6 ∨ m = 7 ∨ m = 8 ∨ m = 9 ∨ m = 10 ∨ m = 11 ∨ m = 12 := by
  omega

/-- The length of a month is the distance of the first days. -/
theorem dayNum_month (y : Int) {m : Nat} (h1 : 1 ≤ m) (h2 : m ≤ 11) :
    dayNum y ((m + 1 : Nat) : Int) 1 = dayNum y m 1 + monthLength y m := by
  have hs := fy_succ (y - 1)
  rw [Int.sub_add_cancel] at hs
  rcases months h1 (by omega) with h | h | h | h | h | h | h | h | h | h | h | h <;> subst h <;>
    by_cases hl : Leap y <;> simp [hl] at hs <;>
    simp [dayNum, marchYear, marchMonth, monthLength, hl] <;> omega

theorem dayNum_year (y : Int) :
    dayNum (y + 1) 1 1 = dayNum y ((12 : Nat) : Int) 1 + monthLength y 12 := by
  simp [dayNum, marchYear, marchMonth, monthLength]; omega

theorem dayNum_day (y m d : Int) : dayNum y m d = dayNum y m 1 + (d - 1) := by
  unfold dayNum; omega

theorem next_valid {x : Date} (h : x.Valid) : x.next.Valid := by
  obtain ⟨h1, h2, h3, h4⟩ := h
  have hml : ∀ y m, 1 ≤ monthLength y m := by
    intro y m; unfold monthLength; repeat' split
    all_goals omega
  unfold Date.next
  split
  · exact ⟨h1, h2, by simp, by simp; omega⟩
  · split
    · exact ⟨by simp, by simp; omega, by simp, hml _ _⟩
    · exact ⟨by simp, by simp, by simp, hml _ _⟩

theorem dayNum_next {x : Date} (h : x.Valid) :
    dayNum x.next.year x.next.month x.next.day = dayNum x.year x.month x.day + 1 := by
  obtain ⟨h1, h2, h3, h4⟩ := h
  unfold Date.next
  split
  · simp only [dayNum]; omega
  · rename_i hd
    have hd' : (x.day : Int) = monthLength x.year x.month := by omega
    split
    · rename_i hm
      have := dayNum_month x.year h1 (by omega)
      rw [dayNum_day x.year x.month x.day]
      simp only [Int.ofNat_one] at this ⊢
      omega
    · have : x.month = 12 := by omega
      have := dayNum_year x.year
      rw [dayNum_day x.year x.month x.day, ‹x.month = 12›]
      rw [‹x.month = 12›] at hd'
      simp only [Int.ofNat_one] at this ⊢
      omega

/-! ### Order -/

theorem month_lt (y : Int) {m m' : Nat} (h1 : 1 ≤ m) (h : m < m') (h2 : m' ≤ 12) :
    dayNum y m 1 + monthLength y m ≤ dayNum y m' 1 := by
  induction m' with
  | zero => omega
  | succ k ih =>
    by_cases hk : m = k
    · subst hk; exact Int.le_of_eq (dayNum_month y h1 (by omega)).symm
    · have := ih (by omega) (by omega)
      have hs := dayNum_month y (m := k) (by omega) (by omega)
      omega

theorem first_le (y : Int) {m : Nat} (h1 : 1 ≤ m) (h2 : m ≤ 12) : dayNum y 1 1 ≤ dayNum y m 1 := by
  by_cases h : m = 1
  · subst h; exact Int.le_refl _
  · have := month_lt y (m := 1) (m' := m) (by omega) (by omega) h2
    simp only [Int.ofNat_one] at this
    omega

theorem lt_next_year (y : Int) {m : Nat} (h1 : 1 ≤ m) (h2 : m ≤ 12) :
    dayNum y m 1 + monthLength y m ≤ dayNum (y + 1) 1 1 := by
  by_cases h : m = 12
  · subst h; exact Int.le_of_eq (dayNum_year y).symm
  · have := month_lt y (m := m) (m' := 12) h1 (by omega) (by omega)
    have hy := dayNum_year y
    have : (0 : Int) ≤ monthLength y 12 := by omega
    omega

theorem first_mono (y : Int) (k : Nat) : dayNum y 1 1 ≤ dayNum (y + k) 1 1 := by
  induction k with
  | zero => simp
  | succ k ih =>
    have := lt_next_year (y + k) (m := 1) (by omega) (by omega)
    simp only [Int.ofNat_one] at this
    have e : y + ((k + 1 : Nat) : Int) = y + k + 1 := by omega
    rw [e]; omega

/-- Day numbers are ordered like dates. -/
theorem dayNum_lt {x y : Date} (hx : x.Valid) (hy : y.Valid) (h : x.Before y) :
    dayNum x.year x.month x.day < dayNum y.year y.month y.day := by
  obtain ⟨a1, a2, a3, a4⟩ := hx
  obtain ⟨b1, b2, b3, b4⟩ := hy
  rw [dayNum_day x.year, dayNum_day y.year]
  rcases h with h | ⟨h, h' | ⟨h', h''⟩⟩
  · have e1 := lt_next_year x.year a1 a2
    have e2 := first_mono (x.year + 1) (y.year - x.year - 1).toNat
    have e3 := first_le y.year b1 b2
    have e : x.year + 1 + ((y.year - x.year - 1).toNat : Int) = y.year := by omega
    rw [e] at e2
    omega
  · have := month_lt x.year a1 h' b2
    rw [← h]
    omega
  · rw [← h, ← h']; omega

theorem before_total (x y : Date) : x.Before y ∨ x = y ∨ y.Before x := by
  cases x; cases y
  simp only [Date.Before, Date.mk.injEq]
  omega

theorem dayNum_inj {x y : Date} (hx : x.Valid) (hy : y.Valid)
    (h : dayNum x.year x.month x.day = dayNum y.year y.month y.day) : x = y := by
  rcases before_total x y with hb | hb | hb
  · have := dayNum_lt hx hy hb; omega
  · exact hb
  · have := dayNum_lt hy hx hb; omega

/-! ### From the number to the date -/

theorem yoe_ok (doe : Int) (h0 : 0 ≤ doe) (h1 : doe ≤ 146096) :
    let yoe := (doe - doe/1460 + doe/36524 - doe/146096)/365
    0 ≤ yoe ∧ yoe ≤ 399 ∧ 365*yoe + yoe/4 - yoe/100 ≤ doe ∧
    doe < 365*(yoe+1) + (yoe+1)/4 - (yoe+1)/100 + (if yoe = 399 then 1 else 0) := by
  intro yoe
  have h2 : 0 ≤ yoe ∧ yoe ≤ 399 := by omega
  have e1 : doe / 146096 = 0 ∨ doe / 146096 = 1 := by omega
  have e2 : doe / 36524 = 0 ∨ doe / 36524 = 1 ∨ doe / 36524 = 2 ∨ doe / 36524 = 3 ∨
    doe / 36524 = 4 := by omega
  have e3 : yoe / 100 = 0 ∨ yoe / 100 = 1 ∨ yoe / 100 = 2 ∨ yoe / 100 = 3 := by omega
  have e5 : (yoe+1) / 100 = 0 ∨ (yoe+1) / 100 = 1 ∨ (yoe+1) / 100 = 2 ∨ (yoe+1) / 100 = 3 ∨
    (yoe+1) / 100 = 4 := by omega
  have e4 : yoe % 4 = 0 ∨ yoe % 4 = 1 ∨ yoe % 4 = 2 ∨ yoe % 4 = 3 := by omega
  refine ⟨h2.1, h2.2, ?_, ?_⟩
  · rcases e1 with e1 | e1 <;> rcases e2 with e2 | e2 | e2 | e2 | e2 <;> try omega
    all_goals rcases e3 with e3 | e3 | e3 | e3 <;> try omega
    all_goals rcases e4 with e4 | e4 | e4 | e4 <;> omega
  · split
    · omega
    rcases e1 with e1 | e1 <;> rcases e2 with e2 | e2 | e2 | e2 | e2 <;> try omega
    all_goals rcases e5 with e3 | e3 | e3 | e3 | e3 <;> try omega
    all_goals rcases e4 with e4 | e4 | e4 | e4 <;> omega

def eraOf (z : Int) : Int := z / 146097
def doeOf (z : Int) : Int := z - eraOf z * 146097
def yoeOf (doe : Int) : Int := (doe - doe / 1460 + doe / 36524 - doe / 146096) / 365
def doyOf (doe : Int) : Int := doe - (365 * yoeOf doe + yoeOf doe / 4 - yoeOf doe / 100)
def mpOf (doy : Int) : Int := (5 * doy + 2) / 153
def domOf (doy : Int) : Int := doy - (153 * mpOf doy + 2) / 5 + 1
def monOf (mp : Int) : Int := if mp < 10 then mp + 3 else mp - 9

theorem doe_range (z : Int) : 0 ≤ doeOf z ∧ doeOf z ≤ 146096 := by
  unfold doeOf eraOf; omega

/-- The year that begins in March, for shifted day number `z`. -/
def myOf (z : Int) : Int := yoeOf (doeOf z) + eraOf z * 400

theorem my_bounds (z : Int) : fy (myOf z) ≤ z ∧ z < fy (myOf z + 1) := by
  have hr := doe_range z
  have h := yoe_ok (doeOf z) hr.1 hr.2
  simp only at h
  have hz : z = eraOf z * 146097 + doeOf z := by unfold doeOf; omega
  unfold fy myOf
  change 0 ≤ yoeOf (doeOf z) ∧ yoeOf (doeOf z) ≤ 399 ∧ _ at h
  obtain ⟨a, b, c, d⟩ := h
  change 365 * yoeOf (doeOf z) + yoeOf (doeOf z) / 4 - yoeOf (doeOf z) / 100 ≤ doeOf z at c
  change doeOf z < 365 * (yoeOf (doeOf z) + 1) + (yoeOf (doeOf z) + 1) / 4
    - (yoeOf (doeOf z) + 1) / 100 + (if yoeOf (doeOf z) = 399 then 1 else 0) at d
  generalize yoeOf (doeOf z) = yoe at *
  generalize eraOf z = era at *
  generalize doeOf z = doe at *
  have q1 : (yoe + era * 400) / 4 = yoe / 4 + era * 100 := by omega
  have q2 : (yoe + era * 400) / 100 = yoe / 100 + era * 4 := by omega
  have q3 : (yoe + era * 400) / 400 = era := by omega
  have q4 : (yoe + era * 400 + 1) / 4 = (yoe + 1) / 4 + era * 100 := by omega
  have q5 : (yoe + era * 400 + 1) / 100 = (yoe + 1) / 100 + era * 4 := by omega
  have q6 : (yoe + era * 400 + 1) / 400 = era + (if yoe = 399 then 1 else 0) := by split <;> omega
  rw [q1, q2, q3, q4, q5, q6]
  split at d <;> simp_all <;> omega

theorem doy_eq (z : Int) : doyOf (doeOf z) = z - fy (myOf z) := by
  have hr := doe_range z
  have h := yoe_ok (doeOf z) hr.1 hr.2
  simp only at h
  change 0 ≤ yoeOf (doeOf z) ∧ yoeOf (doeOf z) ≤ 399 ∧ _ at h
  obtain ⟨a, b, -, -⟩ := h
  have hz : z = eraOf z * 146097 + doeOf z := by unfold doeOf; omega
  unfold doyOf fy myOf
  generalize yoeOf (doeOf z) = yoe at *
  generalize eraOf z = era at *
  generalize doeOf z = doe at *
  omega

/-- The date of day number `n`. -/
def dateOf (n : Int) : Date :=
  let z := n + 719468
  let doy := doyOf (doeOf z)
  let m := monOf (mpOf doy)
  ⟨myOf z + (if m ≤ 2 then 1 else 0), m.toNat, (domOf doy).toNat⟩

theorem doy_range (z : Int) : 0 ≤ doyOf (doeOf z) ∧ doyOf (doeOf z) ≤ 365 ∧
    (doyOf (doeOf z) = 365 → Leap (myOf z + 1)) := by
  have h := my_bounds z
  have e := doy_eq z
  have s := fy_succ (myOf z)
  by_cases hl : Leap (myOf z + 1)
  · simp only [hl, if_true] at s; refine ⟨by omega, by omega, fun _ => hl⟩
  · simp only [hl, if_false] at s; refine ⟨by omega, by omega, fun h => by omega⟩

theorem mp_range {doy : Int} (h0 : 0 ≤ doy) (h1 : doy ≤ 365) : 0 ≤ mpOf doy ∧ mpOf doy ≤ 11 := by
  unfold mpOf; omega

theorem dom_range {doy : Int} (h0 : 0 ≤ doy) (h1 : doy ≤ 365) :
    1 ≤ domOf doy ∧ domOf doy ≤ 31 := by
  unfold domOf mpOf; omega

theorem dateOf_spec (n : Int) : (dateOf n).Valid ∧
    dayNum (dateOf n).year (dateOf n).month (dateOf n).day = n := by
  obtain ⟨h0, h1, h2⟩ := doy_range (n + 719468)
  have e := doy_eq (n + 719468)
  have hmp := mp_range h0 h1
  have hd := dom_range h0 h1
  simp only [dateOf]
  generalize hdoy : doyOf (doeOf (n + 719468)) = doy at *
  generalize hy : myOf (n + 719468) = y at *
  have hmp' : mpOf doy = 0 ∨ mpOf doy = 1 ∨ mpOf doy = 2 ∨ mpOf doy = 3 ∨ mpOf doy = 4 ∨ mpOf doy = 5 ∨
    mpOf doy = 6 ∨ mpOf doy = 7 ∨ mpOf doy = 8 ∨ mpOf doy = 9 ∨ mpOf doy = 10 ∨ mpOf doy = 11 := by omega
  have hdom : domOf doy = doy - (153 * mpOf doy + 2) / 5 + 1 := rfl
  have hmpd : mpOf doy = (5 * doy + 2) / 153 := rfl
  generalize domOf doy = dom at *
  generalize mpOf doy = mp at *
  have key : ∀ (mm : Nat) (yy : Int), monOf mp = mm → yy = y + (if monOf mp ≤ 2 then 1 else 0) →
      (1 ≤ mm ∧ mm ≤ 12 ∧ dom.toNat ≤ monthLength yy mm) ∧ dayNum yy mm dom.toNat = n →
      (Date.Valid ⟨y + (if monOf mp ≤ 2 then 1 else 0), (monOf mp).toNat, dom.toNat⟩ ∧
      dayNum (y + (if monOf mp ≤ 2 then 1 else 0)) (monOf mp).toNat dom.toNat = n) := by
    intro mm yy hm hyy ⟨⟨p1, p2, p3⟩, p4⟩
    rw [← hyy, hm]
    simp only [Int.toNat_natCast]
    exact ⟨⟨p1, p2, by simp; omega, p3⟩, p4⟩
  rcases hmp' with h | h | h | h | h | h | h | h | h | h | h | h <;> rw [h] at hdom hmpd <;> subst h
  · refine key 3 y rfl (by simp [monOf]) ⟨⟨by omega, by omega, by simp [monthLength]; omega⟩, ?_⟩
    simp [dayNum, marchYear, marchMonth]; omega
  · refine key 4 y rfl (by simp [monOf]) ⟨⟨by omega, by omega, by simp [monthLength]; omega⟩, ?_⟩
    simp [dayNum, marchYear, marchMonth]; omega
  · refine key 5 y rfl (by simp [monOf]) ⟨⟨by omega, by omega, by simp [monthLength]; omega⟩, ?_⟩
    simp [dayNum, marchYear, marchMonth]; omega
  · refine key 6 y rfl (by simp [monOf]) ⟨⟨by omega, by omega, by simp [monthLength]; omega⟩, ?_⟩
    simp [dayNum, marchYear, marchMonth]; omega
  · refine key 7 y rfl (by simp [monOf]) ⟨⟨by omega, by omega, by simp [monthLength]; omega⟩, ?_⟩
    simp [dayNum, marchYear, marchMonth]; omega
  · refine key 8 y rfl (by simp [monOf]) ⟨⟨by omega, by omega, by simp [monthLength]; omega⟩, ?_⟩
    simp [dayNum, marchYear, marchMonth]; omega
  · refine key 9 y rfl (by simp [monOf]) ⟨⟨by omega, by omega, by simp [monthLength]; omega⟩, ?_⟩
    simp [dayNum, marchYear, marchMonth]; omega
  · refine key 10 y rfl (by simp [monOf]) ⟨⟨by omega, by omega, by simp [monthLength]; omega⟩, ?_⟩
    simp [dayNum, marchYear, marchMonth]; omega
  · refine key 11 y rfl (by simp [monOf]) ⟨⟨by omega, by omega, by simp [monthLength]; omega⟩, ?_⟩
    simp [dayNum, marchYear, marchMonth]; omega
  · refine key 12 y rfl (by simp [monOf]) ⟨⟨by omega, by omega, by simp [monthLength]; omega⟩, ?_⟩
    simp [dayNum, marchYear, marchMonth]; omega
  · refine key 1 (y + 1) rfl (by simp [monOf]) ⟨⟨by omega, by omega, by simp [monthLength]; omega⟩, ?_⟩
    simp [dayNum, marchYear, marchMonth]; omega
  · refine key 2 (y + 1) rfl (by simp [monOf]) ⟨⟨by omega, by omega, ?_⟩, ?_⟩
    · by_cases hl : Leap (y + 1)
      · simp [monthLength, hl]; omega
      · have : doy ≠ 365 := fun h => hl (h2 h)
        simp [monthLength, hl]; omega
    · simp [dayNum, marchYear, marchMonth]; omega

/-! ### Counting day by day -/

theorem dayOf_sound {n : Int} {x : Date} (h : DayOf n x) :
    x.Valid ∧ dayNum x.year x.month x.day = n := by
  induction h with
  | epoch => exact ⟨by decide, by decide⟩
  | next _ ih => exact ⟨next_valid ih.1, by rw [dayNum_next ih.1, ih.2]⟩
  | prev hv _ ih =>
    refine ⟨hv, ?_⟩
    have := dayNum_next hv
    rw [ih.2] at this
    omega

theorem dateOf_dayNum {x : Date} (h : x.Valid) : dateOf (dayNum x.year x.month x.day) = x :=
  dayNum_inj (dateOf_spec _).1 h (dateOf_spec _).2

theorem dateOf_next (n : Int) : (dateOf n).next = dateOf (n + 1) := by
  have h := dateOf_spec n
  have := dateOf_dayNum (next_valid h.1)
  rw [dayNum_next h.1, h.2] at this
  exact this.symm

theorem dayOf_dateOf_nat (k : Nat) : DayOf k (dateOf k) ∧ DayOf (-(k : Int)) (dateOf (-(k : Int))) := by
  induction k with
  | zero =>
    have : dateOf 0 = ⟨1970, 1, 1⟩ := by decide
    change DayOf 0 (dateOf 0) ∧ DayOf 0 (dateOf 0)
    exact ⟨by rw [this]; exact .epoch, by rw [this]; exact .epoch⟩
  | succ k ih =>
    constructor
    · have := DayOf.next ih.1
      rw [dateOf_next] at this
      simpa using this
    · have hv := (dateOf_spec (-(k : Int) - 1)).1
      have hn := dateOf_next (-(k : Int) - 1)
      rw [Int.sub_add_cancel] at hn
      have := DayOf.prev hv (by rw [hn]; exact ih.2)
      have e : (-(k : Int) - 1) = -((k + 1 : Nat) : Int) := by omega
      rw [e] at this
      exact this

theorem dayOf_dateOf (n : Int) : DayOf n (dateOf n) := by
  rcases Int.le_total 0 n with h | h
  · have := (dayOf_dateOf_nat n.toNat).1
    rwa [Int.toNat_of_nonneg h] at this
  · have := (dayOf_dateOf_nat (-n).toNat).2
    rw [Int.toNat_of_nonneg (by omega)] at this
    simpa using this

theorem dayOf_iff {n : Int} {x : Date} :
    DayOf n x ↔ x.Valid ∧ dayNum x.year x.month x.day = n := by
  constructor
  · exact dayOf_sound
  · intro ⟨h1, h2⟩
    have := dateOf_dayNum h1
    rw [h2] at this
    rw [← this]
    exact dayOf_dateOf n

theorem dayOf_eq {n : Int} {x : Date} (h : DayOf n x) : x = dateOf n := by
  obtain ⟨h1, h2⟩ := dayOf_iff.mp h
  rw [← h2, dateOf_dayNum h1]

end Gul14.Date.Calc
