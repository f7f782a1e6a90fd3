import Verif.Date.Format

/-! # Lemmas on format -/
namespace Gul14.Date
open Gul14.Spec.Calendar Gul14.Spec.DateText Gul14.Spec.DateFormat

/-! ### The loop over the format -/

/-- One item of the format. -/
def emit (e : FmtEnv) (v : FmtVars) : Item → Piece
  | .lit c => pure ([c], v)
  | .conv md c =>
    if c ∈ convChars then conv e c md v
    else if md = none ∧ c = '%' then pure (['%'], v)
    else pure (raw md c, v)

def emitAll (e : FmtEnv) (v : FmtVars) : List Item → Res (List Char)
  | [] => pure []
  | i :: is => do
    let (t, v) ← emit e v i
    let r ← emitAll e v is
    pure (t ++ r)

def finish (s : FmtState) : List Char := s.out ++ ((if s.command then ['%'] else []) ++ s.modified.toList)

theorem loop_items (e : FmtEnv) (fmt : List Char) : ∀ (out : List Char) (v : FmtVars),
    (do let s ← fmtLoop e ⟨out, false, none, v⟩ fmt; pure (finish s)) =
      (do let t ← emitAll e v (items fmt); pure (out ++ t) : Res (List Char)) := by
  have hE : 'E' ∉ convChars := by decide
  have hO : 'O' ∉ convChars := by decide
  have hP : '%' ∉ convChars := by decide
  induction fmt using items.induct with
  | case1 => intro out v; simp [fmtLoop, items, emitAll, finish]
  | case2 => intro out v; simp [fmtLoop, fmtStep, hP, items, emitAll, emit, finish]
  | case3 c h =>
    intro out v
    have hc : c ∉ convChars := by rcases h with rfl | rfl <;> assumption
    simp [fmtLoop, fmtStep, hP, items, emitAll, emit, finish, h, hc]
  | case4 c h =>
    intro out v
    simp only [fmtLoop, fmtStep, hP, items, emitAll, emit, if_neg h, if_false]
    by_cases hc : c ∈ convChars
    · simp only [hc, if_true, Res.pure_eq, Res.ok_bind, Bool.false_eq_true, if_false, or_false, false_or,
        reduceCtorEq]
      simp
      cases conv e c none v <;> simp [finish]
    · by_cases hp : c = '%'
      · subst hp; simp [finish, hP]
      · simp [hc, h, hp, finish, raw]
  | case5 c d r h ih =>
    intro out v
    have hc : c ∉ convChars := by rcases h with rfl | rfl <;> assumption
    rw [items, if_pos h]
    simp only [fmtLoop, fmtStep, hP, if_false, hc, h, if_true, Res.pure_eq, Res.ok_bind, emitAll, emit,
      Bool.false_eq_true]
    by_cases hd : d ∈ convChars
    · simp only [hd, if_true]
      simp
      cases conv e d (some c) v with
      | ok x =>
        obtain ⟨t, v'⟩ := x
        simp only [Res.ok_bind]
        have := ih (out ++ t) v'
        simp only [Res.pure_eq] at this
        rw [this]
        cases emitAll e v' (items r) <;> simp
      | _ => simp
    · by_cases hEO : d = 'E' ∨ d = 'O'
      · have := ih (out ++ raw (some c) d) v
        simp only [Res.pure_eq] at this
        simp [hd, hEO]
        rw [this]
        cases emitAll e v (items r) <;> simp
      · by_cases hp : d = '%'
        · subst hp
          have := ih (out ++ raw (some c) '%') v
          simp only [Res.pure_eq] at this
          simp [hP]
          rw [this]
          cases emitAll e v (items r) <;> simp
        · have := ih (out ++ raw (some c) d) v
          simp only [Res.pure_eq] at this
          simp [hd, hEO, hp]
          simp only [raw, Option.toList_some, List.cons_append, List.nil_append] at this ⊢
          rw [this]
          cases emitAll e v (items r) <;> simp
  | case6 c d r h ih =>
    intro out v
    rw [items, if_neg h]
    rw [fmtLoop]
    simp only [fmtStep, hP, if_false, Res.pure_eq, Res.ok_bind, emitAll, emit, Bool.false_eq_true]
    simp only [show ¬ ('%' = 'E' ∨ '%' = 'O') by decide, if_false, if_true, Res.ok_bind]
    rw [fmtLoop]
    simp only [fmtStep, h, if_false, if_true]
    by_cases hc : c ∈ convChars
    · simp only [hc, if_true]
      cases conv e c none v with
      | ok x =>
        obtain ⟨t, v'⟩ := x
        simp only [Res.ok_bind, Res.pure_eq]
        have := ih (out ++ t) v'
        simp only [Res.pure_eq] at this
        rw [this]
        cases emitAll e v' (items (d :: r)) <;> simp
      | _ => simp
    · by_cases hp : c = '%'
      · subst hp
        have := ih (out ++ ['%']) v
        simp only [Res.pure_eq] at this
        simp [hP]
        rw [this]
        cases emitAll e v (items (d :: r)) <;> simp
      · have := ih (out ++ raw none c) v
        simp only [Res.pure_eq] at this
        simp [hc, hp]
        simp only [raw, Option.toList_none, List.nil_append, List.singleton_append] at this ⊢
        rw [this]
        cases emitAll e v (items (d :: r)) <;> simp
  | case7 c r h1 h2 h3 ih =>
    intro out v
    have hp : c ≠ '%' := by
      rintro rfl
      cases r with
      | nil => exact h1 rfl rfl
      | cons d r =>
        cases r with
        | nil => exact h2 d rfl rfl
        | cons d' r => exact h3 d d' r rfl rfl
    have hi : items (c :: r) = .lit c :: items r := by
      cases r with
      | nil => simp [items, hp]
      | cons d r => cases r <;> simp [items, hp]
    rw [hi, fmtLoop]
    have hs : fmtStep e ⟨out, false, none, v⟩ c = .ok ⟨out ++ [c], false, none, v⟩ := by
      unfold fmtStep
      simp only [hp, if_false, Bool.false_eq_true]
      split
      · rfl
      · split
        · rfl
        · simp
    rw [hs]
    simp only [Res.ok_bind, emitAll, emit, Res.pure_eq]
    have := ih (out ++ [c]) v
    simp only [Res.pure_eq] at this
    rw [this]
    cases emitAll e v (items r) <;> simp

theorem toStream_items (e : FmtEnv) (fmt : List Char) :
    toStream e fmt = emitAll e ⟨{}, e.fds.hasTod && decide (e.fds.tod.toDuration e.T < 0)⟩ (items fmt) := by
  have := loop_items e fmt [] ⟨{}, e.fds.hasTod && decide (e.fds.tod.toDuration e.T < 0)⟩
  change (do let s ← fmtLoop e ⟨[], false, none, ⟨{}, _⟩⟩ fmt; pure (finish s)) = _
  rw [this]
  cases emitAll e ⟨{}, e.fds.hasTod && decide (e.fds.tod.toDuration e.T < 0)⟩ (items fmt) <;> simp

/-! ### Decimal numbers -/

theorem value_lt (s : List Char) (h : s.all isDigit = true) : value s < 10 ^ s.length := by
  have key : ∀ (s : List Char) (a : Nat), s.all isDigit = true →
      s.foldl (fun a c => 10 * a + (c.toNat - 48)) a < (a + 1) * 10 ^ s.length := by
    intro s
    induction s with
    | nil => intro a _; simp
    | cons c s ih =>
      intro a h
      rw [List.all_cons, Bool.and_eq_true] at h
      have h2 : c.toNat ≤ 57 := by
        have := h.1
        simp [isDigit] at this
        exact this.2
      have h1 := ih (10 * a + (c.toNat - 48)) h.2
      rw [List.foldl_cons, List.length_cons]
      refine Nat.lt_of_lt_of_le h1 ?_
      rw [Nat.pow_succ', ← Nat.mul_assoc]
      exact Nat.mul_le_mul_right _ (by omega)
  have := key s 0 h
  simpa [value] using this

theorem pad_min {k : Nat} (hk : 0 < k) (n : Nat) : ∃ j, k ≤ j ∧ Digits j n (pad k (dec n)) ∧
    (k < j → (pad k (dec n)).head? ≠ some '0') := by
  obtain ⟨a, b, c, d⟩ := dec_spec n
  rcases Nat.lt_or_ge k (dec n).length with h | h
  · have e : pad k (dec n) = dec n := by simp [pad, show k - (dec n).length = 0 by omega]
    refine ⟨(dec n).length, by omega, ?_, ?_⟩
    · rw [e]; exact ⟨rfl, b, c⟩
    · intro _ h0
      rw [e] at h0
      rw [d h0] at h
      simp at h
      omega
  · refine ⟨k, Nat.le_refl _, ⟨by simp [pad]; omega, ?_, by rw [pad, value_zeros, c]⟩, by omega⟩
    unfold pad
    rw [List.all_append, b, Bool.and_true]
    simp only [List.all_replicate]
    split <;> first | rfl | decide

theorem two_eq {n : Int} (h0 : 0 ≤ n) : two n = pad 2 (dec n.toNat) := by
  unfold two pad
  rw [decInt_nonneg h0]
  congr 1
  have hne := List.length_pos_iff.mpr (dec_spec n.toNat).1
  split
  · have h1 := dec_length (w := 1) (n := n.toNat) (by omega) (by omega)
    have : (dec n.toNat).length = 1 := by omega
    rw [this]; rfl
  · have : 2 ≤ (dec n.toNat).length := by
      rcases Nat.lt_or_ge (dec n.toNat).length 2 with h | h
      · exfalso
        obtain ⟨a, b, c, -⟩ := dec_spec n.toNat
        cases hd : dec n.toNat with
        | nil => exact a hd
        | cons x xs =>
          cases xs with
          | cons _ _ => rw [hd] at h; simp at h; omega
          | nil =>
            rw [hd] at c b
            simp [value] at c
            simp [isDigit] at b
            have : x.toNat ≤ 57 := b.2
            omega
      · exact h
    rw [show 2 - (dec n.toNat).length = 0 by omega]; rfl

theorem two_digits' {n : Int} (h0 : 0 ≤ n) (h1 : n < 100) : Digits 2 n.toNat (two n) := by
  rw [two_eq h0]; exact pad_spec (by omega) (by omega)

theorem two_atLeast {n : Int} (h0 : 0 ≤ n) : AtLeast 2 n (two n) := by
  obtain ⟨j, h1, h2, h3⟩ := pad_min (k := 2) (by omega) n.toNat
  refine ⟨_, j, h1, ?_, h3, ?_⟩
  · rw [show n.natAbs = n.toNat by omega]; exact h2
  · rw [if_neg (by omega), two_eq h0]

theorem pad_atLeast {k : Nat} (hk : 0 < k) {n : Int} (h0 : 0 ≤ n) : AtLeast k n (pad k (decInt n)) := by
  obtain ⟨j, h1, h2, h3⟩ := pad_min hk n.toNat
  refine ⟨_, j, h1, ?_, h3, ?_⟩
  · rw [show n.natAbs = n.toNat by omega]; exact h2
  · rw [if_neg (by omega), decInt_nonneg h0]

theorem yearText_spec (y : Int16) (h : yearOk y = true) : YearText y.toInt (yearText y) := by
  obtain ⟨j, h1, h2, h3⟩ := pad_min (k := 4) (by omega) y.toInt.natAbs
  exact ⟨_, j, h1, h2, h3, by simp [yearText, h]⟩

theorem dec_one {n : Nat} (h : n < 10) : Digits 1 n (dec n) := by
  obtain ⟨a, b, c, d⟩ := dec_spec n
  have h1 := dec_length (w := 1) (n := n) (by omega) (by omega)
  have h2 := List.length_pos_iff.mpr a
  exact ⟨by omega, b, c⟩

theorem pad2_int {n : Int} (h0 : 0 ≤ n) (h1 : n < 100) : Digits 2 n.toNat (pad 2 (decInt n)) := by
  rw [decInt_nonneg h0]; exact pad_spec (by omega) (by omega)

theorem pad3_int {n : Int} (h0 : 0 ≤ n) (h1 : n < 1000) : Digits 3 n.toNat (pad 3 (decInt n)) := by
  rw [decInt_nonneg h0]; exact pad_spec (by omega) (by omega)

/-! ### Years and weeks -/

theorem newYear_iff {y n : Int} : NewYear y n ↔ n = Calc.dayNum y 1 1 := by
  unfold NewYear
  rw [Calc.dayOf_iff]
  constructor
  · rintro ⟨-, h⟩; exact h.symm
  · rintro rfl
    have := monthLength_range y 1
    exact ⟨⟨by simp, by simp, by simp, by simp only; omega⟩, rfl⟩

theorem newYear (y : Int) : NewYear y (Calc.dayNum y 1 1) := newYear_iff.mpr rfl

/-- A year has 365 or 366 days. -/
theorem year_length (y : Int) : Calc.dayNum y 1 1 + 365 ≤ Calc.dayNum (y + 1) 1 1 ∧
    Calc.dayNum (y + 1) 1 1 ≤ Calc.dayNum y 1 1 + 366 := by
  have hs := Calc.fy_succ (y - 1)
  rw [Int.sub_add_cancel] at hs
  have e : y + 1 - 1 = y := by omega
  simp only [Calc.dayNum, Calc.marchYear, Calc.marchMonth]
  simp only [show ((1 : Int) ≤ 2) by omega, if_true, e]
  simp
  split at hs <;> omega

theorem year_bounds {n : Int} {d : Date} (h : DayOf n d) :
    Calc.dayNum d.year 1 1 ≤ n ∧ n < Calc.dayNum (d.year + 1) 1 1 := by
  obtain ⟨⟨h1, h2, h3, h4⟩, h5⟩ := Calc.dayOf_iff.mp h
  have a := Calc.first_le d.year h1 h2
  have b := Calc.lt_next_year d.year h1 h2
  rw [Calc.dayNum_day] at h5
  omega

theorem year_unique {n y : Int} (h1 : Calc.dayNum y 1 1 ≤ n) (h2 : n < Calc.dayNum (y + 1) 1 1) :
    (Calc.dateOf n).year = y := by
  have hb := year_bounds (Calc.dayOf_dateOf n)
  have mono : ∀ a b : Int, a < b → Calc.dayNum (a + 1) 1 1 ≤ Calc.dayNum b 1 1 := by
    intro a b hab
    have := Calc.first_mono (a + 1) (b - (a + 1)).toNat
    rw [Int.toNat_of_nonneg (by omega)] at this
    rwa [show a + 1 + (b - (a + 1)) = b by omega] at this
  rcases Int.lt_trichotomy (Calc.dateOf n).year y with h | h | h
  · have := mono _ _ h; omega
  · exact h
  · have := mono _ _ h; omega

theorem count_range (wd : Nat) (hw : wd < 7) (a : Int) (k : Nat) :
    (((List.range k).filter fun (i : Nat) => dayOfWeek (a + i) = wd).length : Int)
      = (k + 6 - ((wd : Int) - (4 + a)) % 7) / 7 := by
  induction k with
  | zero => simp; omega
  | succ k ih =>
    rw [List.range_succ, List.filter_append, List.length_append]
    have hv := dow_val (a + k)
    by_cases h : dayOfWeek (a + k) = wd
    · simp [h]; omega
    · simp [h]; omega

/-- Days of one weekday in a range: from the first one in steps of seven days. -/
theorem countWeekday_eq {wd : Nat} (hw : wd < 7) {a b : Int} (h : a ≤ b + 1) :
    (countWeekday wd a b : Int) = (b + 1 - a + 6 - ((wd : Int) - (4 + a)) % 7) / 7 := by
  unfold countWeekday
  rw [count_range wd hw]
  rw [Int.toNat_of_nonneg (by omega)]

theorem yearPlus_toInt {y : Int16} {n : Int} (h1 : -32768 ≤ y.toInt + n) (h2 : y.toInt + n ≤ 32767) :
    yearPlus y n = .ok (year (y.toInt + n)) := by
  unfold yearPlus
  rw [int_ok (by omega) (by omega)]; rfl

/-- The Monday of the week with the fourth of January. -/
theorem isoStart_eq (y : Int16) (h : -32767 ≤ y.toInt) : ∃ st, isoStart y = .ok st ∧
    st % 7 = 4 ∧ Calc.dayNum y.toInt 1 1 - 3 ≤ st ∧ st ≤ Calc.dayNum y.toInt 1 1 + 3 := by
  have hy := year_range y
  have hr := dayNum_range y 1 1
  rw [show val 1 = 1 from rfl] at hr
  unfold isoStart
  rw [yearPlus_toInt (by omega) (by omega)]
  simp only [Res.ok_bind, ymwdLastToDays, toDays_eq]
  have ey : (year (y.toInt + -1)).toInt = y.toInt - 1 := year_toInt (by omega) (by omega)
  have hl : lastDay (year (y.toInt + -1)) 12 = 31 := by
    unfold lastDay
    rw [if_pos ⟨Or.inl (by decide), by decide⟩]; rfl
  have e1 : Calc.dayNum (year (y.toInt + -1)).toInt (val (ymdLast (year (y.toInt + -1)) 12).m)
      (val (ymdLast (year (y.toInt + -1)) 12).d) = Calc.dayNum y.toInt 1 1 - 1 := by
    simp only [ymdLast, hl, ey]
    have := Calc.dayNum_year (y.toInt - 1)
    rw [Int.sub_add_cancel] at this
    rw [this, Calc.dayNum_day]
    simp [val, monthLength]
    omega
  have e2 : (ymdLast (year (y.toInt + -1)) 12).y = year (y.toInt + -1) := rfl
  rw [e2, e1]
  have hw := c73_weekday (z := Calc.dayNum y.toInt 1 1 - 1) (by omega) (by omega)
  have hv := dow_val (Calc.dayNum y.toInt 1 1 - 1)
  have hm := weekdayMinus_eq (weekday (Calc.dayNum y.toInt 1 1 - 1)) 4
  rw [hw, show (4 : UInt8).toNat = 4 from rfl] at hm
  have hm2 : weekdayMinus 1 4 = 4 := by decide
  rw [hm, hm2]
  rw [int_ok (by omega) (by omega)]
  simp only [Res.ok_bind]
  rw [int_ok (by omega) (by omega)]
  exact ⟨_, rfl, by omega, by omega, by omega⟩

end Gul14.Date
