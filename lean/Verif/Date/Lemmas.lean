import Verif.Date.Model
import Verif.Date.Calc

/-! # The model computes the arithmetic of `Calc` -/
namespace Gul14.Date
open Gul14.Spec.Calendar

theorem int_ok {x : Int} (h1 : -2147483648 ≤ x) (h2 : x ≤ 2147483647) : int x = .ok x := by
  simp [int, h1, h2]

theorem longDiv_eq (x : Int) {n : Int} (hn : 0 < n) : longDiv x n = x / n := by
  unfold longDiv
  split
  · rename_i h; exact Int.tdiv_eq_ediv_of_nonneg h
  · rename_i h
    have e : x - (n - 1) = -(n - 1 - x) := by omega
    rw [e, Int.neg_tdiv, Int.tdiv_eq_ediv_of_nonneg (by omega)]
    generalize hq : (n - 1 - x) / n = q
    have h1 : n * q ≤ n - 1 - x := by rw [← hq]; exact Int.mul_ediv_self_le (by omega)
    have h2 : n - 1 - x < n * q + n := by
      have := Int.lt_mul_ediv_self_add (x := n - 1 - x) hn
      rwa [hq] at this
    have : x / n = -q ∧ x % n = x + n * q := by
      rw [Int.ediv_emod_unique hn, Int.mul_neg]; omega
    exact this.1.symm

theorem intDiv_eq {x n : Int} (hn : 0 < n) (h : -2147483648 ≤ x - (n - 1)) (h' : x ≤ 2147483647) :
    intDiv x n = .ok (x / n) := by
  have e := longDiv_eq x hn
  unfold longDiv at e
  unfold intDiv
  split
  · rename_i hx; rw [if_pos hx] at e; simp [e]
  · rename_i hx; rw [if_neg hx] at e
    rw [int_ok h (by omega)]; simp [e]

theorem val_range (x : UInt8) : 0 ≤ val x ∧ val x ≤ 255 := by
  have := x.toNat_lt; unfold val; omega

theorem year_range (y : Int16) : -32768 ≤ y.toInt ∧ y.toInt ≤ 32767 := by
  have h1 := y.le_toInt; have h2 := y.toInt_lt; constructor <;> omega

theorem u8_le2 (m : UInt8) : m ≤ 2 ↔ val m ≤ 2 := by
  rw [UInt8.le_iff_toNat_le]; unfold val
  have : (2 : UInt8).toNat = 2 := rfl
  omega

/-- to_days never overflows and computes the day number, whatever the fields are. -/
theorem toDays_eq (x : YMD) : x.toDays = .ok (Calc.dayNum x.y.toInt (val x.m) (val x.d)) := by
  obtain ⟨y, m, d⟩ := x
  have hy := year_range y
  have hm := val_range m
  have hd := val_range d
  simp only [YMD.toDays, u8_le2]
  generalize y.toInt = y at *
  generalize val m = m at *
  generalize val d = d at *
  have e0 : y - (if m ≤ 2 then 1 else 0) = Calc.marchYear y m := rfl
  have e1 : (if m > 2 then m - 3 else m + 9) = Calc.marchMonth m := rfl
  have r0 : -32769 ≤ Calc.marchYear y m ∧ Calc.marchYear y m ≤ 32767 := by
    rw [← e0]; split <;> omega
  have r1 : 0 ≤ Calc.marchMonth m ∧ Calc.marchMonth m ≤ 252 := by rw [← e1]; split <;> omega
  rw [e0, e1, int_ok (by omega) (by omega)]
  simp only [Res.ok_bind]
  rw [intDiv_eq (by omega) (by omega) (by omega)]
  simp only [Res.ok_bind, Calc.dayNum, Calc.fy_split]
  generalize Calc.marchYear y m = y' at *
  generalize Calc.marchMonth m = m' at *
  have u1 : uns (y' - y' / 400 * 400) = y' - y' / 400 * 400 := by unfold uns; omega
  have u2 : uns (153 * m' + 2) = 153 * m' + 2 := by unfold uns; omega
  rw [u1, u2]
  generalize hyoe : y' - y' / 400 * 400 = yoe
  have r2 : 0 ≤ yoe ∧ yoe ≤ 399 := by omega
  have r3 : -82 ≤ y' / 400 ∧ y' / 400 ≤ 81 := by omega
  generalize y' / 400 = era at *
  have u3 : asInt (uns (yoe * 365 + yoe / 4 - yoe / 100 + uns ((153 * m' + 2) / 5 + d - 1)))
      = yoe * 365 + yoe / 4 - yoe / 100 + ((153 * m' + 2) / 5 + d - 1) := by
    unfold asInt uns; split <;> omega
  rw [u3, int_ok (by omega) (by omega)]
  simp only [Res.ok_bind]
  rw [int_ok (by omega) (by omega)]
  simp only [Res.ok_bind]
  rw [int_ok (by omega) (by omega)]
  congr 1; omega

/-- The fields of a date as the code stores them. -/
def ofDate (x : Date) : YMD := ⟨Int16.ofInt x.year, UInt8.ofNat x.month, UInt8.ofNat x.day⟩

theorem asUchar_eq {x : Int} (h0 : 0 ≤ x) (h1 : x < 256) : asUchar x = UInt8.ofNat x.toNat := by
  unfold asUchar; congr 1; omega

theorem fromDays_eq {n : Int} (h1 : -2147483648 ≤ n + 573372) (h2 : n + 719468 ≤ 2147483647) :
    fromDays n = .ok (ofDate (Calc.dateOf n)) := by
  unfold fromDays
  rw [int_ok (by omega) h2]
  simp only [Res.ok_bind]
  rw [intDiv_eq (by omega) (by omega) (by omega)]
  simp only [Res.ok_bind, ofDate, Calc.dateOf]
  have hr := Calc.doe_range (n + 719468)
  have hdoe : uns (n + 719468 - (n + 719468) / 146097 * 146097) = Calc.doeOf (n + 719468) := by
    unfold uns Calc.doeOf Calc.eraOf; omega
  rw [hdoe]
  have hera : (n + 719468) / 146097 = Calc.eraOf (n + 719468) := rfl
  have her : -20000 ≤ Calc.eraOf (n + 719468) ∧ Calc.eraOf (n + 719468) ≤ 20000 := by
    unfold Calc.eraOf; omega
  rw [hera]
  have hyoe := Calc.yoe_ok _ hr.1 hr.2
  simp only at hyoe
  have hdoy := Calc.doy_range (n + 719468)
  have hyoe' : uns (Calc.doeOf (n + 719468) - Calc.doeOf (n + 719468) / 1460
      + Calc.doeOf (n + 719468) / 36524 - Calc.doeOf (n + 719468) / 146096) / 365
      = Calc.yoeOf (Calc.doeOf (n + 719468)) := by
    unfold uns Calc.yoeOf; omega
  rw [hyoe']
  change 0 ≤ Calc.yoeOf (Calc.doeOf (n + 719468)) ∧ Calc.yoeOf (Calc.doeOf (n + 719468)) ≤ 399 ∧ _ at hyoe
  have hmy : Calc.myOf (n + 719468) =
    Calc.yoeOf (Calc.doeOf (n + 719468)) + Calc.eraOf (n + 719468) * 400 := rfl
  have hdoy' : uns (Calc.doeOf (n + 719468) - (365 * Calc.yoeOf (Calc.doeOf (n + 719468)) +
      Calc.yoeOf (Calc.doeOf (n + 719468)) / 4 - Calc.yoeOf (Calc.doeOf (n + 719468)) / 100))
      = Calc.doyOf (Calc.doeOf (n + 719468)) := by
    have : Calc.doyOf (Calc.doeOf (n + 719468)) = Calc.doeOf (n + 719468) -
      (365 * Calc.yoeOf (Calc.doeOf (n + 719468)) +
      Calc.yoeOf (Calc.doeOf (n + 719468)) / 4 - Calc.yoeOf (Calc.doeOf (n + 719468)) / 100) := rfl
    rw [← this]; unfold uns; omega
  rw [hdoy', ← hmy]
  rw [int_ok (by omega) (by omega)]
  simp only [Res.ok_bind]
  have hmp := Calc.mp_range hdoy.1 hdoy.2.1
  have hdom := Calc.dom_range hdoy.1 hdoy.2.1
  have hmp' : uns (5 * Calc.doyOf (Calc.doeOf (n + 719468)) + 2) / 153
      = Calc.mpOf (Calc.doyOf (Calc.doeOf (n + 719468))) := by
    unfold uns Calc.mpOf; omega
  rw [hmp']
  have hdom' : uns (Calc.doyOf (Calc.doeOf (n + 719468)) -
      uns (153 * Calc.mpOf (Calc.doyOf (Calc.doeOf (n + 719468))) + 2) / 5 + 1)
      = Calc.domOf (Calc.doyOf (Calc.doeOf (n + 719468))) := by
    have : Calc.domOf (Calc.doyOf (Calc.doeOf (n + 719468))) = Calc.doyOf (Calc.doeOf (n + 719468)) -
      (153 * Calc.mpOf (Calc.doyOf (Calc.doeOf (n + 719468))) + 2) / 5 + 1 := rfl
    have u : uns (153 * Calc.mpOf (Calc.doyOf (Calc.doeOf (n + 719468))) + 2)
      = 153 * Calc.mpOf (Calc.doyOf (Calc.doeOf (n + 719468))) + 2 := by unfold uns; omega
    rw [u, ← this]; unfold uns; omega
  rw [hdom']
  have hmon : (if Calc.mpOf (Calc.doyOf (Calc.doeOf (n + 719468))) < 10 then
      Calc.mpOf (Calc.doyOf (Calc.doeOf (n + 719468))) + 3 else
      Calc.mpOf (Calc.doyOf (Calc.doeOf (n + 719468))) - 9)
      = Calc.monOf (Calc.mpOf (Calc.doyOf (Calc.doeOf (n + 719468)))) := rfl
  rw [hmon]
  have hmr : 1 ≤ Calc.monOf (Calc.mpOf (Calc.doyOf (Calc.doeOf (n + 719468)))) ∧
      Calc.monOf (Calc.mpOf (Calc.doyOf (Calc.doeOf (n + 719468)))) ≤ 12 := by
    unfold Calc.monOf; split <;> omega
  rw [int_ok (by split <;> omega) (by split <;> omega)]
  simp only [Res.ok_bind, Res.pure_eq, year]
  rw [asUchar_eq (by omega) (by omega), asUchar_eq (by omega) (by omega)]

theorem fromDays_ub {n : Int} (h1 : -2147483648 ≤ n) (h2 : n ≤ 2147483647)
    (h : n + 573372 < -2147483648 ∨ 2147483647 < n + 719468) : fromDays n = .ub := by
  unfold fromDays
  rcases h with h | h
  · rw [int_ok (by omega) (by omega)]
    simp only [Res.ok_bind, intDiv]
    rw [if_neg (by omega)]
    simp [int]
    split
    · omega
    · rfl
  · simp [int]
    split
    · omega
    · rfl

end Gul14.Date
