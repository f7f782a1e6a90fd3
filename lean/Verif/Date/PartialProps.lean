import Verif.Date.Partial
import Verif.Date.Nth
import Verif.Text.Lemmas

/-!
# C98: partial dates, the division syntax, comparisons and increments
-/
namespace Gul14.Spec.Written
open Gul14.Date

/-- How the day of a date is said. -/
inductive DayPart where
  /-- the day of the month with this number -/
  | day (n : Nat)
  /-- the last day of the month -/
  | last
  /-- the `k`-th weekday `wd` -/
  | nth (wd k : Nat)
  /-- the last weekday `wd` -/
  | lastNth (wd : Nat)
  deriving DecidableEq

/-- A date as it is written down. -/
structure Full where
  year : Int
  month : Nat
  part : DayPart
  deriving DecidableEq

/-- What a value of one of the four classes of complete dates says.  The other values are not complete
dates. -/
def full : Obj → Option Full
  | .ymd y m d => some ⟨y.toInt, m.toNat, .day d.toNat⟩
  | .yml y m => some ⟨y.toInt, m.toNat, .last⟩
  | .ymw y m x => some ⟨y.toInt, m.toNat, .nth x.weekday.toNat x.idx.toNat⟩
  | .ymwl y m w => some ⟨y.toInt, m.toNat, .lastNth w.toNat⟩
  | _ => none

/-- The things one writes between the slashes: numbers, days, months, years, `last`, weekdays with an
index. -/
def Simple : Obj → Prop
  | .int _ | .day _ | .month _ | .year _ | .last | .wi _ | .wl _ => True
  | _ => False

/-- A plain number. -/
def Number : Obj → Prop
  | .int _ => True
  | _ => False

/-- The operand can stand for the year `y`.  A number is a year, reduced to the 16 bits that a year
has. -/
def AsYear : Obj → Int → Prop
  | .year x, y => x.toInt = y
  | .int n, y => -32768 ≤ y ∧ y ≤ 32767 ∧ (65536 : Int) ∣ n - y
  | _, _ => False

/-- The operand can stand for the month `m`.  A number is reduced to eight bits. -/
def AsMonth : Obj → Nat → Prop
  | .month x, m => x.toNat = m
  | .int n, m => (m : Int) = n % 256
  | _, _ => False

/-- The operand can stand for the day. -/
def AsDay : Obj → DayPart → Prop
  | .day d, p => .day d.toNat = p
  | .int n, p => .day (n % 256).toNat = p
  | .last, p => .last = p
  | .wi x, p => .nth x.weekday.toNat x.idx.toNat = p
  | .wl w, p => .lastNth w.toNat = p
  | _, _ => False

/-- `a / b / c` says the date `f`: it is year/month/day, month/day/year or day/month/year, and the
compiler can see from the first operand, or for month/day/year also from the second, that it is not a
quotient of numbers. -/
def Says (a b c : Obj) (f : Full) : Prop :=
  (¬ Number a ∧ AsYear a f.year ∧ AsMonth b f.month ∧ AsDay c f.part) ∨
  ((¬ Number a ∨ ¬ Number b) ∧ AsYear c f.year ∧ AsMonth a f.month ∧ AsDay b f.part) ∨
  (¬ Number a ∧ AsYear c f.year ∧ AsMonth b f.month ∧ AsDay a f.part)

/-- `a / (b / c)` says the date `f`: it is year/(month/day) or year/(day/month). -/
def SaysInner (a b c : Obj) (f : Full) : Prop :=
  AsYear a f.year ∧
  (((¬ Number b ∨ ¬ Number c) ∧ AsMonth b f.month ∧ AsDay c f.part) ∨
   (¬ Number b ∧ AsMonth c f.month ∧ AsDay b f.part))

/-- The six comparison operators are those of a total order whose equality is being the same value. -/
structure TotalOrder {α : Type} (eq ne lt le gt ge : α → α → Bool) : Prop where
  eq_iff : ∀ x y, eq x y = true ↔ x = y
  ne_iff : ∀ x y, ne x y = true ↔ x ≠ y
  irrefl : ∀ x, lt x x = false
  trans : ∀ x y z, lt x y = true → lt y z = true → lt x z = true
  total : ∀ x y, x = y ∨ lt x y = true ∨ lt y x = true
  le_iff : ∀ x y, le x y = true ↔ lt x y = true ∨ x = y
  gt_iff : ∀ x y, gt x y = true ↔ lt y x = true
  ge_iff : ∀ x y, ge x y = true ↔ lt y x = true ∨ x = y

end Gul14.Spec.Written

namespace Gul14.Date
open Gul14.Spec.Calendar Gul14.Spec.Written

theorem dayInt_toNat (n : Int) : (dayInt n).toNat = (n % 256).toNat := by
  unfold dayInt; rw [asUchar_toNat]; unfold uns; omega

theorem monthInt_toNat (n : Int) : (monthInt n).toNat = (n % 256).toNat := dayInt_toNat n

theorem year_eq_iff (n y : Int) : (year n).toInt = y ↔ -32768 ≤ y ∧ y ≤ 32767 ∧ (65536 : Int) ∣ n - y := by
  unfold year
  rw [Int16.toInt_ofInt]
  simp only [Int.bmod, Int16.size]
  split <;> omega

theorem monthInt_eq_iff (n : Int) (m : Nat) : (monthInt n).toNat = m ↔ (m : Int) = n % 256 := by
  rw [monthInt_toNat]; omega

theorem slash_ym (y : Int16) (m : UInt8) (c : Obj) (f : Full) :
    (∃ r, slash (.ym y m) c = some r ∧ full r = some f) ↔
      y.toInt = f.year ∧ m.toNat = f.month ∧ AsDay c f.part := by
  obtain ⟨fy, fm, fp⟩ := f
  cases c <;> simp [slash, full, AsDay, dayInt_toNat]

theorem slash_md (m d : UInt8) (c : Obj) (f : Full) :
    (∃ r, slash (.md m d) c = some r ∧ full r = some f) ↔
      AsYear c f.year ∧ m.toNat = f.month ∧ .day d.toNat = f.part := by
  obtain ⟨fy, fm, fp⟩ := f
  cases c <;> simp [slash, full, AsYear, year_eq_iff, and_assoc]

theorem slash_ml (m : UInt8) (c : Obj) (f : Full) :
    (∃ r, slash (.ml m) c = some r ∧ full r = some f) ↔
      AsYear c f.year ∧ m.toNat = f.month ∧ .last = f.part := by
  obtain ⟨fy, fm, fp⟩ := f
  cases c <;> simp [slash, full, AsYear, year_eq_iff, and_assoc]

theorem slash_mw (m : UInt8) (x : WI) (c : Obj) (f : Full) :
    (∃ r, slash (.mw m x) c = some r ∧ full r = some f) ↔
      AsYear c f.year ∧ m.toNat = f.month ∧ .nth x.weekday.toNat x.idx.toNat = f.part := by
  obtain ⟨fy, fm, fp⟩ := f
  cases c <;> simp [slash, full, AsYear, year_eq_iff, and_assoc]

theorem slash_mwl (m w : UInt8) (c : Obj) (f : Full) :
    (∃ r, slash (.mwl m w) c = some r ∧ full r = some f) ↔
      AsYear c f.year ∧ m.toNat = f.month ∧ .lastNth w.toNat = f.part := by
  obtain ⟨fy, fm, fp⟩ := f
  cases c <;> simp [slash, full, AsYear, year_eq_iff, and_assoc]

/-- A number and a simple operand are no complete date. -/
theorem slash_int (n : Int) (c : Obj) (hc : Simple c) (f : Full) :
    ¬ ∃ r, slash (.int n) c = some r ∧ full r = some f := by
  rintro ⟨r, h, h'⟩
  cases c <;> simp [slash, Simple] at hc h
  all_goals try (subst h; simp [full] at h')
  obtain ⟨-, rfl⟩ := h
  simp [full] at h'

theorem slash_inner_md (a : Obj) (m d : UInt8) (f : Full) :
    (∃ r, slash a (.md m d) = some r ∧ full r = some f) ↔
      AsYear a f.year ∧ m.toNat = f.month ∧ .day d.toNat = f.part := by
  obtain ⟨fy, fm, fp⟩ := f
  cases a <;> simp [slash, full, AsYear, year_eq_iff, and_assoc]

theorem slash_inner_ml (a : Obj) (m : UInt8) (f : Full) :
    (∃ r, slash a (.ml m) = some r ∧ full r = some f) ↔
      AsYear a f.year ∧ m.toNat = f.month ∧ .last = f.part := by
  obtain ⟨fy, fm, fp⟩ := f
  cases a <;> simp [slash, full, AsYear, year_eq_iff, and_assoc]

theorem slash_inner_mw (a : Obj) (m : UInt8) (x : WI) (f : Full) :
    (∃ r, slash a (.mw m x) = some r ∧ full r = some f) ↔
      AsYear a f.year ∧ m.toNat = f.month ∧ .nth x.weekday.toNat x.idx.toNat = f.part := by
  obtain ⟨fy, fm, fp⟩ := f
  cases a <;> simp [slash, full, AsYear, year_eq_iff, and_assoc]

theorem slash_inner_mwl (a : Obj) (m w : UInt8) (f : Full) :
    (∃ r, slash a (.mwl m w) = some r ∧ full r = some f) ↔
      AsYear a f.year ∧ m.toNat = f.month ∧ .lastNth w.toNat = f.part := by
  obtain ⟨fy, fm, fp⟩ := f
  cases a <;> simp [slash, full, AsYear, year_eq_iff, and_assoc]

theorem slash_inner_ym (a : Obj) (y : Int16) (m : UInt8) (f : Full) :
    ¬ ∃ r, slash a (.ym y m) = some r ∧ full r = some f := by
  cases a <;> simp [slash]

theorem slash_inner_int (a : Obj) (ha : Simple a) (n : Int) (f : Full) :
    ¬ ∃ r, slash a (.int n) = some r ∧ full r = some f := by
  cases a <;> simp only [Simple] at ha
  case int k => exact slash_int k (.int n) trivial f
  all_goals simp [slash, full]

/-! ### C98 -/

/-- Which expressions `a / b / c` are complete dates, and which date each one is: every order of writing
gives the same date. -/
theorem c98_order (a b c : Obj) (ha : Simple a) (hb : Simple b) (hc : Simple c) (f : Full) :
    (∃ x r, slash a b = some x ∧ slash x c = some r ∧ full r = some f) ↔ Says a b c f := by
  obtain ⟨Q, hQ⟩ : ∃ Q : Obj → Prop, ∀ x, Q x ↔ ∃ r, slash x c = some r ∧ full r = some f :=
    ⟨_, fun _ => Iff.rfl⟩
  have hex : (∃ x r, slash a b = some x ∧ slash x c = some r ∧ full r = some f) ↔
      ∃ x, slash a b = some x ∧ Q x := by
    simp only [hQ]
    exact ⟨fun ⟨x, r, h, h'⟩ => ⟨x, h, r, h'⟩, fun ⟨x, h, r, h'⟩ => ⟨x, r, h, h'⟩⟩
  rw [hex]
  have q1 := fun y m => (hQ _).trans (slash_ym y m c f)
  have q2 := fun m d => (hQ _).trans (slash_md m d c f)
  have q3 := fun m => (hQ _).trans (slash_ml m c f)
  have q4 := fun m x => (hQ _).trans (slash_mw m x c f)
  have q5 := fun m w => (hQ _).trans (slash_mwl m w c f)
  have q6 : ∀ n, ¬ Q (.int n) := fun n h => slash_int n c hc f ((hQ _).mp h)
  clear hQ hex
  cases a <;> cases b <;> simp only [Simple] at ha hb
  case int.int n m =>
    simp only [slash]
    split <;> simp [q6, Says, Number, AsDay, AsYear, AsMonth]
  all_goals simp [slash, Says, Number, AsYear, AsMonth, AsDay, q1, q2, q3, q4, q5,
    monthInt_eq_iff, dayInt_toNat]

/-- The same for `a / (b / c)`. -/
theorem c98_order_inner (a b c : Obj) (ha : Simple a) (hb : Simple b) (hc : Simple c) (f : Full) :
    (∃ x r, slash b c = some x ∧ slash a x = some r ∧ full r = some f) ↔ SaysInner a b c f := by
  obtain ⟨Q, hQ⟩ : ∃ Q : Obj → Prop, ∀ x, Q x ↔ ∃ r, slash a x = some r ∧ full r = some f :=
    ⟨_, fun _ => Iff.rfl⟩
  have hex : (∃ x r, slash b c = some x ∧ slash a x = some r ∧ full r = some f) ↔
      ∃ x, slash b c = some x ∧ Q x := by
    simp only [hQ]
    exact ⟨fun ⟨x, r, h, h'⟩ => ⟨x, h, r, h'⟩, fun ⟨x, h, r, h'⟩ => ⟨x, r, h, h'⟩⟩
  rw [hex]
  have q1 : ∀ y m, ¬ Q (.ym y m) := fun y m h => slash_inner_ym a y m f ((hQ _).mp h)
  have q2 := fun m d => (hQ _).trans (slash_inner_md a m d f)
  have q3 := fun m => (hQ _).trans (slash_inner_ml a m f)
  have q4 := fun m x => (hQ _).trans (slash_inner_mw a m x f)
  have q5 := fun m w => (hQ _).trans (slash_inner_mwl a m w f)
  have q6 : ∀ n, ¬ Q (.int n) := fun n h => slash_inner_int a ha n f ((hQ _).mp h)
  clear hQ hex
  cases b <;> cases c <;> simp only [Simple] at hb hc
  case int.int n m =>
    simp only [slash]
    split <;> simp [q6, SaysInner, Number, AsDay, AsMonth]
  all_goals simp [slash, SaysInner, Number, AsMonth, AsDay, q1, q2, q3, q4, q5,
    monthInt_eq_iff, dayInt_toNat]

/-- With numbers in range, all the ways to write a date by its numbers give that date. -/
theorem c98_numbers {y m d : Int} (hy : -32768 ≤ y ∧ y ≤ 32767) (hm : 0 ≤ m ∧ m ≤ 255)
    (hd : 0 ≤ d ∧ d ≤ 255) : ∃ r, full r = some ⟨y, m.toNat, .day d.toNat⟩ ∧
    ∀ Y M D : Obj, (Y = .year (year y) ∨ Y = .int y) → (M = .month (monthInt m) ∨ M = .int m) →
      (D = .day (dayInt d) ∨ D = .int d) →
      (¬ Number Y → (slash Y M).bind (slash · D) = some r) ∧
      (¬ Number M ∨ ¬ Number D → (slash M D).bind (slash · Y) = some r) ∧
      (¬ Number D → (slash D M).bind (slash · Y) = some r) ∧
      (¬ Number M ∨ ¬ Number D → (slash M D).bind (slash Y ·) = some r) ∧
      (¬ Number D → (slash D M).bind (slash Y ·) = some r) := by
  refine ⟨.ymd (year y) (monthInt m) (dayInt d), ?_, ?_⟩
  · have e1 := (year_eq_iff y y).mpr ⟨hy.1, hy.2, by simp⟩
    have e2 : (m % 256).toNat = m.toNat := by omega
    have e3 : (d % 256).toNat = d.toNat := by omega
    simp only [full, e1, monthInt_toNat, dayInt_toNat, e2, e3]
  · rintro Y M D (rfl | rfl) (rfl | rfl) (rfl | rfl) <;> simp [slash, Number]

/-- `ok()` of a date written with numbers in range: it says whether there is such a day. -/
theorem c98_ok {y m d : Int} (hy : -32767 ≤ y ∧ y ≤ 32767) (hm : 0 ≤ m ∧ m ≤ 255)
    (hd : 0 ≤ d ∧ d ≤ 255) : (YMD.mk (year y) (monthInt m) (dayInt d)).ok = true ↔
      (⟨y, m.toNat, d.toNat⟩ : Date).Valid := by
  have e1 := (year_eq_iff y y).mpr ⟨by omega, hy.2, by simp⟩
  have e2 : (m % 256).toNat = m.toNat := by omega
  have e3 : (d % 256).toNat = d.toNat := by omega
  rw [c72_ok]
  simp only [YMD.date, e1, monthInt_toNat, dayInt_toNat, e2, e3]
  exact ⟨fun h => h.1, fun h => ⟨h, by omega⟩⟩

/-! Comparisons -/

theorem val_ext {x y : UInt8} : x = y ↔ val x = val y := by
  unfold val; rw [← UInt8.toNat_inj]; omega

theorem i16_ext {x y : Int16} : x = y ↔ x.toInt = y.toInt := Int16.toInt_inj.symm

/-- A comparison by a lexicographic key. -/
theorem total_of {α : Type} (c : Cmp α) (k : α → Int × Int × Int) (hk : ∀ x y, k x = k y → x = y)
    (he : ∀ x y, c.eq x y = true ↔ k x = k y)
    (hl : ∀ x y, c.lt x y = true ↔ (k x).1 < (k y).1 ∨ ((k x).1 = (k y).1 ∧ ((k x).2.1 < (k y).2.1 ∨
      ((k x).2.1 = (k y).2.1 ∧ (k x).2.2 < (k y).2.2)))) :
    TotalOrder c.eq c.ne c.lt c.le c.gt c.ge := by
  have hk' : ∀ x y, x = y ↔ ((k x).1 = (k y).1 ∧ (k x).2.1 = (k y).2.1 ∧ (k x).2.2 = (k y).2.2) := by
    intro x y
    constructor
    · rintro rfl; simp
    · rintro ⟨h1, h2, h3⟩; exact hk _ _ (Prod.ext h1 (Prod.ext h2 h3))
  have he' : ∀ x y, c.eq x y = true ↔ x = y := fun x y =>
    (he x y).trans ⟨hk x y, fun h => h ▸ rfl⟩
  have hf : ∀ x y, c.lt x y = false ↔ ¬ c.lt x y = true := fun x y => by simp
  refine ⟨he', fun x y => ?_, fun x => ?_, fun x y z => ?_, fun x y => ?_, fun x y => ?_,
    fun x y => Iff.rfl, fun x y => ?_⟩
  · simp only [Cmp.ne, Bool.not_eq_true']
    rw [Ne, ← he' x y]; simp
  · rw [hf, hl]; omega
  · simp only [hl]; omega
  · simp only [hl, hk']; omega
  · simp only [Cmp.le, Bool.not_eq_true', hf, hl, hk']; omega
  · simp only [Cmp.ge, Bool.not_eq_true', hf, hl, hk']; omega

theorem ymCmp_lt (x y : YM) : ymCmp.lt x y = true ↔
    x.y.toInt < y.y.toInt ∨ (x.y.toInt = y.y.toInt ∧ val x.m < val y.m) := by
  simp only [ymCmp, YM.lt]
  repeat' split
  all_goals simp <;> omega

theorem ymlCmp_lt (x y : YM) : ymlCmp.lt x y = true ↔
    x.y.toInt < y.y.toInt ∨ (x.y.toInt = y.y.toInt ∧ val x.m < val y.m) := by
  simp only [ymlCmp, yearCmp, monthCmp, Cmp.gt, decide_eq_true_eq]
  repeat' split
  all_goals simp <;> omega

theorem mdCmp_lt (x y : MD) : mdCmp.lt x y = true ↔
    val x.m < val y.m ∨ (val x.m = val y.m ∧ val x.d < val y.d) := by
  simp only [mdCmp, dayCmp, monthCmp, Cmp.gt, decide_eq_true_eq]
  repeat' split
  all_goals simp <;> omega

theorem ymdCmp_lt (x y : YMD) : ymdCmp.lt x y = true ↔
    x.y.toInt < y.y.toInt ∨ (x.y.toInt = y.y.toInt ∧ (val x.m < val y.m ∨
      (val x.m = val y.m ∧ val x.d < val y.d))) := by
  simp only [ymdCmp, YMD.lt]
  repeat' split
  all_goals simp <;> omega

/-- The comparison operators of day, month (and month_day_last), year, year_month, month_day,
year_month_day_last and year_month_day. -/
theorem c98_total :
    TotalOrder dayCmp.eq dayCmp.ne dayCmp.lt dayCmp.le dayCmp.gt dayCmp.ge ∧
    TotalOrder monthCmp.eq monthCmp.ne monthCmp.lt monthCmp.le monthCmp.gt monthCmp.ge ∧
    TotalOrder yearCmp.eq yearCmp.ne yearCmp.lt yearCmp.le yearCmp.gt yearCmp.ge ∧
    TotalOrder ymCmp.eq ymCmp.ne ymCmp.lt ymCmp.le ymCmp.gt ymCmp.ge ∧
    TotalOrder mdCmp.eq mdCmp.ne mdCmp.lt mdCmp.le mdCmp.gt mdCmp.ge ∧
    TotalOrder ymlCmp.eq ymlCmp.ne ymlCmp.lt ymlCmp.le ymlCmp.gt ymlCmp.ge ∧
    TotalOrder ymdCmp.eq ymdCmp.ne ymdCmp.lt ymdCmp.le ymdCmp.gt ymdCmp.ge := by
  refine ⟨total_of _ (fun x => (val x, 0, 0)) ?_ ?_ ?_, total_of _ (fun x => (val x, 0, 0)) ?_ ?_ ?_,
    total_of _ (fun x => (x.toInt, 0, 0)) ?_ ?_ ?_,
    total_of _ (fun x => (x.y.toInt, val x.m, 0)) ?_ ?_ fun x y => by rw [ymCmp_lt]; simp,
    total_of _ (fun x => (val x.m, val x.d, 0)) ?_ ?_ fun x y => by rw [mdCmp_lt]; simp,
    total_of _ (fun x => (x.y.toInt, val x.m, 0)) ?_ ?_ fun x y => by rw [ymlCmp_lt]; simp,
    total_of _ (fun x => (x.y.toInt, val x.m, val x.d)) ?_ ?_ fun x y => by rw [ymdCmp_lt]⟩
  all_goals
    first
    | (intro x y; simp [val_ext, i16_ext]; done)
    | (rintro ⟨a, b⟩ ⟨c, d⟩; simp [val_ext, i16_ext]; done)
    | (rintro ⟨a, b, c⟩ ⟨d, e, f⟩; simp [val_ext, i16_ext]; done)
    | (intro x y; simp [dayCmp, monthCmp, yearCmp]; done)
    | (rintro ⟨a, b⟩ ⟨c, d⟩; simp [ymCmp, mdCmp, ymlCmp, dayCmp, monthCmp, yearCmp]; done)
    | (rintro ⟨a, b, c⟩ ⟨d, e, f⟩; simp [ymdCmp, dayCmp, monthCmp, yearCmp, and_assoc]; done)

/-- month_day is ordered as the dates are within any year. -/
theorem c98_month_day (x y : MD) (Y : Int) : mdCmp.lt x y = true ↔
    (⟨Y, x.m.toNat, x.d.toNat⟩ : Date).Before ⟨Y, y.m.toNat, y.d.toNat⟩ := by
  rw [mdCmp_lt]
  unfold Date.Before val
  simp only [Int.lt_irrefl, false_or, true_and]
  omega

/-- year_month_day_last is ordered as the days are. -/
theorem c98_last_order (x y : YM) (hx : monthOk x.m = true) (hy : monthOk y.m = true) :
    ∃ a b, (ymdLast x.y x.m).toDays = .ok a ∧ (ymdLast y.y y.m).toDays = .ok b ∧
      (ymlCmp.lt x y = true ↔ a < b) ∧ (ymlCmp.eq x y = true ↔ a = b) := by
  have vx := (c72_last x.y x.m hx).1
  have vy := (c72_last y.y y.m hy).1
  obtain ⟨a, b, ha, hb, h1, h2⟩ := c76_order _ _ vx vy
  refine ⟨a, b, ha, hb, ?_, ?_⟩
  · rw [← h1, ymlCmp_lt]
    have := ymdCmp_lt (ymdLast x.y x.m) (ymdLast y.y y.m)
    simp only [ymdCmp, ymdLast] at this ⊢
    rw [this]
    constructor
    · rintro (h | ⟨h, h'⟩)
      · exact .inl h
      · exact .inr ⟨h, .inl h'⟩
    · rintro (h | ⟨h, h' | ⟨h', h''⟩⟩)
      · exact .inl h
      · exact .inr ⟨h, h'⟩
      · rw [i16_ext.mpr h, val_ext.mpr h'] at h''; omega
  · rw [← h2]
    simp only [ymlCmp, yearCmp, monthCmp, Bool.and_eq_true, decide_eq_true_eq, ymdLast, YMD.mk.injEq,
      i16_ext, val_ext]
    constructor
    · rintro ⟨h, h'⟩; rw [i16_ext.mpr h, val_ext.mpr h']; simp
    · rintro ⟨h, h', -⟩; exact ⟨h, h'⟩

/-- Two ok year_month_weekday values are equal if and only if they name the same day. -/
theorem c98_weekday_equal (x y : Int16 × UInt8 × WI)
    (hx : (YMWD.mk x.1 x.2.1 x.2.2.wd x.2.2.idx).ok = .ok true)
    (hy : (YMWD.mk y.1 y.2.1 y.2.2.wd y.2.2.idx).ok = .ok true) :
    ∃ a b, (YMWD.mk x.1 x.2.1 x.2.2.wd x.2.2.idx).toDays = .ok a ∧
      (YMWD.mk y.1 y.2.1 y.2.2.wd y.2.2.idx).toDays = .ok b ∧ (ymwEq x y = true ↔ a = b) := by
  obtain ⟨x1, x2, x3, x4⟩ := x
  obtain ⟨y1, y2, y3, y4⟩ := y
  obtain ⟨a, ha, na, ua⟩ := c75_to_days _ hx
  obtain ⟨b, hb, nb, ub⟩ := c75_to_days _ hy
  refine ⟨a, b, ha, hb, ?_⟩
  simp only [ymwEq, yearCmp, monthCmp, WI.eq, weekdayEq, WI.weekday, Bool.and_eq_true, decide_eq_true_eq,
    beq_iff_eq] at *
  simp only [YMWD.weekday] at *
  constructor
  · rintro ⟨⟨h1, h2⟩, h3, h4⟩
    rw [← i16_ext] at h1
    rw [← val_ext] at h2 h4
    subst h1; subst h2; subst h4
    rw [← h3] at nb
    exact (ua _ nb).symm
  · rintro rfl
    obtain ⟨d, hd, hw, hk⟩ := na
    obtain ⟨d', hd', hw', hk'⟩ := nb
    obtain ⟨z, -, hz⟩ := c71_calendar_bijection.1 a
    have e := (hz _ hd).trans (hz _ hd').symm
    simp only [Date.mk.injEq] at e
    obtain ⟨e1, e2, e3⟩ := e
    refine ⟨⟨e1, by unfold val; omega⟩, ?_, ?_⟩
    · rw [← UInt8.toNat_inj]; omega
    · subst e3; rw [← hw, ← hw', ] at *
      unfold val; omega

/-- The same for year_month_weekday_last. -/
theorem c98_weekday_last_equal (x y : Int16 × UInt8 × UInt8)
    (hx : monthOk x.2.1 = true ∧ weekdayOk x.2.2 = true)
    (hy : monthOk y.2.1 = true ∧ weekdayOk y.2.2 = true) :
    ∃ a b, ymwdLastToDays x.1 x.2.1 x.2.2 = .ok a ∧ ymwdLastToDays y.1 y.2.1 y.2.2 = .ok b ∧
      (ymwlEq x y = true ↔ a = b) := by
  obtain ⟨x1, x2, x3⟩ := x
  obtain ⟨y1, y2, y3⟩ := y
  obtain ⟨a, ha, ⟨d, hd⟩, na, ua⟩ := c75_last x1 x2 x3 hx.1 hx.2
  obtain ⟨b, hb, ⟨d', hd'⟩, nb, ub⟩ := c75_last y1 y2 y3 hy.1 hy.2
  refine ⟨a, b, ha, hb, ?_⟩
  simp only [ymwlEq, yearCmp, monthCmp, weekdayEq, Bool.and_eq_true, decide_eq_true_eq, beq_iff_eq]
  constructor
  · rintro ⟨⟨h1, h2⟩, h3⟩
    rw [← i16_ext] at h1
    rw [← val_ext] at h2
    subst h1; subst h2; subst h3
    rw [ha] at hb
    exact Res.ok.inj hb
  · rintro rfl
    obtain ⟨z, -, hz⟩ := c71_calendar_bijection.1 a
    have e := (hz _ hd).trans (hz _ hd').symm
    simp only [Date.mk.injEq] at e
    obtain ⟨e1, e2, e3⟩ := e
    refine ⟨⟨e1, by unfold val; omega⟩, ?_⟩
    rw [← UInt8.toNat_inj]; omega

theorem weekdayOk_iff (w : UInt8) : weekdayOk w = true ↔ w.toNat ≤ 6 := by
  have h6 : (6 : UInt8).toNat = 6 := rfl
  simp [weekdayOk, UInt8.le_iff_toNat_le, h6]

theorem fifth_exists : ∀ m : Fin 12, ∀ w : Fin 7, ∀ i : Fin 5, ∃ k : Fin 7,
    (YMWD.mk (Int16.ofInt (2000 + 4 * (k.val : Int))) (UInt8.ofNat (m.val + 1)) (UInt8.ofNat w.val)
      (UInt8.ofNat (i.val + 1))).ok = .ok true := by decide +kernel

theorem nth_le_five {y : Int} {m w k : Nat} {n : Int} (h : NthWeekday y m w k n) :
    1 ≤ m ∧ m ≤ 12 ∧ w ≤ 6 ∧ 1 ≤ k ∧ k ≤ 5 := by
  obtain ⟨d, hd, hw, hk⟩ := (nth_iff _ _ _ _ _).mp h
  obtain ⟨⟨a, b, c, e⟩, -⟩ := Calc.dayOf_iff.mp hd
  have := monthLength_range y m
  have := dow_lt n
  simp only at a b c e
  omega

/-- `ok()` of month_weekday: there is a year in which the month has this weekday that often. -/
theorem c98_month_weekday_ok (m : UInt8) (x : WI) : monthWeekdayOk m x = true ↔
    ∃ (y : Int) (n : Int), NthWeekday y m.toNat x.weekday.toNat x.idx.toNat n := by
  have ev : val x.idx = x.idx.toNat := rfl
  simp only [monthWeekdayOk, WI.ok, Bool.and_eq_true, monthOk_iff, weekdayOk_iff, decide_eq_true_eq]
  constructor
  · rintro ⟨⟨h1, h2⟩, ⟨h3, h4⟩, h5⟩
    obtain ⟨k, hk⟩ := fifth_exists ⟨m.toNat - 1, by omega⟩ ⟨x.weekday.toNat, by omega⟩
      ⟨x.idx.toNat - 1, by omega⟩
    obtain ⟨n, -, hn, -⟩ := c75_to_days _ hk
    have e1 : UInt8.ofNat (m.toNat - 1 + 1) = m := by
      rw [show m.toNat - 1 + 1 = m.toNat by omega]; simp
    have e2 : UInt8.ofNat (x.idx.toNat - 1 + 1) = x.idx := by
      rw [show x.idx.toNat - 1 + 1 = x.idx.toNat by omega]; simp
    simp only [YMWD.weekday, e1, e2, UInt8.ofNat_toNat] at hn
    have e3 : weekdayOf (val x.weekday) = x.weekday := by
      rw [← UInt8.toNat_inj]
      unfold weekdayOf val
      rw [asUchar_toNat]
      split <;> omega
    rw [e3] at hn
    exact ⟨_, n, hn⟩
  · rintro ⟨y, n, h⟩
    have := nth_le_five h
    omega

/-- `ok()` of month_weekday_last: there is a year in which there is such a day. -/
theorem c98_month_weekday_last_ok (m w : UInt8) : monthWeekdayLastOk m w = true ↔
    ∃ (y : Int) (n : Int), LastWeekday y m.toNat w.toNat n := by
  simp only [monthWeekdayLastOk, Bool.and_eq_true]
  constructor
  · rintro ⟨h1, h2⟩
    obtain ⟨n, -, hn⟩ := c75_last 0 m w h1 h2
    exact ⟨_, n, hn⟩
  · rintro ⟨y, n, ⟨d, hd⟩, hw, -⟩
    obtain ⟨⟨a, b, -, -⟩, -⟩ := Calc.dayOf_iff.mp hd
    have := dow_lt n
    rw [monthOk_iff, weekdayOk_iff]
    exact ⟨⟨a, b⟩, by omega⟩

/-- A weekday with an index keeps both, as long as the index is at most 15; `ok()` asks for an index from
one to five. -/
theorem c98_indexed (w : UInt8) {i : Int} (hw : weekdayOk w = true) (h0 : 0 ≤ i) (h1 : i ≤ 15) :
    (WI.of w i).weekday = w ∧ ((WI.of w i).idx.toNat : Int) = i ∧
      ((WI.of w i).ok = true ↔ 1 ≤ i ∧ i ≤ 5) := by
  have hw' := (weekdayOk_iff w).mp hw
  have ew : val w = w.toNat := rfl
  have e1 : (WI.of w i).weekday = w := by
    have : val (WI.of w i).wd = w.toNat := by
      unfold WI.of; unfold val at *; simp only; rw [asUchar_toNat]; omega
    rw [← UInt8.toNat_inj]
    unfold WI.weekday
    rw [this]
    unfold weekdayOf
    rw [asUchar_toNat]
    split <;> omega
  have e2 : ((WI.of w i).idx.toNat : Int) = i := by
    simp only [WI.of]; rw [asUchar_toNat]; omega
  refine ⟨e1, e2, ?_⟩
  have ei : val (WI.of w i).idx = i := e2
  simp only [WI.ok, e1, hw, ei, Bool.true_and, Bool.and_eq_true, decide_eq_true_eq]

/-- Equality of month_weekday and month_weekday_last: the same month, the same weekday, the same index. -/
theorem c98_month_weekday_equal (x y : UInt8 × WI) (u v : UInt8 × UInt8) :
    (monthWeekdayEq x y = true ↔ x.1 = y.1 ∧ x.2.weekday = y.2.weekday ∧ x.2.idx = y.2.idx) ∧
    (monthWeekdayLastEq u v = true ↔ u = v) := by
  constructor
  · simp only [monthWeekdayEq, monthCmp, WI.eq, weekdayEq, Bool.and_eq_true, decide_eq_true_eq, beq_iff_eq,
      ← val_ext]
  · obtain ⟨a, b⟩ := u
    obtain ⟨c, d⟩ := v
    simp only [monthWeekdayLastEq, monthCmp, weekdayEq, Bool.and_eq_true, decide_eq_true_eq, beq_iff_eq,
      ← val_ext, Prod.mk.injEq]

/-! Increments -/

/-- `++` and `--` of a day, a year and their sums with durations: exact as long as the result fits the
field, and always inverse to each other. -/
theorem c98_day_year_inc (d : UInt8) (y : Int16) :
    (d.toNat < 255 → (dayInc d).toNat = d.toNat + 1) ∧ dayDec (dayInc d) = d ∧ dayInc (dayDec d) = d ∧
    dayInc d = dayPlus d 1 ∧ dayMinusDays d 1 = .ok (dayDec d) ∧
    (y.toInt < 32767 → (yearInc y).toInt = y.toInt + 1) ∧ yearDec (yearInc y) = y ∧
    yearInc (yearDec y) = y ∧ yearPlus y 1 = .ok (yearInc y) ∧ yearMinusYears y 1 = .ok (yearDec y) ∧
    (y.toInt ≠ -32768 → (yearNeg y).toInt = -y.toInt) := by
  have hd := val_range d
  have hy := year_range y
  have ed : val d = d.toNat := rfl
  refine ⟨fun h => ?_, ?_, ?_, ?_, ?_, fun h => ?_, ?_, ?_, ?_, ?_, fun h => ?_⟩
  · unfold dayInc; rw [asUchar_toNat]; unfold uns; omega
  · rw [← UInt8.toNat_inj]; unfold dayInc dayDec; rw [asUchar_toNat]; unfold val at *
    rw [asUchar_toNat]; unfold uns; omega
  · rw [← UInt8.toNat_inj]; unfold dayInc dayDec; rw [asUchar_toNat]; unfold val at *
    rw [asUchar_toNat]; unfold uns; omega
  · rw [← UInt8.toNat_inj]; unfold dayInc dayPlus; rw [asUchar_toNat, asUchar_toNat]; unfold uns; omega
  · unfold dayMinusDays dayPlus dayDec
    rw [int_ok (by omega) (by omega)]
    simp only [Res.ok_bind, Res.pure_eq, Res.ok.injEq]
    rw [← UInt8.toNat_inj, asUchar_toNat, asUchar_toNat]; unfold uns; omega
  · exact (year_eq_iff _ _).mpr ⟨by omega, by omega, by simp⟩
  · rw [i16_ext]; exact (year_eq_iff _ _).mpr ⟨hy.1, hy.2, by
      have := (year_eq_iff (y.toInt + 1) _).mp rfl
      unfold yearInc; omega⟩
  · rw [i16_ext]; exact (year_eq_iff _ _).mpr ⟨hy.1, hy.2, by
      have := (year_eq_iff (y.toInt - 1) _).mp rfl
      unfold yearDec; omega⟩
  · unfold yearPlus yearInc; rw [int_ok (by omega) (by omega)]; rfl
  · unfold yearMinusYears yearDec; rw [int_ok (by omega) (by omega)]; rfl
  · exact (year_eq_iff _ _).mpr ⟨by omega, by omega, by simp⟩

/-- The difference of two years is their distance: added to the second it gives the first, and taken from the first it
gives the second. -/
theorem c98_year_difference (x y : Int16) :
    yearMinus x y = .ok (x.toInt - y.toInt) ∧ yearPlus y (x.toInt - y.toInt) = .ok x ∧
    yearMinusYears x (x.toInt - y.toInt) = .ok y := by
  have hx := year_range x
  have hy := year_range y
  refine ⟨?_, ?_, ?_⟩
  · unfold yearMinus; rw [int_ok (by omega) (by omega)]
  · unfold yearPlus
    rw [int_ok (by omega) (by omega)]
    show Res.ok _ = Res.ok _
    congr 1
    rw [i16_ext]; exact (year_eq_iff _ _).mpr ⟨hx.1, hx.2, by omega⟩
  · unfold yearMinusYears
    rw [int_ok (by omega) (by omega)]
    show Res.ok _ = Res.ok _
    congr 1
    rw [i16_ext]; exact (year_eq_iff _ _).mpr ⟨hy.1, hy.2, by omega⟩

/-- `++` and `--` of a month go round the year, those of a weekday round the week, and undo each
other. -/
theorem c98_cycle_inc (m w : UInt8) :
    (monthOk m = true → monthInc m = (if m = 12 then 1 else m + 1) ∧
      monthDec m = .ok (if m = 1 then 12 else m - 1) ∧ monthDec (monthInc m) = .ok m) ∧
    (weekdayOk w = true → weekdayInc w = (if w = 6 then 0 else w + 1) ∧
      weekdayDec w = .ok (if w = 0 then 6 else w - 1) ∧ weekdayDec (weekdayInc w) = .ok w) := by
  constructor
  · revert m; apply Text.forall_u8; decide +kernel
  · revert w; apply Text.forall_u8; decide +kernel

/-! Months and years added to year_month, year_month_day_last, year_month_weekday and
year_month_weekday_last -/

/-- Adding months moves the month by that many months in the calendar and keeps the rest (the weekday and
its index, or "last"); taking the months away again gives the first value back. -/
theorem c98_plus_months {α : Type} (x : Int16 × UInt8 × α) (hm : monthOk x.2.1 = true) {n : Int}
    (h1 : -2147483000 ≤ n) (h2 : n ≤ 2147483000)
    (h3 : -32768 * 12 ≤ monthNumber x.1.toInt x.2.1.toNat + n)
    (h4 : monthNumber x.1.toInt x.2.1.toNat + n < 32768 * 12) :
    ∃ r, plusMonths x n = .ok r ∧ minusMonths x (-n) = .ok r ∧ monthOk r.2.1 = true ∧
      monthNumber r.1.toInt r.2.1.toNat = monthNumber x.1.toInt x.2.1.toNat + n ∧ r.2.2 = x.2.2 ∧
      minusMonths r n = .ok x := by
  obtain ⟨y, m, z⟩ := x
  simp only at hm h3 h4
  have hm' := (monthOk_iff m).mp hm
  have hv := year_range y
  obtain ⟨r, hr, ho, hn⟩ := c74_year_month_plus ⟨y, m⟩ (n := n) (by simp only; omega) (by simp only; omega)
    h3 h4
  have ho' := (monthOk_iff _).mp ho
  have hrv := year_range r.y
  obtain ⟨s, hs, hso, hsn⟩ := c74_year_month_plus r (n := -n) (by omega) (by omega)
    (by rw [hn]; simp only [monthNumber]; omega) (by rw [hn]; simp only [monthNumber]; omega)
  have hso' := (monthOk_iff _).mp hso
  have e : s = ⟨y, m⟩ := by
    obtain ⟨sy, sm⟩ := s
    simp only [monthNumber] at *
    simp only [YM.mk.injEq, i16_ext, ← UInt8.toNat_inj]
    omega
  refine ⟨(r.y, r.m, z), ?_, ?_, ho, hn, rfl, ?_⟩
  · simp only [plusMonths, hr, Res.ok_bind, Res.pure_eq]
  · simp only [minusMonths, Int.neg_neg]
    rw [int_ok (by omega) (by omega)]
    simp only [plusMonths, hr, Res.ok_bind, Res.pure_eq]
  · simp only [minusMonths]
    rw [int_ok (by omega) (by omega)]
    simp only [plusMonths, hs, e, Res.ok_bind, Res.pure_eq]

/-- The same with years. -/
theorem c98_plus_years {α : Type} (x : Int16 × UInt8 × α) {n : Int}
    (h1 : -32768 ≤ x.1.toInt + n) (h2 : x.1.toInt + n ≤ 32767) :
    ∃ r, plusYears x n = .ok r ∧ minusYears x (-n) = .ok r ∧ r.1.toInt = x.1.toInt + n ∧
      r.2 = x.2 ∧ minusYears r n = .ok x := by
  obtain ⟨y, m, z⟩ := x
  simp only at h1 h2
  have hv := year_range y
  have e := (year_eq_iff (y.toInt + n) (y.toInt + n)).mpr ⟨h1, h2, by simp⟩
  have hp : yearPlus y n = .ok (year (y.toInt + n)) := by
    unfold yearPlus; rw [int_ok (by omega) (by omega)]; rfl
  have hq : yearPlus (year (y.toInt + n)) (-n) = .ok y := by
    unfold yearPlus; rw [e, int_ok (by omega) (by omega)]
    simp only [Res.ok_bind, Res.pure_eq, Res.ok.injEq]
    rw [i16_ext]; exact (year_eq_iff _ _).mpr ⟨hv.1, hv.2, by omega⟩
  refine ⟨(year (y.toInt + n), m, z), ?_, ?_, e, rfl, ?_⟩
  · simp only [plusYears, hp, Res.ok_bind, Res.pure_eq]
  · simp only [minusYears, Int.neg_neg]
    rw [int_ok (by omega) (by omega)]
    simp only [plusYears, hp, Res.ok_bind, Res.pure_eq]
  · simp only [minusYears]
    rw [int_ok (by omega) (by omega)]
    simp only [plusYears, hq, Res.ok_bind, Res.pure_eq]

/-- A first to fourth weekday stays a day of the calendar when months are added. -/
theorem c98_plus_months_weekday (x : Int16 × UInt8 × WI) (hx : monthWeekdayOk x.2.1 x.2.2 = true)
    (hi : x.2.2.idx.toNat ≤ 4) {n : Int} (h1 : -2147483000 ≤ n) (h2 : n ≤ 2147483000)
    (h3 : -32767 * 12 ≤ monthNumber x.1.toInt x.2.1.toNat + n)
    (h4 : monthNumber x.1.toInt x.2.1.toNat + n < 32768 * 12) :
    ∃ r, plusMonths x n = .ok r ∧ (YMWD.mk r.1 r.2.1 r.2.2.wd r.2.2.idx).ok = .ok true ∧
      ∃ k, NthWeekday r.1.toInt r.2.1.toNat x.2.2.weekday.toNat x.2.2.idx.toNat k := by
  have hm : monthOk x.2.1 = true := by
    simp only [monthWeekdayOk, Bool.and_eq_true] at hx; exact hx.1
  obtain ⟨r, hr, -, ho, hn, he, -⟩ := c98_plus_months x hm h1 h2 (by omega) h4
  have ho' := (monthOk_iff _).mp ho
  have hok : (YMWD.mk r.1 r.2.1 r.2.2.wd r.2.2.idx).ok = .ok true := by
    have ev : val r.2.2.idx = r.2.2.idx.toNat := rfl
    have hy : yearOk r.1 = true := by
      simp only [yearOk, bne_iff_ne]
      simp only [monthNumber] at *
      omega
    simp only [monthWeekdayOk, WI.ok, Bool.and_eq_true, decide_eq_true_eq, ← he] at hx
    unfold YMWD.ok
    have hw : weekdayOk (YMWD.mk r.1 r.2.1 r.2.2.wd r.2.2.idx).weekday = true := hx.2.1.1
    rw [← he] at hi
    simp only [hy, ho, hw, Bool.not_true, Bool.false_or, decide_eq_true_eq]
    rw [if_neg (by omega), if_pos (by omega)]
    rfl
  obtain ⟨b, hb, hiff⟩ := c75_ok (YMWD.mk r.1 r.2.1 r.2.2.wd r.2.2.idx)
  rw [hok] at hb
  obtain ⟨-, k, hk⟩ := hiff.mp (Res.ok.inj hb).symm
  rw [he] at hk
  exact ⟨r, hr, hok, k, hk⟩

/-- The last day of the month stays the last day of the month when months are added, and the day after
it is the first of the next month. -/
theorem c98_plus_months_last (x : YM) (hm : monthOk x.m = true) {n : Int} (h1 : -2147483000 ≤ n)
    (h2 : n ≤ 2147483000) (h3 : -32768 * 12 ≤ monthNumber x.y.toInt x.m.toNat + n)
    (h4 : monthNumber x.y.toInt x.m.toNat + n < 32768 * 12) :
    ∃ r, plusMonths (x.y, x.m, ()) n = .ok r ∧
      monthNumber r.1.toInt r.2.1.toNat = monthNumber x.y.toInt x.m.toNat + n ∧
      (ymdLast r.1 r.2.1).date.Valid ∧ (ymdLast r.1 r.2.1).date.next.day = 1 ∧
      monthNumber (ymdLast r.1 r.2.1).date.next.year (ymdLast r.1 r.2.1).date.next.month =
        monthNumber x.y.toInt x.m.toNat + n + 1 := by
  obtain ⟨r, hr, -, ho, hn, -, -⟩ := c98_plus_months (x.y, x.m, ()) hm h1 h2 h3 h4
  have hl := c72_last r.1 r.2.1 ho
  have ho' := (monthOk_iff _).mp ho
  refine ⟨r, hr, hn, hl.1, hl.2, ?_⟩
  simp only at hn
  rw [← hn]
  have hd := c72_last_day r.1 r.2.1 ho
  simp only [Date.next, YMD.date, ymdLast, hd, Nat.lt_irrefl, if_false, monthNumber]
  split <;> simp only <;> omega

/-! Examples: 2015/3/22 in three orders, the second Sunday of May, the last day of February. -/

example : (slash (.year 2015) (.int 3)).bind (slash · (.int 22)) = some (.ymd 2015 3 22) := by decide +kernel
example : (slash (.month 3) (.int 22)).bind (slash · (.int 2015)) = some (.ymd 2015 3 22) := by decide +kernel
example : (slash (.day 22) (.int 3)).bind (slash · (.int 2015)) = some (.ymd 2015 3 22) := by decide +kernel
/-- A number in the first two places is not a date: `2015/3/day(22)` is the 22nd of month 671, which is
month 159. -/
example : (slash (.int 2015) (.int 3)).bind (slash · (.day 22)) = some (.md 159 22) := by decide +kernel
/-- A month number beyond 255 is reduced: month 257 is January, and the date is ok. -/
example : (slash (.year 2015) (.int 257)).bind (slash · (.int 1)) = some (.ymd 2015 1 1) ∧
    (YMD.mk 2015 1 1).ok = true := by decide +kernel
example : (slash (.wi (WI.of 0 2)) (.month 5)).bind (slash · (.int 2015)) = some (.ymw 2015 5 ⟨0, 2⟩) ∧
    (YMWD.mk 2015 5 0 2).toDays = .ok 16565 := by decide +kernel
example : plusMonths (2015, 12, ()) 2 = .ok (2016, 2, ()) ∧ lastDay 2016 2 = 29 := by decide +kernel
example : monthWeekdayOk 2 ⟨3, 5⟩ = true ∧ monthWeekdayOk 2 ⟨3, 6⟩ = false := by decide +kernel

end Gul14.Date
