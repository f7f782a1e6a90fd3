import Verif.Date.Nth
import Verif.Date.TimeOfDay
import Verif.Date.TextSpec

/-!
# C79: dates and times as text, date.h:1655-1679, 2748-2765, 3599-3621, 3696-3710, 3783-3810

The text that operator<< writes to a stream without width and with default flags, in the classic
locale.
-/
namespace Gul14.Date
open Gul14.Spec.Calendar Gul14.Spec.DateText

/-- Output of numbers by the library; no code in /repo. -/
def digit (n : Nat) : Char := Char.ofNat (48 + n % 10)

/-- Decimal output of an unsigned number by the stream; `fuel` bounds the number of digits. Library; no
code in /repo. -/
def decGo : Nat → Nat → List Char
  | 0, n => [digit n]
  | fuel + 1, n => if n < 10 then [digit n] else decGo fuel (n / 10) ++ [digit n]

/-- Output of an unsigned number. Library; no code in /repo. -/
def dec (n : Nat) : List Char := decGo n n

/-- Output of an int. Library; no code in /repo. -/
def decInt (n : Int) : List Char := if n < 0 then '-' :: dec n.natAbs else dec n.natAbs

/-- Output with `fill('0')`, `width(w)` and right adjustment. Library; no code in /repo. -/
def pad (w : Nat) (s : List Char) : List Char := List.replicate (w - s.length) '0' ++ s

/-- operator<<(ostream, year_month_day), date.h:2748-2765. -/
def YMD.text (x : YMD) : List Char :=
  decInt x.y.toInt ++ ('-' :: (pad 2 (dec x.m.toNat) ++ ('-' :: (pad 2 (dec x.d.toNat) ++
    (if x.ok then [] else " is not a valid year_month_day".toList)))))

/-- operator<<(ostream, year), date.h:1655-1679: `internal` puts the zeros behind the sign. -/
def yearText (y : Int16) : List Char :=
  (if y.toInt < 0 then '-' :: pad 4 (dec y.toInt.natAbs) else pad 4 (dec y.toInt.natAbs)) ++
    (if yearOk y then [] else " is not a valid year".toList)

/-- decimal_format_seconds::print, date.h:3599-3621. -/
def HMS.secText (x : HMS) (T : Nat) : List Char :=
  pad 2 (decInt x.s) ++
    (if fractionalWidth T > 0 then '.' :: pad (fractionalWidth T) (decInt x.sub) else [])

/-- operator<<(ostream, hh_mm_ss), date.h:3696-3710. -/
def HMS.text (x : HMS) (T : Nat) : List Char :=
  (if x.neg then ['-'] else []) ++
  ((if x.h < 10 then ['0'] else []) ++ (decInt x.h ++ (':' ::
  ((if x.m < 10 then ['0'] else []) ++ (decInt x.m ++ (':' :: x.secText T))))))

/-- operator<<(ostream, sys_time) and local_time, date.h:3783-3810: `c` ticks of 1/T second since
1970-01-01. -/
def sysText (T : Nat) (c : Int) : Res (List Char) := do
  let dp := floorTo 1 (86400 * T) c
  let ymd ← fromDays dp
  pure (ymd.text ++ (' ' :: (hhmmss T (c - dp * (86400 * T))).text T))

/-! ### Decimal numbers -/

theorem digit_spec (n : Nat) : isDigit (digit n) = true ∧ (digit n).toNat - 48 = n % 10 := by
  have h : n % 10 = 0 ∨ n % 10 = 1 ∨ n % 10 = 2 ∨ n % 10 = 3 ∨ n % 10 = 4 ∨ n % 10 = 5 ∨ n % 10 = 6 ∨
    n % 10 = 7 ∨ n % 10 = 8 ∨ n % 10 = 9 := by omega
  unfold digit
  rcases h with h | h | h | h | h | h | h | h | h | h <;> rw [h] <;> decide

theorem digit_zero (n : Nat) (h : digit n = '0') : n % 10 = 0 := by
  have := (digit_spec n).2
  rw [h] at this
  simpa using this.symm

theorem value_append (s : List Char) (c : Char) : value (s ++ [c]) = 10 * value s + (c.toNat - 48) := by
  simp [value]

theorem decGo_spec (fuel : Nat) : ∀ n, n ≤ fuel → Numeral n (decGo fuel n) := by
  have one : ∀ n, n < 10 → Numeral n [digit n] := by
    intro n hn
    have hd := digit_spec n
    refine ⟨by simp, by simp [hd.1], by simp [value, hd.2]; omega, ?_⟩
    intro h
    simp only [List.head?_cons, Option.some.injEq] at h
    rw [h]
  induction fuel with
  | zero => intro n hn; exact one n (by omega)
  | succ f ih =>
    intro n hn
    unfold decGo
    split
    · rename_i h; exact one n h
    · rename_i h
      obtain ⟨a, b, c, d⟩ := ih (n / 10) (by omega)
      have hd := digit_spec n
      refine ⟨by simp, by simp [List.all_append, b, hd.1], by rw [value_append, c, hd.2]; omega, ?_⟩
      intro h0
      have hh : (decGo f (n / 10)).head? = some '0' := by
        cases hc : decGo f (n / 10) with
        | nil => exact absurd hc a
        | cons x xs => rw [hc] at h0; simpa using h0
      have := d hh
      rw [this] at c
      simp [value] at c
      omega

theorem dec_spec (n : Nat) : Numeral n (dec n) := decGo_spec n n (Nat.le_refl n)

theorem value_zeros (k : Nat) (s : List Char) : value (List.replicate k '0' ++ s) = value s := by
  induction k with
  | zero => rfl
  | succ k ih =>
    rw [List.replicate_succ]
    simp only [value, List.cons_append, List.foldl_cons] at *
    exact ih

theorem decGo_length (fuel : Nat) : ∀ n w, 0 < w → n < 10 ^ w → (decGo fuel n).length ≤ w := by
  induction fuel with
  | zero => intro n w hw _; simp [decGo]; omega
  | succ f ih =>
    intro n w hw hn
    unfold decGo
    split
    · simp; omega
    · rename_i h
      cases w with
      | zero => omega
      | succ w =>
        have hw' : 0 < w := by
          rcases Nat.eq_zero_or_pos w with h0 | h0
          · subst h0; simp at hn; omega
          · exact h0
        have := ih (n / 10) w hw' (by rw [Nat.pow_succ] at hn; omega)
        simp; omega

theorem dec_length {n w : Nat} (hw : 0 < w) (h : n < 10 ^ w) : (dec n).length ≤ w :=
  decGo_length n n w hw h

theorem pad_spec {w n : Nat} (hw : 0 < w) (h : n < 10 ^ w) : Digits w n (pad w (dec n)) := by
  have hl := dec_length hw h
  obtain ⟨a, b, c, d⟩ := dec_spec n
  refine ⟨by simp [pad]; omega, ?_, by rw [pad, value_zeros, c]⟩
  unfold pad
  rw [List.all_append, b, Bool.and_true]
  simp only [List.all_replicate]
  split <;> first | rfl | decide

theorem decInt_spec (n : Int) : SignedNumeral n (decInt n) := by
  unfold SignedNumeral decInt
  split
  · exact ⟨_, rfl, dec_spec _⟩
  · exact dec_spec _

theorem decInt_nonneg {n : Int} (h : 0 ≤ n) : decInt n = dec n.toNat := by
  unfold decInt
  rw [if_neg (by omega)]
  congr 1; omega

/-- Numbers below 100 after the code's leading '0'. -/
theorem two_digits {n : Int} (h0 : 0 ≤ n) (h1 : n < 100) :
    Digits 2 n.toNat ((if n < 10 then ['0'] else []) ++ decInt n) := by
  have e : (if n < 10 then ['0'] else []) ++ decInt n = pad 2 (dec n.toNat) := by
    rw [decInt_nonneg h0]
    unfold pad
    congr 1
    split
    · have : (dec n.toNat).length = 1 := by
        have h1 := dec_length (w := 1) (n := n.toNat) (by omega) (by omega)
        have h2 := (dec_spec n.toNat).1
        have : 0 < (dec n.toNat).length := List.length_pos_iff.mpr h2
        omega
      rw [this]; rfl
    · have : 2 ≤ (dec n.toNat).length := by
        rcases Nat.lt_or_ge (dec n.toNat).length 2 with h | h
        · exfalso
          obtain ⟨a, b, c, -⟩ := dec_spec n.toNat
          cases hd : dec n.toNat with
          | nil => exact a hd
          | cons x xs =>
            cases xs with
            | cons _ _ => rw [hd] at h; simp at h; omega
            | nil =>
              rw [hd] at c b
              simp [value] at c
              simp [isDigit] at b
              have : x.toNat ≤ 57 := b.2
              omega
        · exact h
      have h2 := dec_length (w := 2) (n := n.toNat) (by omega) (by omega)
      have : (dec n.toNat).length = 2 := by omega
      rw [this]; rfl
  rw [e]
  exact pad_spec (by omega) (by omega)

/-! ### The theorems -/

/-- An existing date is written as year, month and day. -/
theorem c79_date (x : YMD) (h : x.ok = true) : IsDate x.y.toInt x.m.toNat x.d.toNat x.text := by
  obtain ⟨⟨a, b, c, d⟩, -⟩ := (c72_ok x).mp h
  have hl := monthLength_range x.date.year x.date.month
  have e1 : x.date.month = x.m.toNat := rfl
  have e2 : x.date.day = x.d.toNat := rfl
  refine ⟨_, _, _, ?_, decInt_spec _, pad_spec (by omega) (by omega), pad_spec (by omega) (by omega)⟩
  simp [YMD.text, h]

/-- A value that is not a date is written with a note. -/
theorem c79_not_a_date (x : YMD) (h : x.ok = false) :
    ∃ t, x.text = t ++ " is not a valid year_month_day".toList ∧
      t = decInt x.y.toInt ++ '-' :: (pad 2 (dec x.m.toNat) ++ '-' :: pad 2 (dec x.d.toNat)) := by
  exact ⟨_, by simp [YMD.text, h], rfl⟩

/-- A year is written with at least four digits. -/
theorem c79_year (y : Int16) (h : yearOk y = true) :
    (y.toInt ≥ 0 → ∃ w, 4 ≤ w ∧ Digits w y.toInt.natAbs (yearText y)) ∧
    (y.toInt < 0 → ∃ w t, 4 ≤ w ∧ yearText y = '-' :: t ∧ Digits w y.toInt.natAbs t) := by
  have hy := year_range y
  have key : ∃ w, 4 ≤ w ∧ Digits w y.toInt.natAbs (pad 4 (dec y.toInt.natAbs)) := by
    rcases Nat.lt_or_ge y.toInt.natAbs 10000 with hlt | hge
    · exact ⟨4, Nat.le_refl _, pad_spec (by omega) (by omega)⟩
    · obtain ⟨a, b, c, d⟩ := dec_spec y.toInt.natAbs
      have hlen : 4 ≤ (pad 4 (dec y.toInt.natAbs)).length := by simp [pad]; omega
      refine ⟨_, hlen, rfl, ?_, by rw [pad, value_zeros, c]⟩
      unfold pad
      rw [List.all_append, b, Bool.and_true]
      simp only [List.all_replicate]
      split <;> first | rfl | decide
  constructor
  · intro h0
    have : yearText y = pad 4 (dec y.toInt.natAbs) := by
      simp [yearText, h]; omega
    rw [this]; exact key
  · intro h0
    obtain ⟨w, hw, hd⟩ := key
    exact ⟨w, _, hw, by simp [yearText, h, h0], hd⟩

/-- A time of day is written as hours, minutes, seconds and fraction. -/
theorem c79_time_of_day (T : Nat) (hT : 0 < T) (c : Int) (h0 : 0 ≤ c) (h1 : c < 86400 * T) :
    let x := hhmmss T c
    IsTime (fractionalWidth T) x.h.toNat x.m.toNat x.s.toNat x.sub.toNat (x.text T) := by
  intro x
  obtain ⟨r1, r2, r3, r4, r5, r6, r7, r8⟩ := c77_ranges T hT c
  have hconv := (c77_conventional T hT c).mpr ⟨h0, h1⟩
  simp only [HMS.conventional, Bool.and_eq_true, Bool.not_eq_true', decide_eq_true_eq] at hconv
  obtain ⟨⟨⟨hneg, h24⟩, -⟩, -⟩ := hconv
  have hsec : Digits 2 x.s.toNat (pad 2 (decInt x.s)) := by
    rw [decInt_nonneg r4]; exact pad_spec (by omega) (by simp only [x]; omega)
  refine ⟨(if x.h < 10 then ['0'] else []) ++ decInt x.h, (if x.m < 10 then ['0'] else []) ++ decInt x.m,
    pad 2 (decInt x.s), (if fractionalWidth T > 0 then '.' :: pad (fractionalWidth T) (decInt x.sub) else []),
    ?_, two_digits r1 (by simp only [x]; omega), two_digits r2 (by simp only [x]; omega), hsec, ?_⟩
  · simp only [HMS.text, HMS.secText, x, hneg]
    simp
  · by_cases hw : fractionalWidth T = 0
    · simp [hw]
    · rw [if_neg hw, if_pos (by omega)]
      refine ⟨_, rfl, ?_⟩
      rw [decInt_nonneg r6]
      refine pad_spec (by omega) ?_
      have : (x.sub.toNat : Int) < ((10 ^ fractionalWidth T : Nat) : Int) := by
        rw [Int.toNat_of_nonneg r6]; simpa using r7
      exact Int.ofNat_lt.mp this

/-- A point in time is written as the date of its day, a space and the time since midnight; for
durations with a finite decimal fraction the text says exactly which point it is. -/
theorem c79_sys_time (T : Nat) (hT : 0 < T) (hfin : ∃ k, k ≤ 18 ∧ T ∣ 10 ^ k) (c : Int)
    (hlo : -12687428 * (86400 * T) ≤ c) (hhi : c < 11248738 * (86400 * T)) :
    ∃ (n y : Int) (mo d h m s f : Nat) (dt tm : List Char),
      sysText T c = .ok (dt ++ ' ' :: tm) ∧ DayOf n ⟨y, mo, d⟩ ∧ IsDate y mo d dt ∧
      IsTime (fractionalWidth T) h m s f tm ∧ h < 24 ∧ m < 60 ∧ s < 60 ∧ f < 10 ^ fractionalWidth T ∧
      (((n * 86400 + h * 3600 + m * 60 + s) * 10 ^ fractionalWidth T + f) * T
        = c * 10 ^ fractionalWidth T) := by
  have hpos : (0 : Int) < 86400 * T := by omega
  obtain ⟨f1, f2⟩ := c78_floor 1 (86400 * T) c hpos
  rw [Int.mul_one] at f1 f2
  generalize hn : floorTo 1 (86400 * T) c = n at *
  have n1 : -12687428 ≤ n := by
    have := Int.lt_of_le_of_lt hlo f2
    have := Int.lt_of_mul_lt_mul_right this (by omega)
    omega
  have n2 : n ≤ 11248737 := by
    have := Int.lt_of_le_of_lt f1 hhi
    have := Int.lt_of_mul_lt_mul_right this (by omega)
    omega
  obtain ⟨r, hr, hok⟩ := c72_from_days_ok n1 n2
  have hday := Calc.dayOf_dateOf n
  have hrep := (c71_representable hday).mpr ⟨by omega, n2⟩
  obtain ⟨r', hr', hdate⟩ := c71_from_days hday hrep.1 hrep.2
  rw [hr] at hr'
  simp only [Res.ok.injEq] at hr'
  subst hr'
  rw [Int.add_mul, Int.one_mul] at f2
  have c0 : 0 ≤ c - n * (86400 * T) := by omega
  have c1 : c - n * (86400 * T) < 86400 * T := by omega
  obtain ⟨e1, -⟩ := c77_exact T hT (c - n * (86400 * T)) hfin
  obtain ⟨r1, r2, r3, r4, r5, r6, r7, r8⟩ := c77_ranges T hT (c - n * (86400 * T))
  have hconv := (c77_conventional T hT _).mpr ⟨c0, c1⟩
  simp only [HMS.conventional, Bool.and_eq_true, Bool.not_eq_true', decide_eq_true_eq] at hconv
  obtain ⟨⟨⟨hneg, h24⟩, -⟩, -⟩ := hconv
  refine ⟨n, r.y.toInt, r.m.toNat, r.d.toNat, _, _, _, _, _, _, ?_, ?_, c79_date r hok,
    c79_time_of_day T hT _ c0 c1, by omega, by omega, by omega, ?_, ?_⟩
  · simp only [sysText, hn, hr, Res.ok_bind, Res.pure_eq]
  · have : (⟨r.y.toInt, r.m.toNat, r.d.toNat⟩ : Date) = r.date := rfl
    rw [this, hdate]; exact hday
  · have : ((hhmmss T (c - n * (86400 * T))).sub.toNat : Int) < ((10 ^ fractionalWidth T : Nat) : Int) := by
      rw [Int.toNat_of_nonneg r6]; simpa using r7
    exact Int.ofNat_lt.mp this
  · rw [Int.toNat_of_nonneg r1, Int.toNat_of_nonneg r2, Int.toNat_of_nonneg r4, Int.toNat_of_nonneg r6]
    have hnat : ((c - n * (86400 * T)).natAbs : Int) = c - n * (86400 * T) := by omega
    simp only [hnat] at e1
    generalize (10 : Int) ^ fractionalWidth T = p at *
    grind

/-! ### The text determines the time -/

theorem digits_inj {len v v' : Nat} {s s' : List Char} (h : Digits len v s) (h' : Digits len v' s')
    (e : s = s') : v = v' := by
  rw [← h.2.2, ← h'.2.2, e]

theorem digit_not {c : Char} (h : isDigit c = true) : c ≠ '-' ∧ c ≠ ' ' := by
  constructor <;> (rintro rfl; revert h; decide)

theorem signed_inj {v v' : Int} {s : List Char} (h : SignedNumeral v s) (h' : SignedNumeral v' s) :
    v = v' := by
  unfold SignedNumeral at h h'
  have nodash : ∀ {w t}, Numeral w t → t.head? ≠ some '-' := by
    rintro w t ⟨h1, h2, -, -⟩ h3
    cases t with
    | nil => exact h1 rfl
    | cons a t =>
      simp only [List.head?_cons, Option.some.injEq] at h3
      subst h3
      simp [isDigit] at h2
  split at h <;> split at h'
  · obtain ⟨t, e, n⟩ := h
    obtain ⟨t', e', n'⟩ := h'
    rw [e] at e'
    simp only [List.cons.injEq, true_and] at e'
    subst e'
    have := n.2.2.1; have := n'.2.2.1
    omega
  · obtain ⟨t, e, n⟩ := h
    rw [e] at h'
    exact absurd rfl (nodash h')
  · obtain ⟨t, e, n⟩ := h'
    rw [e] at h
    exact absurd rfl (nodash h)
  · have := h.2.2.1; have := h'.2.2.1
    omega

theorem isDate_inj {y y' : Int} {m d m' d' : Nat} {s : List Char} (h : IsDate y m d s)
    (h' : IsDate y' m' d' s) : y = y' ∧ m = m' ∧ d = d' := by
  obtain ⟨ys, ms, ds, e, hy, hm, hd⟩ := h
  obtain ⟨ys', ms', ds', e', hy', hm', hd'⟩ := h'
  rw [e] at e'
  have hlen : ('-' :: (ms ++ '-' :: ds)).length = ('-' :: (ms' ++ '-' :: ds')).length := by
    simp [hm.1, hm'.1, hd.1, hd'.1]
  obtain ⟨e1, e2⟩ := List.append_inj' e' hlen
  simp only [List.cons.injEq, true_and] at e2
  obtain ⟨e3, e4⟩ := List.append_inj e2 (by rw [hm.1, hm'.1])
  simp only [List.cons.injEq, true_and] at e4
  subst e1
  exact ⟨signed_inj hy hy', digits_inj hm hm' e3, digits_inj hd hd' e4⟩

theorem isDate_nospace {y : Int} {m d : Nat} {s : List Char} (h : IsDate y m d s) : ' ' ∉ s := by
  obtain ⟨ys, ms, ds, e, hy, hm, hd⟩ := h
  have alld : ∀ {t : List Char}, t.all isDigit = true → ' ' ∉ t := by
    intro t ht hc
    have := List.all_eq_true.mp ht _ hc
    revert this; decide
  have hys : ' ' ∉ ys := by
    unfold SignedNumeral at hy
    split at hy
    · obtain ⟨t, rfl, n⟩ := hy
      have := alld n.2.1
      simp [this]
    · exact alld hy.2.1
  rw [e]
  simp [hys, alld hm.2.1, alld hd.2.1]

theorem isTime_inj {w h m sec f h' m' sec' f' : Nat} {s : List Char} (a : IsTime w h m sec f s)
    (a' : IsTime w h' m' sec' f' s) : h = h' ∧ m = m' ∧ sec = sec' ∧ (w ≠ 0 → f = f') := by
  obtain ⟨hs, ms, ss, fs, e, p1, p2, p3, p4⟩ := a
  obtain ⟨hs', ms', ss', fs', e', q1, q2, q3, q4⟩ := a'
  rw [e] at e'
  obtain ⟨e1, e2⟩ := List.append_inj e' (by rw [p1.1, q1.1])
  simp only [List.cons.injEq, true_and] at e2
  obtain ⟨e3, e4⟩ := List.append_inj e2 (by rw [p2.1, q2.1])
  simp only [List.cons.injEq, true_and] at e4
  obtain ⟨e5, e6⟩ := List.append_inj e4 (by rw [p3.1, q3.1])
  refine ⟨digits_inj p1 q1 e1, digits_inj p2 q2 e3, digits_inj p3 q3 e5, fun hw => ?_⟩
  rw [if_neg hw] at p4 q4
  obtain ⟨t, rfl, p5⟩ := p4
  obtain ⟨t', rfl, q5⟩ := q4
  simp only [List.cons.injEq, true_and] at e6
  exact digits_inj p5 q5 e6

theorem split_space {a b a' b' : List Char} (h : ' ' ∉ a) (h' : ' ' ∉ a')
    (e : a ++ ' ' :: b = a' ++ ' ' :: b') : a = a' ∧ b = b' := by
  induction a generalizing a' with
  | nil =>
    cases a' with
    | nil => simpa using e
    | cons x xs => simp only [List.nil_append, List.cons_append, List.cons.injEq] at e; simp [← e.1] at h'
  | cons x xs ih =>
    cases a' with
    | nil => simp only [List.nil_append, List.cons_append, List.cons.injEq] at e; simp [e.1] at h
    | cons y ys =>
      simp only [List.cons_append, List.cons.injEq] at e
      simp only [List.mem_cons, not_or] at h h'
      obtain ⟨r1, r2⟩ := ih h.2 h'.2 e.2
      exact ⟨by rw [e.1, r1], r2⟩

/-- Different points in time are written differently. -/
theorem c79_injective (T : Nat) (hT : 0 < T) (hfin : ∃ k, k ≤ 18 ∧ T ∣ 10 ^ k) (c c' : Int)
    (hlo : -12687428 * (86400 * T) ≤ c) (hhi : c < 11248738 * (86400 * T))
    (hlo' : -12687428 * (86400 * T) ≤ c') (hhi' : c' < 11248738 * (86400 * T))
    (h : sysText T c = sysText T c') : c = c' := by
  obtain ⟨n, y, mo, d, hh, m, s, f, dt, tm, e1, e2, e3, e4, b1, b2, b3, b4, e5⟩ :=
    c79_sys_time T hT hfin c hlo hhi
  obtain ⟨n', y', mo', d', hh', m', s', f', dt', tm', e1', e2', e3', e4', b1', b2', b3', b4', e5'⟩ :=
    c79_sys_time T hT hfin c' hlo' hhi'
  rw [e1, e1'] at h
  simp only [Res.ok.injEq] at h
  obtain ⟨hd, ht⟩ := split_space (isDate_nospace e3) (isDate_nospace e3') h
  subst hd ht
  obtain ⟨x1, x2, x3⟩ := isDate_inj e3 e3'
  subst x1 x2 x3
  have hn : n = n' := by
    rw [← (Calc.dayOf_iff.mp e2).2, ← (Calc.dayOf_iff.mp e2').2]
  obtain ⟨z1, z2, z3, z4⟩ := isTime_inj e4 e4'
  subst hn z1 z2 z3
  have hp : (0 : Int) < 10 ^ fractionalWidth T := Int.pow_pos (by omega)
  have hf : f = f' := by
    by_cases hw : fractionalWidth T = 0
    · rw [hw] at b4 b4'; omega
    · exact z4 hw
  subst hf
  rw [e5] at e5'
  exact Int.eq_of_mul_eq_mul_right (by omega) e5'

theorem fw1000 : fractionalWidth 1000 = 3 := by decide

example : sysText 1000 (-1) = .ok "1969-12-31 23:59:59.999".toList := by
  simp [sysText, hhmmss, fw1000, absDur, pow10_eq]
  decide +kernel
example : (YMD.mk 5 1 2).text = "5-01-02".toList ∧ yearText (-44) = "-0044".toList ∧
    (YMD.mk 2023 2 29).text = "2023-02-29 is not a valid year_month_day".toList := by decide +kernel

end Gul14.Date
