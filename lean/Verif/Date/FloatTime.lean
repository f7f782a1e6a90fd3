import Verif.Date.RoundFloat
import Verif.ToNumber.CatFloat

/-!
# C137: the time of day of a floating-point duration, date.h:3530-3711

The duration has a count of a floating-point format in a unit of 1/T seconds; T is a power of ten (seconds, milliseconds, ...,
down to 1/10^18 s), so that `precision` has the same unit.  Hours, minutes and seconds are counted by 64-bit integers.
-/
namespace Gul14.Date.FloatTime
open Gul14.Ieee Gul14.Date.FloatDur Gul14.Text Gul14.Spec Gul14.ToNumber

/-- The range of the integers that count hours, minutes and seconds. -/
def lo : Int := -9223372036854775808
def hi : Int := 9223372036854775807

/-- The members of hh_mm_ss and of its decimal_format_seconds, date.h:3550-3551, 3656-3659. -/
structure Hms where
  h : Int
  m : Int
  s : Int
  sub : Fl
  neg : Bool
  deriving DecidableEq

/-- detail::abs, date.h:3623-3634. -/
def abs (d : Fl) : Fl := if Fl.le (.num 0) d then d else d.neg

/-- decimal_format_seconds(d), date.h:3559-3562; the cast to `precision` keeps the unit. -/
def dfs (f : Format) (T : Int) (x : Fl) : Res (Int × Fl) := do
  let s ← truncI f lo hi T x
  pure (s, f.sub x (ofUnit f T (f.round s)))

/-- hh_mm_ss(d), date.h:3669-3674. -/
def make (f : Format) (T : Int) (d : Fl) : Res Hms := do
  let a := abs d
  let h ← truncI f lo hi (3600 * T) a
  let mm ← truncI f lo hi (60 * T) a
  let h60 ← inRange lo hi (h * 60)
  let m ← inRange lo hi (mm - h60)
  let x := f.sub (f.sub a (ofUnit f (3600 * T) (f.round h))) (ofUnit f (60 * T) (f.round m))
  let r ← dfs f T x
  pure ⟨h, m, r.1, r.2, Fl.lt d (.num 0)⟩

/-- decimal_format_seconds::to_duration, date.h:3568-3571. -/
def dfsDuration (f : Format) (T : Int) (t : Hms) : Fl := f.add (ofUnit f T (f.round t.s)) t.sub

/-- to_duration and the conversion to `precision`, date.h:3684-3686. -/
def toDuration (f : Format) (T : Int) (t : Hms) : Fl :=
  f.mul (f.add (f.add (dfsDuration f T t) (ofUnit f (60 * T) (f.round t.m))) (ofUnit f (3600 * T) (f.round t.h)))
    (f.round ((1 - 2 * (if t.neg then 1 else 0) : Int)))

/-- in_conventional_range, date.h:3573-3576, 3688-3692. -/
def conventional (f : Format) (T : Int) (t : Hms) : Bool :=
  !t.neg && decide (t.h < 24) && decide (t.m < 60) && Fl.lt t.sub (ofUnit f T (f.round 1)) && decide (t.s < 60)

/-- A 64-bit integer on a stream without format flags: its digits.  Negative values do not occur. -/
def dec (n : Int) : Str := decNat (n.toNat + 1) n.toNat

/-- The seconds on a stream, date.h:3586-3597, for a duration counted in seconds (`width` is 0, six digits). -/
def printSeconds (f : Format) (t : Hms) : Str :=
  match dfsDuration f 1 t with
  | .num d => (if d < 10 then [48] else []) ++ fixedText (.num d)
  | _ => []

/-- operator<<, date.h:3696-3711: `-`, hours, `:`, minutes, `:` and the seconds. -/
def print (f : Format) (t : Hms) : Str :=
  (if t.neg then [45] else []) ++ (if t.h < 10 then [48] else []) ++ dec t.h ++ [58] ++
    (if t.m < 10 then [48] else []) ++ dec t.m ++ [58] ++ printSeconds f t

/-! ## Proofs -/
section
variable {f : Format}

/-- Subtracting an integer that is not larger is exact. -/
theorem grid_sub (h : Usual f) {a : ℚ} (hg : f.Grid a) (ha : a < (2 : ℚ) ^ f.p) {n : Int} (h0 : 0 ≤ n) (hn : (n : ℚ) ≤ a) :
    f.Grid (a - n) := by
  have hn0 : (0 : ℚ) ≤ n := by exact_mod_cast h0
  have hle : |a - n| ≤ |a| := by
    rw [abs_of_nonneg (by linarith), abs_of_nonneg (by linarith)]; linarith
  obtain ⟨m, e, h1, h2, h3⟩ := hg
  rcases le_or_gt 0 e with he | he
  · obtain ⟨k, hk⟩ := grid_multiple (e := e) (q := 0) m he
    rw [hk] at h1
    simp only [zpow_zero, mul_one] at h1
    have e1 : a - n = ((k - n : Int) : ℚ) := by rw [h1]; push_cast; ring
    rw [e1]
    apply gridInt h
    rw [← e1, abs_of_nonneg (by linarith)]
    linarith
  · obtain ⟨k, hk⟩ := grid_multiple (e := 0) (q := e) n he.le
    simp only [zpow_zero, mul_one] at hk
    have e1 : a - n = ((m - k : Int) : ℚ) * (2 : ℚ) ^ e := by
      rw [h1, hk]; push_cast; ring
    refine ⟨m - k, e, e1, ?_, h3⟩
    rw [e1, h1, abs_mul, abs_mul] at hle
    have := le_of_mul_le_mul_right hle (abs_pos.2 (zpow2_pos e).ne')
    have : |m - k| ≤ |m| := by exact_mod_cast this
    omega

theorem sub_exact (h : Usual f) {a : ℚ} (hg : f.Grid a) (ha : a < (2 : ℚ) ^ f.p) {n : Int} (h0 : 0 ≤ n) (hn : (n : ℚ) ≤ a) :
    f.sub (.num a) (.num n) = .num (a - n) := by
  have hn0 : (0 : ℚ) ≤ n := by exact_mod_cast h0
  rw [sub_eq h (by rw [abs_of_nonneg (by linarith)]; linarith), near_exact f h.p (grid_sub h hg ha h0 hn)]

theorem add_exact (h : Usual f) {a b : ℚ} (hg : f.Grid (a + b)) (h0 : 0 ≤ a + b) (ha : a + b < (2 : ℚ) ^ f.p) :
    f.add (.num a) (.num b) = .num (a + b) := by
  simp only [Format.add]
  exact round_grid h hg (by rw [abs_of_nonneg h0]; exact ha.le)

theorem truncI_exact (h : Usual f) {N : Int} (hN : 1 ≤ N) {d : ℚ} (h0 : 0 ≤ d) (hg : f.Grid d)
    (hb : d + N < (2 : ℚ) ^ f.p) (hr : d < 2 ^ 63) : truncI f lo hi N (.num d) = .ok ⌊d / N⌋ := by
  have hpos : (0 : ℚ) < N := by exact_mod_cast (by omega : 0 < N)
  have h1N : (1 : ℚ) ≤ N := by exact_mod_cast hN
  obtain ⟨y, e1, -, e2⟩ := toUnit_tint h hN hg (by rw [abs_of_nonneg h0]; exact hb)
  have hq : 0 ≤ d / N := div_nonneg h0 hpos.le
  rw [show tint (d / N) = ⌊d / N⌋ from if_pos hq] at e2
  have l0 : 0 ≤ ⌊d / N⌋ := Int.floor_nonneg.2 hq
  have l1 : ⌊d / N⌋ < 2 ^ 63 := by
    rw [Int.floor_lt]
    rw [div_lt_iff₀ hpos]
    push_cast
    nlinarith
  rw [truncI, e1, FloatDur.castInt, e2]
  exact if_pos ⟨by unfold lo; omega, by unfold hi; omega⟩

theorem ofUnit_exact (h : Usual f) {N t : Int} (ht : 0 ≤ t) (hN : 1 ≤ N) (hn : (N : ℚ) < (2 : ℚ) ^ f.p)
    (hm : ((t * N : Int) : ℚ) < (2 : ℚ) ^ f.p) : ofUnit f N (f.round t) = .num ((t * N : Int) : ℚ) := by
  have h1 : (0 : ℚ) ≤ t := by exact_mod_cast ht
  have h2 : (1 : ℚ) ≤ N := by exact_mod_cast hN
  have h3 : ((t * N : Int) : ℚ) = t * N := by push_cast; ring
  have hm' : (t : ℚ) * N < (2 : ℚ) ^ f.p := by rw [← h3]; exact hm
  have ht' : |(t : ℚ)| < (2 : ℚ) ^ f.p := by rw [abs_of_nonneg h1]; nlinarith
  rw [round_int h ht', ofUnit_eq h ht' (by rw [abs_of_nonneg (by linarith)]; exact hn)
    (by rw [h3, abs_of_nonneg (by positivity)]; exact hm'), h3]

/-- All the numbers that occur. -/
structure Parts (f : Format) (T : Int) (a : ℚ) (h m s : Int) (x : ℚ) : Prop where
  h0 : 0 ≤ h
  m0 : 0 ≤ m
  m1 : m < 60
  s0 : 0 ≤ s
  s1 : s < 60
  x0 : 0 ≤ x
  x1 : x < T
  sum : a = ((h * 60 + m) * 60 + s) * T + x
  g1 : f.Grid (((m : ℚ) * 60 + s) * T + x)
  g2 : f.Grid ((s : ℚ) * T + x)
  g3 : f.Grid x

theorem abs_num (d : ℚ) : FloatTime.abs (.num d) = .num |d| := by
  unfold FloatTime.abs
  rcases le_or_gt 0 d with h | h
  · have : Fl.le (.num 0) (.num d) = true := by simp [Fl.le, h]
    rw [this, if_pos rfl, abs_of_nonneg h]
  · have : Fl.le (.num 0) (.num d) = false := by simp [Fl.le, h]
    rw [this]
    simp [Fl.neg, abs_of_neg h]

theorem grid_abs {d : ℚ} (hg : f.Grid d) : f.Grid |d| := by
  rcases abs_choice d with h | h <;> rw [h]
  · exact hg
  · obtain ⟨m, e, h1, h2, h3⟩ := hg
    exact ⟨-m, e, by push_cast; rw [h1]; ring, by rw [abs_neg]; exact h2, h3⟩

theorem make_eq (u : Usual f) {T : Int} (hT : 1 ≤ T) {d : ℚ} (hg : f.Grid d)
    (hb : |d| + 3600 * T < (2 : ℚ) ^ f.p) (hr : |d| < 2 ^ 63) :
    ∃ h m s x, make f T (.num d) = .ok ⟨h, m, s, .num x, decide (d < 0)⟩ ∧ Parts f T |d| h m s x := by
  have ga := grid_abs hg
  have a0 := abs_nonneg d
  set a := |d| with ha
  have hT1 : (1 : ℚ) ≤ T := by exact_mod_cast hT
  have hTp : (0 : ℚ) < T := by linarith
  have hap : a < (2 : ℚ) ^ f.p := by linarith
  -- the exact quotients
  set h := ⌊a / ((3600 * T : Int) : ℚ)⌋ with hh
  set q := ⌊a / ((60 * T : Int) : ℚ)⌋ with hq
  have hl : (h : ℚ) * (3600 * T) ≤ a := by
    have := Int.floor_le (a / ((3600 * T : Int) : ℚ))
    rw [le_div_iff₀ (by push_cast; positivity)] at this
    have c1 : ((3600 * T : Int) : ℚ) = 3600 * T := by push_cast; ring
    rw [← hh, c1] at this; exact this
  have hu : a < (h + 1) * (3600 * T) := by
    have := Int.lt_floor_add_one (a / ((3600 * T : Int) : ℚ))
    rw [div_lt_iff₀ (by push_cast; positivity)] at this
    have c1 : ((3600 * T : Int) : ℚ) = 3600 * T := by push_cast; ring
    rw [← hh, c1] at this; exact this
  have ql : (q : ℚ) * (60 * T) ≤ a := by
    have := Int.floor_le (a / ((60 * T : Int) : ℚ))
    rw [le_div_iff₀ (by push_cast; positivity)] at this
    have c1 : ((60 * T : Int) : ℚ) = 60 * T := by push_cast; ring
    rw [← hq, c1] at this; exact this
  have qu : a < (q + 1) * (60 * T) := by
    have := Int.lt_floor_add_one (a / ((60 * T : Int) : ℚ))
    rw [div_lt_iff₀ (by push_cast; positivity)] at this
    have c1 : ((60 * T : Int) : ℚ) = 60 * T := by push_cast; ring
    rw [← hq, c1] at this; exact this
  have h0 : 0 ≤ h := Int.floor_nonneg.2 (div_nonneg a0 (by push_cast; positivity))
  have m0 : 0 ≤ q - h * 60 := by
    have : ((h * 60 : Int) : ℚ) * (60 * T) < ((q + 1 : Int) : ℚ) * (60 * T) := by push_cast; nlinarith
    have := lt_of_mul_lt_mul_right this (by positivity)
    have : h * 60 < q + 1 := by exact_mod_cast this
    omega
  have m1 : q - h * 60 < 60 := by
    have : (q : ℚ) * (60 * T) < (((h + 1) * 60 : Int) : ℚ) * (60 * T) := by push_cast; nlinarith
    have := lt_of_mul_lt_mul_right this (by positivity)
    have : q < (h + 1) * 60 := by exact_mod_cast this
    omega
  have hb63 : h * 60 ≤ q := by omega
  have qb : q < 2 ^ 63 := by
    have : (q : ℚ) < ((2 ^ 63 : Int) : ℚ) := by
      have q0 : (0 : ℚ) ≤ q := by exact_mod_cast (by omega : 0 ≤ q)
      push_cast; nlinarith
    exact_mod_cast this
  set m := q - h * 60 with hm
  have eq : (q : ℚ) = h * 60 + m := by rw [hm]; push_cast; ring
  rw [eq] at ql qu
  have h0' : (0 : ℚ) ≤ h := by exact_mod_cast h0
  have m0' : (0 : ℚ) ≤ m := by exact_mod_cast m0
  have m1' : (m : ℚ) ≤ 59 := by exact_mod_cast (by omega : m ≤ 59)
  -- the remainder after the hours and after the minutes
  have e1 : ((h * (3600 * T) : Int) : ℚ) = h * (3600 * T) := by push_cast; ring
  have e2 : ((m * (60 * T) : Int) : ℚ) = m * (60 * T) := by push_cast; ring
  have hH0 : (0 : Int) ≤ h * (3600 * T) := by positivity
  have hM0 : (0 : Int) ≤ m * (60 * T) := by positivity
  have g1 := grid_sub u ga hap hH0 (by rw [e1]; exact hl)
  rw [e1] at g1
  have hr1 : a - h * (3600 * T) < (2 : ℚ) ^ f.p := by nlinarith
  have g2 := grid_sub u g1 hr1 hM0 (by rw [e2]; nlinarith)
  rw [e2] at g2
  set y := a - h * (3600 * T) - m * (60 * T) with hy
  have y0 : 0 ≤ y := by rw [hy]; nlinarith
  have y1 : y < 60 * T := by rw [hy]; nlinarith
  have yp : y < (2 : ℚ) ^ f.p := by linarith
  -- the seconds
  set s := ⌊y / (T : ℚ)⌋ with hs
  have sl : (s : ℚ) * T ≤ y := by
    have := Int.floor_le (y / (T : ℚ))
    rwa [le_div_iff₀ hTp] at this
  have su : y < (s + 1) * T := by
    have := Int.lt_floor_add_one (y / (T : ℚ))
    rwa [div_lt_iff₀ hTp] at this
  have s0 : 0 ≤ s := Int.floor_nonneg.2 (div_nonneg y0 hTp.le)
  have s1 : s < 60 := by
    rw [hs, Int.floor_lt, div_lt_iff₀ hTp]; push_cast; exact y1
  have e3 : ((s * T : Int) : ℚ) = s * T := by push_cast; ring
  have hS0 : (0 : Int) ≤ s * T := by positivity
  have g3 := grid_sub u g2 yp hS0 (by rw [e3]; exact sl)
  rw [e3] at g3
  refine ⟨h, m, s, y - s * T, ?_, ⟨h0, m0, m1, s0, s1, by linarith, by linarith, by rw [hy]; ring, ?_, ?_, g3⟩⟩
  · unfold make
    simp only [abs_num, ← ha]
    rw [truncI_exact u (N := 3600 * T) (by omega) a0 ga (by push_cast; linarith) hr]
    show (do
      let mm ← truncI f lo hi (60 * T) (.num a)
      let h60 ← inRange lo hi (h * 60)
      let m ← inRange lo hi (mm - h60)
      let x := f.sub (f.sub (.num a) (ofUnit f (3600 * T) (f.round h))) (ofUnit f (60 * T) (f.round m))
      let r ← dfs f T x
      pure (⟨h, m, r.1, r.2, Fl.lt (.num d) (.num 0)⟩ : Hms)) = _
    rw [truncI_exact u (N := 60 * T) (by omega) a0 ga (by push_cast; nlinarith) hr]
    have i1 : inRange lo hi (h * 60) = .ok (h * 60) := if_pos ⟨by unfold lo; omega, by unfold hi; omega⟩
    have i2 : inRange lo hi m = .ok m := if_pos ⟨by unfold lo; omega, by unfold hi; omega⟩
    show (do
      let h60 ← inRange lo hi (h * 60)
      let m ← inRange lo hi (q - h60)
      let x := f.sub (f.sub (.num a) (ofUnit f (3600 * T) (f.round h))) (ofUnit f (60 * T) (f.round m))
      let r ← dfs f T x
      pure (⟨h, m, r.1, r.2, Fl.lt (.num d) (.num 0)⟩ : Hms)) = _
    rw [i1]
    show (do
      let m ← inRange lo hi m
      let x := f.sub (f.sub (.num a) (ofUnit f (3600 * T) (f.round h))) (ofUnit f (60 * T) (f.round m))
      let r ← dfs f T x
      pure (⟨h, m, r.1, r.2, Fl.lt (.num d) (.num 0)⟩ : Hms)) = _
    rw [i2]
    show (do
      let r ← dfs f T (f.sub (f.sub (.num a) (ofUnit f (3600 * T) (f.round h))) (ofUnit f (60 * T) (f.round m)))
      pure (⟨h, m, r.1, r.2, Fl.lt (.num d) (.num 0)⟩ : Hms)) = _
    rw [ofUnit_exact u h0 (by omega) (by push_cast; linarith) (by rw [e1]; linarith),
      sub_exact u ga hap hH0 (by rw [e1]; exact hl), e1,
      ofUnit_exact u m0 (by omega) (by push_cast; nlinarith) (by rw [e2]; nlinarith),
      sub_exact u g1 hr1 hM0 (by rw [e2]; nlinarith), e2, ← hy]
    unfold dfs
    rw [truncI_exact u hT y0 g2 (by linarith) (by nlinarith)]
    show Res.ok (⟨h, m, s, f.sub (.num y) (ofUnit f T (f.round s)), decide (d < 0)⟩ : Hms) = _
    rw [ofUnit_exact u s0 hT (by nlinarith) (by rw [e3]; linarith), sub_exact u g2 yp hS0 (by rw [e3]; exact sl), e3]
  · convert g1 using 1; rw [hy]; ring
  · convert g2 using 1; ring

end

/-- C137: hours, minutes, seconds and the fraction of a second add up to the absolute value of the duration, exactly and for every
number of the format below the bound; the sign is kept separately, and to_duration gives the duration back. -/
theorem c137_parts (f : Format) (u : Usual f) (w : Nat) (d : ℚ) (hd : f.Rep d)
    (hb : |d| + 3600 * 10 ^ w < (2 : ℚ) ^ f.p) (hr : |d| < 2 ^ 63) :
    ∃ (h m s : Int) (x : ℚ) (t : Hms), make f (10 ^ w) (.num d) = .ok t ∧ t.h = h ∧ t.m = m ∧ t.s = s ∧ t.sub = .num x ∧
      (t.neg = true ↔ d < 0) ∧ 0 ≤ h ∧ 0 ≤ m ∧ m ≤ 59 ∧ 0 ≤ s ∧ s ≤ 59 ∧ 0 ≤ x ∧ x < 10 ^ w ∧
      |d| = (h * 3600 + m * 60 + s) * 10 ^ w + x ∧ toDuration f (10 ^ w) t = .num d := by
  have hT : (1 : Int) ≤ 10 ^ w := one_le_pow₀ (by norm_num)
  have c : ((10 ^ w : Int) : ℚ) = 10 ^ w := by push_cast; rfl
  have hg := rep_grid f hd
  obtain ⟨h, m, s, x, e, p⟩ := make_eq u hT hg (by rw [c]; exact hb) hr
  refine ⟨h, m, s, x, _, e, rfl, rfl, rfl, rfl, by simp, p.h0, p.m0, by have := p.m1; omega, p.s0, by have := p.s1; omega, p.x0,
    by rw [← c]; exact p.x1, by rw [p.sum, c]; ring, ?_⟩
  generalize hTT : (10 ^ w : Int) = T at *
  rw [← c] at hb
  have hT1 : (1 : ℚ) ≤ T := by exact_mod_cast hT
  have h0 : (0 : ℚ) ≤ h := by exact_mod_cast p.h0
  have m0 : (0 : ℚ) ≤ m := by exact_mod_cast p.m0
  have s0 : (0 : ℚ) ≤ s := by exact_mod_cast p.s0
  have x0 := p.x0
  have hsum := p.sum
  have a0 := abs_nonneg d
  have n1 : 0 ≤ (h : ℚ) * T := by positivity
  have n2 : 0 ≤ (m : ℚ) * T := by positivity
  have n3 : 0 ≤ (s : ℚ) * T := by positivity
  have bH : (h : ℚ) * (3600 * T) ≤ |d| := by rw [hsum]; nlinarith
  have bM : (m : ℚ) * (60 * T) ≤ |d| := by rw [hsum]; nlinarith
  have bS : (s : ℚ) * T ≤ |d| := by rw [hsum]; nlinarith
  unfold toDuration dfsDuration
  simp only
  rw [ofUnit_exact u p.s0 hT (by nlinarith) (by push_cast; nlinarith),
    ofUnit_exact u p.m0 (by omega) (by push_cast; nlinarith) (by push_cast; nlinarith),
    ofUnit_exact u p.h0 (by omega) (by push_cast; nlinarith) (by push_cast; nlinarith)]
  have k1 : ((s * T : Int) : ℚ) + x = s * T + x := by push_cast; ring
  rw [add_exact u (by rw [k1]; exact p.g2) (by rw [k1]; linarith) (by rw [k1]; nlinarith), k1]
  have k2 : (s * T + x : ℚ) + ((m * (60 * T) : Int) : ℚ) = (m * 60 + s) * T + x := by push_cast; ring
  rw [add_exact u (by rw [k2]; exact p.g1) (by rw [k2]; nlinarith) (by rw [k2]; nlinarith), k2]
  have k3 : (((m : ℚ) * 60 + s) * T + x) + ((h * (3600 * T) : Int) : ℚ) = |d| := by rw [hsum]; push_cast; ring
  rw [add_exact u (by rw [k3]; exact grid_abs hg) (by rw [k3]; exact a0) (by rw [k3]; linarith), k3]
  have hp4 : (4 : ℚ) ≤ (2 : ℚ) ^ f.p := by
    calc (4 : ℚ) = 2 ^ 2 := by norm_num
      _ ≤ 2 ^ f.p := pow_le_pow_right₀ (by norm_num) u.p2
  rcases lt_or_ge d 0 with hneg | hneg
  · have k : f.round ((1 - 2 * (if decide (d < 0) = true then 1 else 0) : Int) : ℚ) = .num (-1) := by
      have := round_int u (n := -1) (by push_cast; rw [abs_neg, abs_one]; linarith)
      simp only [decide_eq_true_eq, hneg, if_true]
      push_cast at this ⊢
      convert this using 2
    rw [k]
    simp only [Format.mul]
    have : |d| * -1 = d := by rw [abs_of_neg hneg]; ring
    rw [this]
    exact round_grid u hg (by linarith)
  · have k : f.round ((1 - 2 * (if decide (d < 0) = true then 1 else 0) : Int) : ℚ) = .num 1 := by
      have := round_int u (n := 1) (by push_cast; rw [abs_one]; linarith)
      simp only [decide_eq_true_eq, not_lt.2 hneg, if_false]
      push_cast at this ⊢
      convert this using 2
    rw [k]
    simp only [Format.mul]
    have : |d| * 1 = d := by rw [abs_of_nonneg hneg]; ring
    rw [this]
    exact round_grid u hg (by linarith)

/-- in_conventional_range: from midnight to the end of the day. -/
theorem c137_conventional (f : Format) (u : Usual f) (w : Nat) (d : ℚ) (hd : f.Rep d)
    (hb : |d| + 3600 * 10 ^ w < (2 : ℚ) ^ f.p) (hr : |d| < 2 ^ 63) :
    ∃ t, make f (10 ^ w) (.num d) = .ok t ∧ (conventional f (10 ^ w) t = true ↔ 0 ≤ d ∧ d < 86400 * 10 ^ w) := by
  have hT : (1 : Int) ≤ 10 ^ w := one_le_pow₀ (by norm_num)
  have c : ((10 ^ w : Int) : ℚ) = 10 ^ w := by push_cast; rfl
  have hg := rep_grid f hd
  obtain ⟨h, m, s, x, e, p⟩ := make_eq u hT hg (by rw [c]; exact hb) hr
  refine ⟨_, e, ?_⟩
  generalize hTT : (10 ^ w : Int) = T at *
  rw [← c] at hb ⊢
  have hT1 : (1 : ℚ) ≤ T := by exact_mod_cast hT
  have a0 := abs_nonneg d
  have k := ofUnit_exact u (N := T) (t := 1) (by norm_num) hT (by nlinarith) (by push_cast; nlinarith)
  have k' : ofUnit f T (f.round 1) = .num T := by
    have : f.round (((1 : Int) : ℚ)) = f.round 1 := by norm_num
    rw [← this, k]; norm_num
  have hx : Fl.lt (.num x) (.num T) = true := by simp only [Fl.lt, decide_eq_true_eq]; exact p.x1
  simp only [conventional, k', hx, Bool.and_eq_true, Bool.not_eq_true', decide_eq_true_eq, decide_eq_false_iff_not, not_lt, p.m1, p.s1,
    and_true]
  have m1 : (m : ℚ) ≤ 59 := by exact_mod_cast (by have := p.m1; omega : m ≤ 59)
  have s1 : (s : ℚ) ≤ 59 := by exact_mod_cast (by have := p.s1; omega : s ≤ 59)
  have m0 : (0 : ℚ) ≤ m := by exact_mod_cast p.m0
  have s0 : (0 : ℚ) ≤ s := by exact_mod_cast p.s0
  have x0 := p.x0
  have x1 := p.x1
  have hsum := p.sum
  constructor
  · rintro ⟨h0, h1⟩
    refine ⟨h0, ?_⟩
    have : (h : ℚ) ≤ 23 := by exact_mod_cast (by omega : h ≤ 23)
    rw [abs_of_nonneg h0] at hsum
    have q : ((h * 60 + m) * 60 + s : ℚ) ≤ 86399 := by linarith
    rw [hsum]; nlinarith
  · rintro ⟨h0, h1⟩
    refine ⟨h0, ?_⟩
    by_contra hc
    have : (24 : ℚ) ≤ h := by exact_mod_cast (by omega : 24 ≤ h)
    rw [abs_of_nonneg h0] at hsum
    have q : (86400 : ℚ) ≤ (h * 60 + m) * 60 + s := by linarith
    nlinarith

/-- Conversion of infinities and NaN is undefined. -/
theorem c137_undefined (f : Format) (w : Nat) (d : Fl) (hd : d = .nan ∨ ∃ b, d = .inf b) : make f (10 ^ w) d = .ub := by
  have ha : FloatTime.abs d = .nan ∨ ∃ b, FloatTime.abs d = .inf b := by
    unfold FloatTime.abs
    rcases hd with rfl | ⟨b, rfl⟩
    · left; split <;> rfl
    · right; split
      · exact ⟨b, rfl⟩
      · exact ⟨!b, rfl⟩
  have key : truncI f lo hi (3600 * 10 ^ w) (FloatTime.abs d) = .ub := by
    unfold truncI toUnit
    rcases ha with h | ⟨b, h⟩ <;> rw [h]
    · split <;> rfl
    · split
      · rfl
      · cases f.round ((3600 * 10 ^ w : Int) : ℚ) <;> rfl
  show (do
    let h ← truncI f lo hi (3600 * 10 ^ w) (FloatTime.abs d)
    _) = _
  rw [key]; rfl

/-! ## The text -/

theorem decNumeral_zero {s : Str} {n : Nat} (h : DecNumeral s n) : DecNumeral ([48] ++ s) n := by
  induction h with
  | nil => exact DecNumeral.snoc (s := []) (n := 0) (c := 48) .nil (by decide) (by decide)
  | snoc _ h1 h2 ih => rw [← List.append_assoc]; exact .snoc ih h1 h2

theorem two_digits : ∀ n < 60, ((if n < 10 then [48] else []) ++ decNat (n + 1) n : Str).length = 2 := by decide +kernel

theorem two_numeral (n : Nat) : DecNumeral ((if n < 10 then [48] else []) ++ decNat (n + 1) n) n := by
  have := (decNat_spec (n + 1) n (by omega)).1
  split
  · exact decNumeral_zero this
  · exact this

theorem two_length (n : Nat) : 2 ≤ ((if n < 10 then [48] else []) ++ decNat (n + 1) n : Str).length := by
  have ne : ∀ k, 0 < (decNat (k + 1) k).length := fun k => List.length_pos_iff.2 (decNat_spec (k + 1) k (by omega)).2
  split
  · have := ne n
    simp only [List.length_append, List.length_cons, List.length_nil]; omega
  · rename_i h
    have h2 := decNat_spec n (n / 10) (by omega)
    have := List.length_pos_iff.2 h2.2
    show 2 ≤ (if n < 10 then [UInt8.ofNat (48 + n)] else decNat n (n / 10) ++ [UInt8.ofNat (48 + n % 10)] : Str).length
    rw [if_neg h]
    simp only [List.length_append, List.length_cons, List.length_nil]; omega

theorem int_two {n : Int} (h : 0 ≤ n) : ((if n < 10 then [48] else []) ++ dec n : Str) =
    (if n.toNat < 10 then [48] else []) ++ decNat (n.toNat + 1) n.toNat := by
  have : n < 10 ↔ n.toNat < 10 := by omega
  simp only [dec, this]

/-- The seconds that are printed. -/
theorem printSeconds_eq {f : Format} (u : Usual f) {a : ℚ} {h m s : Int} {x : ℚ} {neg : Bool} (p : Parts f 1 a h m s x)
    (hb : 3600 < (2 : ℚ) ^ f.p) : printSeconds f ⟨h, m, s, .num x, neg⟩ =
      (if (s : ℚ) + x < 10 then [48] else []) ++ fixedText (.num (s + x)) := by
  have s0 : (0 : ℚ) ≤ s := by exact_mod_cast p.s0
  have s1 : (s : ℚ) ≤ 59 := by exact_mod_cast (by have := p.s1; omega : s ≤ 59)
  have x0 := p.x0
  have x1 := p.x1
  push_cast at x1
  have g := p.g2
  push_cast at g
  rw [mul_one] at g
  have : dfsDuration f 1 ⟨h, m, s, .num x, neg⟩ = .num (s + x) := by
    unfold dfsDuration
    simp only
    rw [ofUnit_exact u p.s0 (by norm_num) (by push_cast; linarith) (by push_cast; linarith)]
    have e : ((s * 1 : Int) : ℚ) = s := by push_cast; ring
    rw [e]
    exact add_exact u g (by linarith) (by linarith)
  unfold printSeconds
  rw [this]

/-- `hh:mm:ss.ffffff`, with a minus sign for negative durations: two digits or more for the hours, two for the minutes and the
seconds, and six for the fraction, whose value is within half a microsecond.  What is missing: the last half microsecond of each
minute, and that before the tenth second, where the number of seconds is rounded up. -/
theorem c137_text_partial (f : Format) (u : Usual f) (d : ℚ) (hd : f.Rep d) (hb : |d| + 3600 < (2 : ℚ) ^ f.p) (hr : |d| < 2 ^ 63)
    (k : Nat) (y : ℚ) (hk : |d| = k * 60 + y) (y0 : 0 ≤ y) (y1 : y + 1 / 2000000 < 60) (y2 : y < 10 → y + 1 / 2000000 < 10) :
    ∃ (t : Hms) (H M b a : Str) (n : Nat), make f 1 (.num d) = .ok t ∧
      print f t = (if d < 0 then [45] else []) ++ H ++ [58] ++ M ++ [58] ++ b ++ [46] ++ a ∧
      2 ≤ H.length ∧ DecNumeral H (k / 60) ∧ M.length = 2 ∧ DecNumeral M (k % 60) ∧ b.length = 2 ∧ a.length = 6 ∧
      DecNumeral (b ++ a) n ∧ |(n : ℚ) / 1000000 - y| ≤ 1 / 2000000 := by
  obtain ⟨h, m, s, x, e, p⟩ := make_eq u (T := 1) (by norm_num) (rep_grid f hd) (by push_cast; linarith) hr
  have s0 : (0 : ℚ) ≤ s := by exact_mod_cast p.s0
  have s1 : (s : ℚ) ≤ 59 := by exact_mod_cast (by have := p.s1; omega : s ≤ 59)
  have x0 := p.x0
  have x1 := p.x1
  have hsum := p.sum
  push_cast at x1 hsum
  have hkz : (k : Int) = h * 60 + m := by
    have a1 : ((k : Int) : ℚ) < ((h * 60 + m + 1 : Int) : ℚ) := by push_cast; linarith
    have a2 : ((h * 60 + m : Int) : ℚ) < ((k + 1 : Int) : ℚ) := by push_cast; linarith
    have a1 : (k : Int) < h * 60 + m + 1 := by exact_mod_cast a1
    have a2 : h * 60 + m < (k : Int) + 1 := by exact_mod_cast a2
    omega
  have hy : (s : ℚ) + x = y := by
    have : (k : ℚ) = h * 60 + m := by exact_mod_cast hkz
    rw [this] at hk
    linarith
  have m0 := p.m0
  have m1 := p.m1
  have h0 := p.h0
  have eh : h.toNat = k / 60 := by omega
  have em : m.toNat = k % 60 := by omega
  have hq : 0 ≤ y * 1000000 := by positivity
  have err := roundInt_err (y * 1000000)
  rw [abs_le] at err
  have r0 : 0 ≤ roundInt (y * 1000000) := by
    have : (-1 : ℚ) < roundInt (y * 1000000) := by linarith [err.1]
    have : (-1 : Int) < roundInt (y * 1000000) := by exact_mod_cast this
    omega
  have r1 : roundInt (y * 1000000) < 60000000 := by
    have : (roundInt (y * 1000000) : ℚ) < 60000000 := by linarith [err.2]
    exact_mod_cast this
  have r2 : y < 10 ↔ roundInt (y * 1000000) < 10000000 := by
    constructor
    · intro hlt
      have := y2 hlt
      have : (roundInt (y * 1000000) : ℚ) < 10000000 := by linarith [err.2]
      exact_mod_cast this
    · intro hlt
      by_contra hc
      have : (roundInt (y * 1000000) : ℚ) ≤ ((9999999 : Int) : ℚ) := by exact_mod_cast (by omega : roundInt (y * 1000000) ≤ 9999999)
      push_cast at this
      linarith [err.1]
  generalize hN : (roundInt (y * 1000000)).toNat = N at *
  have hNz : ((N : Int)) = roundInt (y * 1000000) := by omega
  have r3 : y < 10 ↔ N / 1000000 < 10 := by rw [r2]; omega
  have hl := lastDigits_spec (two_numeral (N / 1000000)) 6 (N % 1000000)
  refine ⟨_, _, _, _, _, N, e, ?_, two_length (k / 60), two_numeral (k / 60), two_digits (k % 60) (by omega), two_numeral (k % 60),
    two_digits (N / 1000000) (by omega), hl.2, ?_, ?_⟩
  · have hp : printSeconds f ⟨h, m, s, .num x, decide (d < 0)⟩ =
        (if N / 1000000 < 10 then [48] else []) ++ decNat (N / 1000000 + 1) (N / 1000000) ++ [46] ++ lastDigits 6 (N % 1000000) := by
      rw [printSeconds_eq u p (by linarith [abs_nonneg d]), hy]
      simp only [r3, fixedText, hN]
      simp only [List.append_assoc]
    have ha := int_two h0
    have hb' := int_two m0
    rw [eh] at ha
    rw [em] at hb'
    unfold print
    simp only
    rw [hp]
    simp only [decide_eq_true_eq]
    have assoc : ∀ (A B C D E F G : Str), A ++ B ++ C ++ [58] ++ D ++ E ++ [58] ++ (F ++ [46] ++ G) =
        A ++ (B ++ C) ++ [58] ++ (D ++ E) ++ [58] ++ F ++ [46] ++ G := by intros; simp only [List.append_assoc]
    rw [assoc, ha, hb']
  · have e' : N / 1000000 * 10 ^ 6 + N % 1000000 % 10 ^ 6 = N := by norm_num; omega
    have h2 := hl.1
    rw [e'] at h2
    exact h2
  · have : (N : ℚ) = roundInt (y * 1000000) := by exact_mod_cast hNz
    rw [this, abs_le]
    constructor <;> linarith [err.1, err.2]

/-- In the last half microsecond of the first minute the text says 60 seconds, and before the tenth second it has three digits. -/
theorem c137_text_violated (f : Format) (u : Usual f) (hp : 3660 < (2 : ℚ) ^ f.p) (d : ℚ) (hd : f.Rep d) :
    (60 - 1 / 2000000 < d → d < 60 → ∃ t, make f 1 (.num d) = .ok t ∧ print f t = "00:00:60.000000".toUTF8.toList) ∧
    (10 - 1 / 2000000 < d → d < 10 → ∃ t, make f 1 (.num d) = .ok t ∧ print f t = "00:00:010.000000".toUTF8.toList) := by
  have key : ∀ K : Int, 0 < K → K ≤ 60 → (K : ℚ) - 1 / 2000000 < d → d < K → ∃ t, make f 1 (.num d) = .ok t ∧
      print f t = "00:00:".toUTF8.toList ++ ((if d < 10 then [48] else []) ++
        (decNat (K.toNat + 1) K.toNat ++ [46] ++ lastDigits 6 0)) := by
    intro K hK0 hK l1 l2
    have hK0' : (1 : ℚ) ≤ K := by exact_mod_cast hK0
    have hK' : (K : ℚ) ≤ 60 := by exact_mod_cast hK
    have d0 : 0 ≤ d := by linarith
    obtain ⟨h, m, s, x, e, p⟩ := make_eq u (T := 1) (by norm_num) (rep_grid f hd)
      (by rw [abs_of_nonneg d0]; push_cast; linarith) (by rw [abs_of_nonneg d0]; linarith)
    have hsum := p.sum
    rw [abs_of_nonneg d0] at hsum
    have h0 : (0 : ℚ) ≤ h := by exact_mod_cast p.h0
    have m0 : (0 : ℚ) ≤ m := by exact_mod_cast p.m0
    have s0 : (0 : ℚ) ≤ s := by exact_mod_cast p.s0
    have x0 := p.x0
    push_cast at hsum
    have hz : h = 0 := by
      have : (h : ℚ) < 1 := by linarith
      have : h < 1 := by exact_mod_cast this
      have := p.h0
      omega
    have mz : m = 0 := by
      have : (m : ℚ) < 1 := by linarith
      have : m < 1 := by exact_mod_cast this
      have := p.m0
      omega
    refine ⟨_, e, ?_⟩
    have hy : (s : ℚ) + x = d := by rw [hsum, hz, mz]; push_cast; ring
    have hN : roundInt (d * 1000000) = K * 1000000 := by
      have err := roundInt_err (d * 1000000)
      rw [abs_le] at err
      have a1 : ((K * 1000000 - 1 : Int) : ℚ) < (roundInt (d * 1000000) : ℚ) := by push_cast; linarith [err.1]
      have a2 : (roundInt (d * 1000000) : ℚ) < ((K * 1000000 + 1 : Int) : ℚ) := by push_cast; linarith [err.2]
      have a1 : K * 1000000 - 1 < roundInt (d * 1000000) := by exact_mod_cast a1
      have a2 : roundInt (d * 1000000) < K * 1000000 + 1 := by exact_mod_cast a2
      omega
    have hps := printSeconds_eq (neg := decide (d < 0)) u p (by linarith)
    unfold print
    simp only
    rw [hps, hy, hz, mz]
    have n0 : decide (d < 0) = false := by simp [d0]
    rw [n0]
    have t1 : (K * 1000000).toNat / 1000000 = K.toNat := by omega
    have t2 : (K * 1000000).toNat % 1000000 = 0 := by omega
    simp only [fixedText, hN, t1, t2]
    rw [if_neg (by decide), if_pos (by decide)]
    exact congrArg (· ++ _) (by decide +kernel)
  constructor
  · intro l1 l2
    obtain ⟨t, e, h⟩ := key 60 (by norm_num) (by norm_num) (by push_cast; exact l1) (by push_cast; exact l2)
    refine ⟨t, e, ?_⟩
    rw [h, if_neg (by linarith)]
    decide +kernel
  · intro l1 l2
    obtain ⟨t, e, h⟩ := key 10 (by norm_num) (by norm_num) (by push_cast; exact l1) (by push_cast; exact l2)
    refine ⟨t, e, ?_⟩
    rw [h, if_pos (by linarith)]
    decide +kernel

/-! ## Examples -/
example : Usual binary64 ∧ (3660 : ℚ) < 2 ^ binary64.p := ⟨⟨by decide, by decide, by decide⟩, by norm_num [binary64]⟩
-- -3661.25 s, as seconds and as milliseconds
example : make binary64 1 (.num (-14645 / 4)) = .ok ⟨1, 1, 1, .num (1 / 4), true⟩ := by decide +kernel
example : make binary64 1000 (.num (-3661250)) = .ok ⟨1, 1, 1, .num 250, true⟩ := by decide +kernel
example : print binary64 ⟨1, 1, 1, .num (1 / 4), true⟩ = "-01:01:01.250000".toUTF8.toList := by decide +kernel
-- numbers near 60 and 10 that c137_text_violated is about
example : binary64.Rep (60 - 1 / 2 ^ 24) :=
  ⟨60 * 2 ^ 47 - 2 ^ 23, -47, by norm_num, by norm_num [binary64], by norm_num [binary64], by norm_num [binary64]⟩
example : (60 : ℚ) - 1 / 2000000 < 60 - 1 / 2 ^ 24 := by norm_num
-- one that c137_text_partial is about: 3661.25 = 61 * 60 + 1.25
example : |(14645 / 4 : ℚ)| = (61 : Nat) * 60 + 5 / 4 := by norm_num

end Gul14.Date.FloatTime
