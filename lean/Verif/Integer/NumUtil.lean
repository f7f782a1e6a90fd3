import Verif.Integer.GcdLcm
import Mathlib.Algebra.Order.Field.Rat
import Mathlib.Algebra.Order.Field.Power
import Mathlib.Tactic.Linarith

/-! # clamp, within_abs, within_orders (include/gul14/num_util.h) -/

namespace Gul14.Spec

/-- Which of the arguments of clamp is referred to. -/
inductive Arg where
  | v | lo | hi
  deriving DecidableEq, Repr

/-- Documented result of clamp. -/
def clampSpec {α : Type} (lt : α → α → Bool) (v lo hi : α) : Arg :=
  if lt v lo then .lo else if lt hi v then .hi else .v

/-- A strict weak order, as required of comparison functions. -/
structure StrictWeak {α : Type} (lt : α → α → Bool) : Prop where
  irrefl : ∀ a, lt a a = false
  trans : ∀ a b c, lt a b = true → lt b c = true → lt a c = true
  incomp : ∀ a b c, lt a c = true → lt a b = true ∨ lt b c = true

/-- The documented meaning of within_orders: equal, or the difference is `orders` orders of
magnitude lower than the larger of the two magnitudes. -/
def WithinOrders (a b : ℚ) (orders : Int) : Prop :=
  a = b ∨ |a - b| < max |a| |b| / 10 ^ orders

end Gul14.Spec

namespace Gul14.NumUtil
open IntTy Integer Spec

/-! ## clamp -/

/-- std::max, num_util.h:102. -/
def pick {α : Type} (v lo hi : α) : Arg → α
  | .v => v
  | .lo => lo
  | .hi => hi

/-- clamp(v, lo, hi), num_util.h:207-210: std::max(lo, std::min(v, hi)), as the argument that the
returned reference refers to.  std::min(a, b) is `b < a ? b : a`, std::max(a, b) is
`a < b ? b : a`. -/
def clamp {α : Type} (lt : α → α → Bool) (v lo hi : α) : Arg :=
  let m : Arg := if lt hi v then .hi else .v
  if lt lo (pick v lo hi m) then m else .lo

/-- clamp(v, lo, hi, comp), num_util.h:234-241. -/
def clampComp {α : Type} (comp : α → α → Bool) (v lo hi : α) : Arg :=
  if comp v lo then .lo else if comp hi v then .hi else .v

/-- The comparator version does what is documented, for any comparison function. -/
theorem c42_clamp_comp {α : Type} (comp : α → α → Bool) (v lo hi : α) :
    (comp v lo = true → clampComp comp v lo hi = .lo) ∧
    (comp v lo = false → comp hi v = true → clampComp comp v lo hi = .hi) ∧
    (comp v lo = false → comp hi v = false → clampComp comp v lo hi = .v) := by
  unfold clampComp
  refine ⟨fun h => by simp [h], fun h1 h2 => by simp [h1, h2], fun h1 h2 => by simp [h1, h2]⟩

/-- Neither is less than the other. -/
def Equiv {α : Type} (lt : α → α → Bool) (a b : α) : Prop := lt a b = false ∧ lt b a = false

/-- The operator version returns, for every strict weak order and `lo` not greater than `hi`, a
value equivalent to the documented one; it is the documented reference, or `lo` where the
documented reference is equivalent to `lo`. -/
theorem c42_clamp_partial {α : Type} (lt : α → α → Bool) (hw : StrictWeak lt) (v lo hi : α)
    (hlh : lt hi lo = false) :
    Equiv lt (pick v lo hi (clamp lt v lo hi)) (pick v lo hi (clampSpec lt v lo hi)) ∧
    (clamp lt v lo hi = clampSpec lt v lo hi ∨
      (clamp lt v lo hi = .lo ∧ Equiv lt lo (pick v lo hi (clampSpec lt v lo hi)))) := by
  have key : clamp lt v lo hi = clampSpec lt v lo hi ∨
      (clamp lt v lo hi = .lo ∧ Equiv lt lo (pick v lo hi (clampSpec lt v lo hi))) := by
    unfold clamp clampSpec
    by_cases h1 : lt v lo = true
    · left
      have hhv : lt hi v = false := by
        cases h : lt hi v with
        | false => rfl
        | true => have := hw.trans _ _ _ h h1; rw [hlh] at this; cases this
      have hlv : lt lo v = false := by
        cases h : lt lo v with
        | false => rfl
        | true => have := hw.trans _ _ _ h h1; rw [hw.irrefl] at this; cases this
      simp [h1, hhv, pick, hlv]
    · have h1f : lt v lo = false := by simpa using h1
      by_cases h2 : lt hi v = true
      · by_cases h3 : lt lo hi = true
        · left; simp [h1f, h2, h3, pick]
        · have h3f : lt lo hi = false := by simpa using h3
          right; simp [h1f, h2, h3f, pick, Equiv, hlh]
      · have h2f : lt hi v = false := by simpa using h2
        by_cases h3 : lt lo v = true
        · left; simp [h1f, h2f, h3, pick]
        · have h3f : lt lo v = false := by simpa using h3
          right; simp [h1f, h2f, h3f, pick, Equiv]
  refine ⟨?_, key⟩
  rcases key with h | ⟨h, he⟩
  · rw [h]; exact ⟨hw.irrefl _, hw.irrefl _⟩
  · rw [h]; exact he

/-- For totally ordered values the two versions return equal values. -/
theorem c42_agree {α : Type} (lt : α → α → Bool) (hw : StrictWeak lt)
    (total : ∀ a b, lt a b = false → lt b a = false → a = b) (v lo hi : α)
    (hlh : lt hi lo = false) :
    pick v lo hi (clamp lt v lo hi) = pick v lo hi (clampComp lt v lo hi) := by
  obtain ⟨⟨h1, h2⟩, -⟩ := c42_clamp_partial lt hw v lo hi hlh
  exact total _ _ h1 h2

/-- In range, and unchanged if it was in range already. -/
theorem c42_range {α : Type} (lt : α → α → Bool) (hw : StrictWeak lt)
    (total : ∀ a b, lt a b = false → lt b a = false → a = b) (v lo hi : α)
    (hlh : lt hi lo = false) :
    let r := pick v lo hi (clamp lt v lo hi)
    lt r lo = false ∧ lt hi r = false ∧ (lt v lo = false → lt hi v = false → r = v) := by
  intro r
  have e : r = pick v lo hi (clampComp lt v lo hi) := c42_agree lt hw total v lo hi hlh
  rw [e]
  unfold clampComp
  by_cases h1 : lt v lo = true
  · simp [h1, pick, hw.irrefl, hlh]
  · have h1f : lt v lo = false := by simpa using h1
    by_cases h2 : lt hi v = true
    · simp [h1f, h2, pick, hw.irrefl, hlh]
    · have h2f : lt hi v = false := by simpa using h2
      simp [h1f, h2f, pick]

/-- Documented, but false: if `v` is equivalent to `lo`, the operator version returns a reference
to `lo`, and if `hi` is equivalent to `lo` and less than `v` it returns `lo` as well.  Here the
values are ordered by their first component. -/
theorem c42_reference_violated :
    let lt : Nat × Nat → Nat × Nat → Bool := fun a b => decide (a.1 < b.1)
    StrictWeak lt ∧
    clamp lt (1, 0) (1, 1) (2, 2) = .lo ∧ clampSpec lt (1, 0) (1, 1) (2, 2) = .v ∧
    clamp lt (5, 0) (1, 1) (1, 2) = .lo ∧ clampSpec lt (5, 0) (1, 1) (1, 2) = .hi ∧
    clampComp lt (1, 0) (1, 1) (2, 2) = .v := by
  refine ⟨⟨by simp, ?_, ?_⟩, by decide⟩
  · intro a b c; simp only [decide_eq_true_eq]; omega
  · intro a b c; simp only [decide_eq_true_eq]; omega

/-- Documented, but false: for a NaN neither `v < lo` nor `hi < v` holds; the comparator version
returns it, the operator version returns `lo`.  `none` stands for NaN. -/
theorem c42_nan_violated :
    let lt : Option Nat → Option Nat → Bool := fun a b =>
      match a, b with | some x, some y => decide (x < y) | _, _ => false
    clamp lt none (some 1) (some 2) = .lo ∧ clampComp lt none (some 1) (some 2) = .v ∧
    clampSpec lt none (some 1) (some 2) = .v := by
  decide

example : let lt : Nat → Nat → Bool := fun a b => decide (a < b)
    clamp lt 0 3 5 = .lo ∧ clamp lt 4 3 5 = .v ∧ clamp lt 7 3 5 = .hi ∧
    clampComp lt 0 3 5 = .lo ∧ clampComp lt 4 3 5 = .v ∧ clampComp lt 7 3 5 = .hi := by decide

/-! ## within_abs on integers -/

/-- within_abs(a, b, tol), num_util.h:118-134, for an integer type.  The difference is computed in
the promoted type. -/
def withinAbs (t : IntTy) (a b tol : Int) : Res Bool :=
  (t.gulAbs tol).bind fun tol =>
  if a > b then (t.promote.arith (a - b)).map fun d => decide (d ≤ tol)
  else (t.promote.arith (b - a)).map fun d => decide (d ≤ tol)

/-- within_abs decides `|a - b| ≤ |tol|` if the difference is representable in the promoted type
and the tolerance is not the most negative value. -/
theorem c43_integer_partial (t : IntTy) (ht : t.Exists) (a b tol : Int) (htol : t.Has tol)
    (hm : t.signed = true → tol ≠ t.minVal)
    (hd : t.promote.Has ((a - b).natAbs : Int)) :
    withinAbs t a b tol = .ok (decide ((a - b).natAbs ≤ tol.natAbs)) := by
  have h0 := ht.pos
  have arithEq : ∀ x, t.promote.Has x → t.promote.arith x = .ok x := by
    intro x hx
    have hpb : 0 < t.promote.bits := by
      unfold promote; split
      · decide
      · omega
    unfold arith
    split
    · rfl
    · rename_i hs
      have := cast_of_has hpb hx
      unfold IntTy.cast at this
      rw [if_neg hs] at this
      rw [this]
  unfold withinAbs
  rw [(gulAbs_eq ht htol hm).1]
  simp only [Res.bind_ok]
  by_cases hab : a > b
  · have e : a - b = ((a - b).natAbs : Int) := by omega
    rw [if_pos hab, e, arithEq _ hd]
    simp only [Res.map_ok]
    congr 1
    rw [decide_eq_decide]
    omega
  · have e : b - a = ((a - b).natAbs : Int) := by omega
    rw [if_neg hab, e, arithEq _ hd]
    simp only [Res.map_ok]
    congr 1
    rw [decide_eq_decide]
    omega

/-- Unsigned types: no exception. -/
theorem c43_unsigned (t : IntTy) (ht : t.Exists) (hu : t.signed = false) (a b tol : Int)
    (ha : t.Has a) (hb : t.Has b) (htol : t.Has tol) :
    withinAbs t a b tol = .ok (decide ((a - b).natAbs ≤ tol.natAbs)) := by
  have h0 := ht.pos
  refine c43_integer_partial t ht a b tol htol (by simp [hu]) ?_
  have hd : t.Has ((a - b).natAbs : Int) := by
    unfold Has minVal maxVal at *
    simp only [hu, Bool.false_eq_true, if_false] at *
    omega
  exact has_promote hd (by omega)

/-- Signed types narrower than int: only the most negative tolerance is an exception. -/
theorem c43_narrow_partial (t : IntTy) (ht : t.Exists) (hn : t.bits < 32) (a b tol : Int)
    (ha : t.Has a) (hb : t.Has b) (htol : t.Has tol) (hm : t.signed = true → tol ≠ t.minVal) :
    withinAbs t a b tol = .ok (decide ((a - b).natAbs ≤ tol.natAbs)) := by
  have h0 := ht.pos
  refine c43_integer_partial t ht a b tol htol hm ?_
  unfold promote
  rw [if_pos hn]
  unfold IntTy.Exists at ht
  unfold Has minVal maxVal at *
  simp only [int, if_true]
  have h8 : t.bits = 8 ∨ t.bits = 16 := by omega
  have hlt : ((a - b).natAbs : Int) ≤ 65535 := by
    rcases h8 with h | h <;> rw [h] at ha hb <;> split at ha <;> rename_i hs <;>
      simp only [hs, if_true, Bool.false_eq_true, if_false] at hb <;> omega
  omega

/-- The order of the two numbers does not matter (whatever the outcome is). -/
theorem c43_symmetric (t : IntTy) (a b tol : Int) : withinAbs t a b tol = withinAbs t b a tol := by
  unfold withinAbs
  congr 1
  funext tol'
  by_cases h1 : a > b
  · rw [if_pos h1, if_neg (by omega)]
  · by_cases h2 : b > a
    · rw [if_neg h1, if_pos h2]
    · have : a = b := by omega
      subst this
      rfl

/-- Expected, but false: a difference that is not representable is undefined for `int`, and the
most negative tolerance of a narrow type stays negative. -/
theorem c43_overflow_violated :
    withinAbs int (2 ^ 31 - 1) (-2 ^ 31) 1 = .ub ∧ int.Has (2 ^ 31 - 1) ∧ int.Has (-2 ^ 31) ∧
    withinAbs int 0 0 (-2 ^ 31) = .ub ∧
    withinAbs int8 3 1 (-128) = .ok false ∧ int8.Has (-128) := by
  decide

example : withinAbs int16 (-32768) 32767 (-100) = .ok false ∧
    withinAbs uint64 (2 ^ 64 - 1) 0 (2 ^ 64 - 1) = .ok true ∧
    withinAbs int (-5) 5 (-10) = .ok true ∧ withinAbs int (-5) 5 9 = .ok false := by decide

/-! ## within_abs on floating-point numbers -/

/-- A floating-point value. -/
inductive FV where
  | nan | ninf | fin (q : ℚ) | pinf
  deriving DecidableEq

namespace FV

/-- `<=` of IEEE 754. -/
def le : FV → FV → Bool
  | .nan, _ => false
  | _, .nan => false
  | .ninf, _ => true
  | _, .pinf => true
  | .fin a, .fin b => decide (a ≤ b)
  | _, _ => false

/-- `<` of IEEE 754. -/
def lt : FV → FV → Bool
  | .nan, _ => false
  | _, .nan => false
  | .ninf, .ninf => false
  | .ninf, _ => true
  | .pinf, _ => false
  | _, .pinf => true
  | .fin a, .fin b => decide (a < b)
  | _, _ => false

/-- std::abs. std::abs, num_util.h:64, 158-159. -/
def abs : FV → FV
  | .nan => .nan
  | .ninf => .pinf
  | .pinf => .pinf
  | .fin q => .fin |q|

end FV

/-- A floating-point format: the finite representable values and a faithful rounding (no
representable value lies strictly between a number and what it is rounded to).  All IEEE 754
rounding modes are faithful. -/
structure Fmt where
  rep : ℚ → Prop
  rnd : ℚ → FV
  lower : ∀ r q, rep r → r ≤ q → FV.le (.fin r) (rnd q) = true
  upper : ∀ r q, rep r → q ≤ r → FV.le (rnd q) (.fin r) = true

/-- Subtraction in a format. -/
def Fmt.sub (f : Fmt) : FV → FV → FV
  | .nan, _ => .nan
  | _, .nan => .nan
  | .fin a, .fin b => f.rnd (a - b)
  | .pinf, .pinf => .nan
  | .ninf, .ninf => .nan
  | .pinf, _ => .pinf
  | .ninf, _ => .ninf
  | _, .pinf => .ninf
  | _, .ninf => .pinf

/-- within_abs(a, b, tol), num_util.h:118-134, for a floating-point type. -/
def withinAbsF (f : Fmt) (a b tol : FV) : Bool :=
  let tol := tol.abs
  if FV.lt b a then FV.le (f.sub a tol) b else FV.le (f.sub b tol) a

/-- Finite numbers whose difference is within the tolerance are recognized, and what is recognized
is within the tolerance up to the rounding of one subtraction. -/
theorem c43_float (f : Fmt) (a b tol : ℚ) (ha : f.rep a) (hb : f.rep b) :
    (|a - b| ≤ |tol| → withinAbsF f (.fin a) (.fin b) (.fin tol) = true) ∧
    (withinAbsF f (.fin a) (.fin b) (.fin tol) = true →
      |a - b| ≤ |tol| ∨ f.rnd (max a b - |tol|) = .fin (min a b)) := by
  have anti : ∀ (x : FV) (r : ℚ), FV.le x (.fin r) = true → FV.le (.fin r) x = true →
      x = .fin r := by
    intro x r h1 h2
    cases x with
    | nan => simp [FV.le] at h1
    | ninf => simp [FV.le] at h2
    | pinf => simp [FV.le] at h1
    | fin q =>
      simp only [FV.le, decide_eq_true_eq] at h1 h2
      rw [le_antisymm h1 h2]
  unfold withinAbsF
  by_cases hlt : b < a
  · have h1 : FV.lt (.fin b) (.fin a) = true := by simp [FV.lt, hlt]
    simp only [h1, if_true, FV.abs, Fmt.sub]
    rw [abs_of_pos (by linarith), max_eq_left hlt.le, min_eq_right hlt.le]
    constructor
    · intro h
      exact f.upper _ _ hb (by linarith)
    · intro h
      by_cases hc : a - b ≤ |tol|
      · exact .inl hc
      · right
        exact anti _ _ h (f.lower _ _ hb (by linarith))
  · have h1 : FV.lt (.fin b) (.fin a) = false := by simp [FV.lt]; linarith
    have hle : a ≤ b := by linarith
    simp only [h1, Bool.false_eq_true, if_false, FV.abs, Fmt.sub]
    rw [abs_of_nonpos (by linarith), max_eq_right hle, min_eq_left hle]
    constructor
    · intro h
      exact f.upper _ _ ha (by linarith)
    · intro h
      by_cases hc : -(a - b) ≤ |tol|
      · exact .inl hc
      · right
        exact anti _ _ h (f.lower _ _ ha (by linarith))

/-- The order of the two numbers does not matter, NaN and infinities included. -/
theorem c43_float_symmetric (f : Fmt) (a b tol : FV) :
    withinAbsF f a b tol = withinAbsF f b a tol := by
  have nanR : ∀ x, FV.le x .nan = false := by intro x; cases x <;> rfl
  have nanS : ∀ x, f.sub .nan x = .nan := by intro x; cases x <;> rfl
  have nanL : ∀ x, FV.le .nan x = false := by intro x; cases x <;> rfl
  unfold withinAbsF
  cases a <;> cases b <;> simp [FV.lt, nanR, nanL, nanS]
  rename_i x y
  rcases lt_trichotomy x y with h | h | h
  · simp [h, not_lt.2 h.le]
  · simp [h]
  · simp [h, not_lt.2 h.le]

/-- NaN is within no tolerance of anything; an infinity is within every finite tolerance of
itself; positive infinity is within no tolerance of anything else, and negative infinity is not
unless subtracting the tolerance from the other number overflows; finite numbers are within an
infinite tolerance. -/
theorem c43_float_special (f : Fmt) (b tol : FV) (x y q : ℚ) :
    withinAbsF f .nan b tol = false ∧
    withinAbsF f .pinf .pinf (.fin q) = true ∧ withinAbsF f .ninf .ninf (.fin q) = true ∧
    (b ≠ .pinf → withinAbsF f .pinf b tol = false) ∧
    (b ≠ .ninf → f.sub b tol.abs ≠ .ninf → withinAbsF f .ninf b tol = false) ∧
    withinAbsF f (.fin x) (.fin y) .pinf = true ∧
    withinAbsF f (.fin x) (.fin y) .ninf = true := by
  refine ⟨?_, rfl, rfl, ?_, ?_, ?_, ?_⟩
  · cases b <;> cases tol <;> simp [withinAbsF, FV.lt, FV.abs, Fmt.sub, FV.le] <;>
      (rename_i u v; cases f.rnd (u - |v|) <;> rfl)
  · intro hb; cases b <;> cases tol <;> simp_all [withinAbsF, FV.lt, FV.abs, Fmt.sub, FV.le]
  · intro hb ho
    have hlt : FV.lt b .ninf = false := by cases b <;> rfl
    unfold withinAbsF
    simp only [hlt, Bool.false_eq_true, if_false]
    revert ho
    cases f.sub b tol.abs <;> simp [FV.le]
  · unfold withinAbsF; split <;> rfl
  · unfold withinAbsF; split <;> rfl

/-- Expected, but false: an infinite tolerance does not cover two equal infinities, nor the
distance of an infinity to a finite number. -/
theorem c43_infinite_tolerance_violated (f : Fmt) :
    withinAbsF f .pinf .pinf .pinf = false ∧ withinAbsF f .pinf (.fin 0) .pinf = false :=
  ⟨rfl, rfl⟩

/-- A format of integers up to 1000 rounding down: the hypotheses are met. -/
def exampleFmt : Fmt where
  rep q := ∃ n : Int, q = n ∧ -1000 ≤ n ∧ n ≤ 1000
  rnd q := if q < -1000 then .ninf else if 1000 < q then .pinf else .fin (Rat.floor q)
  lower := by
    rintro _ q ⟨n, rfl, h1, h2⟩ hle
    have : (-1000 : ℚ) ≤ n := by exact_mod_cast h1
    rw [if_neg (by linarith)]
    split
    · rfl
    · simp only [FV.le, decide_eq_true_eq]
      exact_mod_cast Rat.le_floor_iff.2 hle
  upper := by
    rintro _ q ⟨n, rfl, h1, h2⟩ hle
    split
    · rfl
    · have : (n : ℚ) ≤ 1000 := by exact_mod_cast h2
      rw [if_neg (by linarith)]
      simp only [FV.le, decide_eq_true_eq]
      have : (Rat.floor q : ℚ) ≤ q := Rat.floor_le q
      linarith

/-- Expected, but false: negative infinity counts as within a finite tolerance of a finite number
if that number minus the tolerance overflows. -/
theorem c43_overflow_to_infinity_violated :
    withinAbsF exampleFmt .ninf (.fin (-1000)) (.fin 1000) = true ∧
    withinAbsF exampleFmt .pinf (.fin 1000) (.fin 1000) = false := by
  decide +kernel

example : exampleFmt.rep 17 ∧ withinAbsF exampleFmt (.fin 17) (.fin 20) (.fin 3) = true ∧
    withinAbsF exampleFmt (.fin 17) (.fin 20) (.fin 2) = false := by
  refine ⟨⟨17, by norm_num, by decide, by decide⟩, ?_, ?_⟩ <;> decide +kernel

/-! ## within_orders -/

/-- within_orders(a, b, orders), num_util.h:92-105, for an integer type and integer `orders`.
Simplification: the limit (a double) is computed in exact rational arithmetic. -/
def withinOrders (t : IntTy) (a b : Int) (orders : Int) : Res Bool :=
  ((t.promote.arith (a - b)).bind t.promote.gulAbs).bind fun difference =>
  if difference = 0 then .ok true
  else
    (t.gulAbs a).bind fun x =>
    (t.gulAbs b).bind fun y =>
    .ok (decide ((difference : ℚ) < ((if x < y then y else x : Int) : ℚ) / 10 ^ orders))

/-- within_orders, num_util.h:92-105, for finite floating-point numbers.  Simplification: exact
rational arithmetic. -/
def withinOrdersF (a b : ℚ) (orders : Int) : Bool :=
  let difference := |a - b|
  if difference = 0 then true
  else decide (difference < (if |a| < |b| then |b| else |a|) / 10 ^ orders)

theorem max_if (x y : ℚ) : (if x < y then y else x) = max x y := by
  split
  · rename_i h; rw [max_eq_right h.le]
  · rename_i h; rw [max_eq_left (not_lt.1 h)]

/-- Floating-point numbers (up to rounding): exactly the documented comparison. -/
theorem c44_float (a b : ℚ) (orders : Int) :
    withinOrdersF a b orders = true ↔ WithinOrders a b orders := by
  unfold withinOrdersF WithinOrders
  simp only [max_if]
  by_cases h : a = b
  · subst h; simp
  · have : |a - b| ≠ 0 := by simpa [sub_eq_zero] using h
    rw [if_neg this]
    simp [h]

/-- The order of the two numbers does not matter. -/
theorem c44_float_symmetric (a b : ℚ) (orders : Int) :
    withinOrdersF a b orders = withinOrdersF b a orders := by
  rw [Bool.eq_iff_iff, c44_float, c44_float]
  unfold WithinOrders
  rw [abs_sub_comm, max_comm, eq_comm]

/-- Zero is within no orders of anything but zero. -/
theorem c44_float_zero (b : ℚ) (hb : b ≠ 0) (orders : Int) (ho : 0 ≤ orders) :
    withinOrdersF 0 b orders = false := by
  rw [← Bool.not_eq_true, c44_float]
  unfold WithinOrders
  rintro (h | h)
  · exact hb h.symm
  · have hpos : 0 < |b| := abs_pos.2 hb
    have h1 : (1 : ℚ) ≤ 10 ^ orders := one_le_zpow₀ (by norm_num) ho
    rw [zero_sub, abs_neg, abs_zero, max_eq_right hpos.le, lt_div_iff₀ (by linarith)] at h
    nlinarith

/-- Asking for fewer digits does not turn true into false. -/
theorem c44_float_mono (a b : ℚ) (o o' : Int) (h : o' ≤ o) (ht : withinOrdersF a b o = true) :
    withinOrdersF a b o' = true := by
  rw [c44_float] at *
  rcases ht with h1 | h1
  · exact .inl h1
  · right
    refine lt_of_lt_of_le h1 ?_
    have h2 : (10 : ℚ) ^ o' ≤ 10 ^ o := zpow_le_zpow_right₀ (by norm_num) h
    have h3 : (0 : ℚ) < 10 ^ o' := zpow_pos (by norm_num) _
    exact div_le_div_of_nonneg_left (le_trans (abs_nonneg a) (le_max_left _ _)) h3 h2

theorem promote_exists {t : IntTy} (ht : t.Exists) : t.promote.Exists := by
  unfold promote; split
  · right; right; left; rfl
  · exact ht

/-- Integers: the documented comparison, if the difference (taken in this order) and the absolute
values are representable. -/
theorem c44_integer_partial (t : IntTy) (ht : t.Exists) (a b : Int) (ha : t.Has a) (hb : t.Has b)
    (hm : t.signed = true → a ≠ t.minVal ∧ b ≠ t.minVal)
    (hd : t.promote.Has (a - b)) (hdm : t.promote.signed = true → a - b ≠ t.promote.minVal)
    (orders : Int) :
    ∃ r, withinOrders t a b orders = .ok r ∧ (r = true ↔ WithinOrders a b orders) := by
  have pe := promote_exists ht
  have e1 : t.promote.arith (a - b) = .ok (a - b) := by
    unfold arith
    split
    · rfl
    · rename_i hs
      have := cast_of_has (by have := pe.pos; omega) hd
      unfold IntTy.cast at this
      rw [if_neg hs] at this
      rw [this]
  unfold withinOrders
  rw [e1]
  simp only [Res.bind_ok]
  rw [(gulAbs_eq pe hd hdm).1]
  simp only [Res.bind_ok]
  by_cases h : a = b
  · subst h
    exact ⟨true, by simp, by simp [WithinOrders]⟩
  · rw [if_neg (by omega), (gulAbs_eq ht ha fun hs => (hm hs).1).1,
      (gulAbs_eq ht hb fun hs => (hm hs).2).1]
    simp only [Res.bind_ok]
    refine ⟨_, rfl, ?_⟩
    rw [decide_eq_true_eq]
    have c1 : (((a - b).natAbs : Int) : ℚ) = |(a : ℚ) - b| := by
      rw [Int.natCast_natAbs]; push_cast; rfl
    have c2 : ((if (a.natAbs : Int) < b.natAbs then (b.natAbs : Int) else a.natAbs : Int) : ℚ)
        = max |(a : ℚ)| |(b : ℚ)| := by
      have ca : ((a.natAbs : Int) : ℚ) = |(a : ℚ)| := by rw [Int.natCast_natAbs]; push_cast; rfl
      have cb : ((b.natAbs : Int) : ℚ) = |(b : ℚ)| := by rw [Int.natCast_natAbs]; push_cast; rfl
      rw [← max_if, ← ca, ← cb]
      by_cases hlt : (a.natAbs : Int) < b.natAbs
      · rw [if_pos hlt, if_pos (by exact_mod_cast hlt)]
      · rw [if_neg hlt, if_neg (by exact_mod_cast hlt)]
    rw [c1, c2]
    unfold WithinOrders
    have hq : (a : ℚ) ≠ b := by exact_mod_cast h
    simp [hq]

/-- Types narrower than int: the difference is always representable. -/
theorem c44_narrow_partial (t : IntTy) (ht : t.Exists) (hn : t.bits < 32) (a b : Int)
    (ha : t.Has a) (hb : t.Has b) (hm : t.signed = true → a ≠ t.minVal ∧ b ≠ t.minVal)
    (orders : Int) :
    ∃ r, withinOrders t a b orders = .ok r ∧ (r = true ↔ WithinOrders a b orders) := by
  have hlt : -65535 ≤ a - b ∧ a - b ≤ 65535 := by
    have h8 : t.bits = 8 ∨ t.bits = 16 := by unfold IntTy.Exists at ht; omega
    unfold Has minVal maxVal at *
    rcases h8 with h | h <;> rw [h] at ha hb <;> split at ha <;> rename_i hs <;>
      simp only [hs, if_true, Bool.false_eq_true, if_false] at hb <;> omega
  refine c44_integer_partial t ht a b ha hb hm ?_ ?_ orders
  · unfold promote
    rw [if_pos hn]
    unfold Has minVal maxVal
    simp only [int, if_true]
    omega
  · intro _
    unfold promote
    rw [if_pos hn]
    unfold minVal
    simp only [int, if_true]
    omega

/-- Unsigned types: the documented comparison if the larger number comes first. -/
theorem c44_unsigned_partial (t : IntTy) (ht : t.Exists) (hu : t.signed = false) (a b : Int)
    (ha : t.Has a) (hb : t.Has b) (hab : b ≤ a) (orders : Int) :
    ∃ r, withinOrders t a b orders = .ok r ∧ (r = true ↔ WithinOrders a b orders) := by
  have hd : t.Has (a - b) := by
    unfold Has minVal maxVal at *
    simp only [hu, Bool.false_eq_true, if_false] at *
    omega
  have h0 := ht.pos
  refine c44_integer_partial t ht a b ha hb (by simp [hu]) (has_promote hd (by omega)) ?_ orders
  intro hs
  have := pow_pos' (t.promote.bits - 1)
  unfold minVal
  rw [if_pos hs]
  omega

/-- Documented, but false: for unsigned numbers the difference wraps around if the smaller number
comes first, and the comparison is not symmetric; for signed numbers it can overflow. -/
theorem c44_violated :
    withinOrders uint 1000 999 2 = .ok true ∧ withinOrders uint 999 1000 2 = .ok false ∧
    WithinOrders 999 1000 2 ∧
    withinOrders int (2 ^ 31 - 1) (-1) 2 = .ub ∧ withinOrders int (-2 ^ 31) 0 2 = .ub := by
  refine ⟨by decide +kernel, by decide +kernel, ?_, by decide +kernel, by decide +kernel⟩
  right
  norm_num [abs_of_nonneg, abs_of_nonpos]

example : withinOrders int 23736384 23736228 5 = .ok true ∧
    withinOrders int 23736384 23735384 5 = .ok false ∧
    withinOrders int8 (-100) (-101) 1 = .ok true := by decide +kernel

end Gul14.NumUtil
