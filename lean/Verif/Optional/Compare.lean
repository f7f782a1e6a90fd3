import Mathlib.Order.Defs.LinearOrder
import Mathlib.Order.Nat

/-!
# Comparisons of optionals (optional.h:636-864) and hashes (893-915) (C35)

The content of an optional is an `Option V` (Verif.Optional.Props).  The element type brings its
own six comparison operators.
-/
namespace Gul14.Opt

/-- The comparison operators of the element type. The operators of the value type that
optional.h:640-763 calls. -/
structure Cmp (V : Type) where
  eq : V → V → Bool
  ne : V → V → Bool
  lt : V → V → Bool
  gt : V → V → Bool
  le : V → V → Bool
  ge : V → V → Bool

variable {V : Type} (c : Cmp V)

/-- operator==, optional.h:638-640. -/
def eqOO : Option V → Option V → Bool
  | x, y => if x.isSome != y.isSome then false
    else if x.isSome == false then true
    else match x, y with
      | some a, some b => c.eq a b
      | _, _ => false

/-- operator!=, optional.h:642-644. -/
def neOO (x y : Option V) : Bool := !(eqOO c x y)

/-- operator<, optional.h:646-648. -/
def ltOO (x y : Option V) : Bool :=
  match y with
  | none => false
  | some b => match x with
    | none => true
    | some a => c.lt a b

/-- operator>, optional.h:650-652. -/
def gtOO (x y : Option V) : Bool := ltOO c y x
/-- operator<=, optional.h:654-656. -/
def leOO (x y : Option V) : Bool := !(ltOO c y x)
/-- operator>=, optional.h:658-660. -/
def geOO (x y : Option V) : Bool := !(ltOO c x y)

/-- Comparison with nullopt, optional.h:665-711 (N: the nullopt side). -/
def eqON (x : Option V) : Bool := !x.isSome
/-- optional.h:669-671. -/
def eqNO (x : Option V) : Bool := !x.isSome
def neON (x : Option V) : Bool := x.isSome
/-- optional.h:677-679. -/
def neNO (x : Option V) : Bool := x.isSome
def ltON (_ : Option V) : Bool := false
/-- optional.h:685-687. -/
def ltNO (x : Option V) : Bool := x.isSome
def leON (x : Option V) : Bool := !x.isSome
/-- optional.h:693-695. -/
def leNO (_ : Option V) : Bool := true
def gtON (x : Option V) : Bool := x.isSome
/-- optional.h:701-703. -/
def gtNO (_ : Option V) : Bool := false
def geON (_ : Option V) : Bool := true
/-- optional.h:709-711. -/
def geNO (x : Option V) : Bool := !x.isSome

/-- Comparison with a value, optional.h:717-763 (V: the side of the value).  The overloads for
optional<T&> and optional<const T&>, 768-864, have the same bodies. -/
def eqOV (x : Option V) (v : V) : Bool := match x with | some a => c.eq a v | none => false
/-- optional.h:721-723. -/
def eqVO (v : V) (x : Option V) : Bool := match x with | some a => c.eq v a | none => false
def neOV (x : Option V) (v : V) : Bool := match x with | some a => c.ne a v | none => true
/-- optional.h:729-731. -/
def neVO (v : V) (x : Option V) : Bool := match x with | some a => c.ne v a | none => true
def ltOV (x : Option V) (v : V) : Bool := match x with | some a => c.lt a v | none => true
/-- optional.h:737-739. -/
def gtVO (v : V) (x : Option V) : Bool := match x with | some a => c.gt v a | none => true
def gtOV (x : Option V) (v : V) : Bool := match x with | some a => c.gt a v | none => false
/-- optional.h:745-747. -/
def ltVO (v : V) (x : Option V) : Bool := match x with | some a => c.lt v a | none => false
def geOV (x : Option V) (v : V) : Bool := match x with | some a => c.ge a v | none => false
/-- optional.h:753-755. -/
def leVO (v : V) (x : Option V) : Bool := match x with | some a => c.le v a | none => false
def leOV (x : Option V) (v : V) : Bool := match x with | some a => c.le a v | none => true
/-- optional.h:761-763. -/
def geVO (v : V) (x : Option V) : Bool := match x with | some a => c.ge v a | none => true

/-- std::hash of an optional, optional.h:893-915. -/
def hash (h : V → Nat) : Option V → Nat
  | some v => h v
  | none => 0

end Gul14.Opt

namespace Gul14.Spec

/-- The order in which the empty optional comes before all values. -/
inductive Before {V : Type} (lt : V → V → Prop) : Option V → Option V → Prop where
  | none (b : V) : Before lt none (some b)
  | some (a b : V) : lt a b → Before lt (some a) (some b)

/-- The six operators of a type are those of a linear order. -/
structure CmpOf {V : Type} [LinearOrder V] (c : Opt.Cmp V) : Prop where
  eq : ∀ a b, c.eq a b = true ↔ a = b
  ne : ∀ a b, c.ne a b = true ↔ a ≠ b
  lt : ∀ a b, c.lt a b = true ↔ a < b
  gt : ∀ a b, c.gt a b = true ↔ b < a
  le : ∀ a b, c.le a b = true ↔ a ≤ b
  ge : ∀ a b, c.ge a b = true ↔ b ≤ a

/-- Six results for `x` on the left and `y` on the right agree with the none-first order. -/
structure Agrees {V : Type} [LT V] (x y : Option V) (eq ne lt gt le ge : Bool) : Prop where
  eq : eq = true ↔ x = y
  ne : ne = true ↔ x ≠ y
  lt : lt = true ↔ Before (· < ·) x y
  gt : gt = true ↔ Before (· < ·) y x
  le : le = true ↔ Before (· < ·) x y ∨ x = y
  ge : ge = true ↔ Before (· < ·) y x ∨ x = y

end Gul14.Spec

namespace Gul14.Opt
open Spec
variable {V : Type} [LinearOrder V] {c : Cmp V}

theorem before_ss {a b : V} : Before (· < ·) (some a) (some b) ↔ a < b :=
  ⟨fun h => (by cases h; assumption), Before.some a b⟩
theorem before_ns {b : V} : Before (· < ·) none (some b) ↔ True := ⟨fun _ => trivial, fun _ => .none b⟩
theorem before_n {x : Option V} : Before (· < ·) x none ↔ False :=
  ⟨fun h => (by cases h), False.elim⟩

theorem not_lt_iff_or {a b : V} : ¬ b < a ↔ a < b ∨ a = b := by
  rw [not_lt, le_iff_lt_or_eq]

theorem not_lt_iff_or' {a b : V} : ¬ a < b ↔ b < a ∨ a = b := by
  rw [not_lt, le_iff_lt_or_eq, eq_comm]

theorem bool_false_iff {b : Bool} {p : Prop} (h : b = true ↔ p) : b = false ↔ ¬ p := by
  cases b <;> simp_all

/-- Two optionals: the six operators agree with the order in which the empty optional comes first.
(They use only == and < of the element type.) -/
theorem c35_optional_optional (h : CmpOf c) (x y : Option V) :
    Agrees x y (eqOO c x y) (neOO c x y) (ltOO c x y) (gtOO c x y) (leOO c x y) (geOO c x y) := by
  cases x with
  | none => cases y <;> constructor <;> simp [eqOO, neOO, ltOO, gtOO, leOO, geOO, before_ns, before_n]
  | some a => cases y with
    | none => constructor <;> simp [eqOO, neOO, ltOO, gtOO, leOO, geOO, before_ns, before_n]
    | some b =>
      constructor <;>
        simp [eqOO, neOO, ltOO, gtOO, leOO, geOO, before_ss, h.eq, h.lt,
          bool_false_iff (h.lt _ _), bool_false_iff (h.eq _ _)]
      · exact le_iff_lt_or_eq
      · rw [le_iff_lt_or_eq, eq_comm (a := b)]

/-- An optional and nullopt, on either side. -/
theorem c35_optional_nullopt (x : Option V) :
    Agrees x none (eqON x) (neON x) (ltON x) (gtON x) (leON x) (geON x) ∧
    Agrees none x (eqNO x) (neNO x) (ltNO x) (gtNO x) (leNO x) (geNO x) := by
  cases x <;> constructor <;> constructor <;>
    simp [eqON, neON, ltON, gtON, leON, geON, eqNO, neNO, ltNO, gtNO, leNO, geNO, before_ns,
      before_n]

/-- An optional and a value, on either side. -/
theorem c35_optional_value (h : CmpOf c) (x : Option V) (v : V) :
    Agrees x (some v) (eqOV c x v) (neOV c x v) (ltOV c x v) (gtOV c x v) (leOV c x v)
      (geOV c x v) ∧
    Agrees (some v) x (eqVO c v x) (neVO c v x) (ltVO c v x) (gtVO c v x) (leVO c v x)
      (geVO c v x) := by
  cases x with
  | none =>
    constructor <;> constructor <;>
      simp [eqOV, neOV, ltOV, gtOV, leOV, geOV, eqVO, neVO, ltVO, gtVO, leVO, geVO, before_ns,
        before_n]
  | some a =>
    constructor <;> constructor <;>
      simp [eqOV, neOV, ltOV, gtOV, leOV, geOV, eqVO, neVO, ltVO, gtVO, leVO, geVO, before_ss,
        h.eq, h.ne, h.lt, h.gt, h.le, h.ge]
    · exact le_iff_lt_or_eq
    · rw [le_iff_lt_or_eq, eq_comm (a := v)]
    · exact le_iff_lt_or_eq
    · rw [le_iff_lt_or_eq, eq_comm (a := a)]

omit [LinearOrder V] in
/-- The none-first order is a strict linear order whenever the order of the values is one: exactly
one of before, equal, after holds, and it is transitive. -/
theorem c35_order_laws [LinearOrder V] (x y z : Option V) :
    (Before (· < ·) x y ∨ x = y ∨ Before (· < ·) y x) ∧
    ¬ (Before (· < ·) x y ∧ Before (· < ·) y x) ∧ ¬ Before (· < ·) x x ∧
    (Before (· < ·) x y → Before (· < ·) y z → Before (· < ·) x z) := by
  refine ⟨?_, ?_, ?_, ?_⟩
  · cases x <;> cases y <;> simp [before_ss, before_ns, before_n]
    exact lt_trichotomy _ _
  · cases x <;> cases y <;> simp [before_ss, before_ns, before_n]
    exact le_of_lt
  · cases x <;> simp [before_ss, before_n]
  · cases x <;> cases y <;> cases z <;> simp [before_ss, before_ns, before_n]
    exact lt_trans

/-- Equal optionals have equal hashes if equal values have. -/
theorem c35_hash (h : CmpOf c) (hf : V → Nat) (x y : Option V) (he : eqOO c x y = true) :
    hash hf x = hash hf y := by
  rw [(c35_optional_optional h x y).eq.mp he]

/-- Integers with their operators. -/
example : CmpOf (V := Nat) ⟨(· == ·), (· != ·), (decide <| · < ·), (decide <| · > ·),
    (decide <| · ≤ ·), (decide <| · ≥ ·)⟩ := by
  constructor <;> simp

end Gul14.Opt
