import Verif.Variant.Model

/-!
# Specification of variant: contents of the variants of a program

`none`: no such object exists; `some none`: the variant is valueless; `some (some (i, v))`: it holds
the alternative `i` with value `v`.
-/
namespace Gul14.Spec.Vari
open Var (Op Cfg)

abbrev Content (V : Type) := Option (Nat × V)
abbrev Contents (V : Type) := Nat → Option (Content V)

def Contents.set {V : Type} (a : Contents V) (k : Nat) (x : Option (Content V)) : Contents V :=
  fun j => if j = k then x else a j

/-- What the C++ language and the use of the template require of the alternatives: there is at least
one, there are fewer than 2^32 - 1, they can be destroyed, types that can be copied or moved
trivially can be destroyed trivially, and a trivial move leaves its source as it is. -/
structure WellFormed {V : Type} (c : Cfg) (mv : V → V) : Prop where
  pos : 0 < c.length
  bound : c.length < 2 ^ 32 - 1
  dtor : ∀ a ∈ c, a.dtor ≠ .unavailable
  copy : ∀ a ∈ c, a.copyC = .trivially → a.dtor = .trivially
  move : ∀ a ∈ c, a.moveC = .trivially → a.dtor = .trivially
  moved : (∀ a ∈ c, a.moveC = .trivially) → ∀ v, mv v = v

/-- The objects an operation works on exist, one that is constructed does not exist yet, and all
alternatives have the operations that the call needs. -/
def Legal {V : Type} (c : Cfg) (a : Contents V) : Op V → Prop
  | .ctorAt k i _ _ => a k = none ∧ i < c.length
  | .ctorCopy k j => a k = none ∧ a j ≠ none ∧ ∀ t ∈ c, t.copyC ≠ .unavailable
  | .ctorMove k j => a k = none ∧ a j ≠ none ∧ ∀ t ∈ c, t.moveC ≠ .unavailable
  | .dtor k => a k ≠ none
  | .assignCopy k j => a k ≠ none ∧ a j ≠ none ∧
      ∀ t ∈ c, t.copyC ≠ .unavailable ∧ t.copyA ≠ .unavailable
  | .assignMove k j => a k ≠ none ∧ a j ≠ none ∧
      ∀ t ∈ c, t.moveC ≠ .unavailable ∧ t.moveA ≠ .unavailable
  | .assignVal k i _ _ _ => a k ≠ none ∧ i < c.length
  | .emplace k i _ _ => a k ≠ none ∧ i < c.length
  | .swap k j => a k ≠ none ∧ a j ≠ none ∧ ∀ t ∈ c, t.moveC ≠ .unavailable

/-- Content after having been moved from: the alternative stays. -/
def movedFrom {V : Type} (mv : V → V) : Option (Content V) → Option (Content V)
  | some (some (i, v)) => some (some (i, mv v))
  | x => x

/-- Effect of an operation that does not throw. -/
def effect {V : Type} (mv : V → V) (a : Contents V) : Op V → Contents V
  | .ctorAt k i v _ => a.set k (some (some (i, v)))
  | .ctorCopy k j => a.set k (a j)
  | .ctorMove k j => (a.set k (a j)).set j (movedFrom mv (a j))
  | .dtor k => a.set k none
  | .assignCopy k j => a.set k (a j)
  | .assignMove k j => (a.set k (a j)).set j (movedFrom mv (a j))
  | .assignVal k i v _ _ => a.set k (some (some (i, v)))
  | .emplace k i v _ => a.set k (some (some (i, v)))
  | .swap k j => (a.set k (a j)).set j (a k)

/-- The number of the alternative that a variant holds. -/
def alternative {V : Type} (x : Option (Content V)) : Option Nat := x.bind fun y => y.map Prod.fst

/-- The contents `a'` are `a`, except that the variant `k` holds some value of alternative `i`. -/
def Keeps {V : Type} (a a' : Contents V) (k i : Nat) : Prop :=
  ∃ v, a' = a.set k (some (some (i, v)))

/-- Moving the content cannot throw. -/
def NothrowMove {V : Type} (c : Cfg) (x : Option (Content V)) : Prop :=
  ∀ i, alternative x = some i → c.ntMoveC i = true

/-- What an assignment to `k` of something that becomes alternative `i` leaves behind if it throws.
If the variant holds that alternative before, it does so afterwards, with some value.  Otherwise
nothing has happened, or, if the alternative can throw when it is moved, the variant is valueless.
`ntc`, `nta`: construction, assignment of the alternative from the source cannot throw. -/
def AssignThrown {V : Type} (c : Cfg) (a a' : Contents V) (k i : Nat) (ntc nta : Bool) : Prop :=
  if alternative (a k) = some i then nta = false ∧ Keeps a a' k i
  else ntc = false ∧ (if c.ntMoveC i then a' = a else a' = a.set k (some none))

/-- The contents after an operation that throws; in each case an operation of an alternative that is
not declared noexcept has thrown. -/
def Thrown {V : Type} (c : Cfg) (a a' : Contents V) : Op V → Prop
  -- a constructor: there is no new object; the source of a move keeps its alternative
  | .ctorAt _ _ _ nt => nt = false ∧ a' = a
  | .ctorCopy _ j => ∃ i, alternative (a j) = some i ∧ c.ntCopyC i = false ∧ a' = a
  | .ctorMove _ j => ∃ i, alternative (a j) = some i ∧ c.ntMoveC i = false ∧ Keeps a a' j i
  | .dtor _ => False
  | .assignCopy k j => ∃ i, alternative (a j) = some i ∧
      AssignThrown c a a' k i (c.ntCopyC i) (c.ntCopyA i)
  | .assignMove k j => ∃ i, alternative (a j) = some i ∧
      -- both keep their alternative, or the target is valueless
      (if alternative (a k) = some i then c.ntMoveA i = false ∧
        ∃ w, a' = (a.set k (some (some (i, w)))).set j (some (some (i, w)))
      else c.ntMoveC i = false ∧ Keeps (a.set k (some none)) a' j i)
  | .assignVal k i _ nt nta => AssignThrown c a a' k i nt nta
  | .emplace k _ _ nt => nt = false ∧ a' = a.set k (some none)
  | .swap k j =>
    -- the same alternative: both keep it
    (∃ i, alternative (a k) = some i ∧ alternative (a j) = some i ∧ c.ntSwap i = false ∧
      ∃ x, a' = (a.set k (some (some (i, x)))).set j (some (some (i, x)))) ∨
    -- one of them can be moved without exceptions: it is unchanged; the other one keeps its
    -- alternative
    (∃ i, alternative (a k) = some i ∧ c.ntMoveC i = false ∧ NothrowMove c (a j) ∧ Keeps a a' k i) ∨
    (∃ i, alternative (a j) = some i ∧ c.ntMoveC i = false ∧ NothrowMove c (a k) ∧ Keeps a a' j i) ∨
    -- none of them: the first, the second or the third move throws
    (∃ i i', alternative (a k) = some i ∧ alternative (a j) = some i' ∧ i ≠ i' ∧
      c.ntMoveC i = false ∧ c.ntMoveC i' = false ∧
      (Keeps a a' j i' ∨ Keeps (a.set j (some none)) a' k i ∨
        a' = (a.set k (some none)).set j (a k)))

/-- The existing variants that an operation may modify when it throws. -/
def touched {V : Type} : Op V → List Nat
  | .ctorAt _ _ _ _ | .ctorCopy _ _ | .dtor _ => []
  | .ctorMove _ j => [j]
  | .assignCopy k _ | .assignVal k _ _ _ _ | .emplace k _ _ _ => [k]
  | .assignMove k j | .swap k j => [k, j]

end Gul14.Spec.Vari
