import Verif.Expected.Model

/-!
# Specification of expected: value or error

`none`: no such object exists; `some (.ok t)`: it has the value `t`; `some (.error e)`: it has the
error `e`.
-/
namespace Gul14.Spec

/-- What an observer sees of the existing objects. -/
abbrev Results (T E : Type) := Nat → Option (Except E T)

def Results.set {T E : Type} (a : Results T E) (i : Nat) (x : Option (Except E T)) :
    Results T E := fun k => if k = i then x else a k

/-- Content after having been moved from: the alternative stays. -/
def movedFrom {T E : Type} (mvT : T → T) (mvE : E → E) : Option (Except E T) → Option (Except E T)
  | some (.ok t) => some (.ok (mvT t))
  | some (.error e) => some (.error (mvE e))
  | none => none

namespace Expd
open Exp (Op Tr)

/-- The objects an operation works on exist; one that is constructed does not exist yet. -/
def Legal {T E : Type} (a : Results T E) : Op T E → Prop
  | .ctorVal i _ | .ctorErr i _ => a i = none
  | .ctorCopy i j | .ctorMove i j => a i = none ∧ a j ≠ none
  | .dtor i | .assignVal i _ | .assignErr i _ | .assignErrMove i _ | .emplace i _
  | .emplaceList i _ => a i ≠ none
  | .assignCopy i j | .assignMove i j | .swap i j => a i ≠ none ∧ a j ≠ none

/-- The operation takes part in overload resolution for these types (enable_if conditions,
expected.h:1571, 1595, 1621, 1636, 1815-1819). -/
def Available {T E : Type} (tr : Tr) : Op T E → Prop
  | .assignVal _ _ => tr.eMove = true
  | .assignErr _ _ => tr.eCopy = true
  | .assignErrMove _ _ => tr.eMove = true
  | .swap _ _ => tr.tMove = true ∨ tr.eMove = true
  | _ => True

/-- Effect of an operation that does not throw. -/
def effect {T E : Type} (mvT : T → T) (mvE : E → E) (a : Results T E) : Op T E → Results T E
  | .ctorVal i t => a.set i (some (.ok t))
  | .ctorErr i e => a.set i (some (.error e))
  | .ctorCopy i j => a.set i (a j)
  | .ctorMove i j => (a.set i (a j)).set j (movedFrom mvT mvE (a j))
  | .dtor i => a.set i none
  | .assignCopy i j => a.set i (a j)
  | .assignMove i j =>
    -- moving a value onto an error, or an error onto a value, or like onto like
    (a.set i (a j)).set j (movedFrom mvT mvE (a j))
  | .assignVal i t | .emplace i t | .emplaceList i t => a.set i (some (.ok t))
  | .assignErr i e | .assignErrMove i e => a.set i (some (.error e))
  | .swap i j => (a.set i (a j)).set j (a i)

/-- The objects an operation may modify. -/
def touched {T E : Type} : Op T E → List Nat
  | .ctorVal _ _ | .ctorErr _ _ | .ctorCopy _ _ => []
  | .ctorMove _ j => [j]
  | .dtor i | .assignVal i _ | .assignErr i _ | .assignErrMove i _ | .emplace i _
  | .emplaceList i _ | .assignCopy i _ => [i]
  | .assignMove i j | .swap i j => [i, j]

/-- Which alternative an object holds. -/
def kind {T E : Type} : Option (Except E T) → Option Bool
  | some (.ok _) => some true
  | some (.error _) => some false
  | none => none

/-- The operation does not construct the value, or move one alternative, over a destroyed object with
a constructor that can throw. -/
def Safe {T E : Type} (tr : Tr) (a : Results T E) : Op T E → Prop
  | .assignVal i _ | .emplaceList i _ => tr.tFrom = true ∨ kind (a i) = some true
  | .emplace _ _ => tr.tFrom = true
  | .swap i j => (tr.tMove = true ∧ tr.eMove = true) ∨ kind (a i) = kind (a j)
  | _ => True

/-- The calls in which an exception of an element operation meets a function declared noexcept and
ends the program: copy and move construction (expected.h:622-636), copy and move assignment
(646-737, except of like to like with the overloads that are not noexcept), and assignment of an
rvalue unexpected (1638).  In all other calls exceptions reach the caller. -/
def EndsProgram {T E : Type} (tr : Tr) (a : Results T E) : Op T E → Prop
  | .ctorCopy _ j => match kind (a j) with
    | some true => tr.tCopy = false
    | some false => tr.eCopy = false
    | none => False
  | .ctorMove _ j => match kind (a j) with
    | some true => tr.tMove = false
    | some false => tr.eMove = false
    | none => False
  | .assignCopy i j => match kind (a i), kind (a j) with
    | some true, some true => tr.tAssign = false ∧ (tr.tCopy = true ∨ tr.tMove = true)
    | some true, some false => tr.eCopy = false
    | some false, some true => tr.tCopy = false
    | some false, some false => tr.eAssign = false ∧ (tr.tCopy = true ∨ tr.tMove = true)
    | _, _ => False
  | .assignMove i j => match kind (a i), kind (a j) with
    | some true, some true => tr.tMoveAssign = false ∧ tr.tMove = true
    | some true, some false => tr.eMove = false
    | some false, some true => tr.tMove = false
    | some false, some false => tr.eMoveAssign = false ∧ tr.tMove = true
    | _, _ => False
  | .assignErrMove _ _ => tr.eMoveAssign = false
  | _ => False

/-- After an exception the objects involved hold the alternative they held before (with a possibly
different value), and no other object is affected. -/
def KeepsAlternatives {T E : Type} (a a' : Results T E) (op : Op T E) : Prop :=
  ∀ k, kind (a' k) = kind (a k) ∧ (k ∉ touched op → a' k = a k)

end Expd
end Gul14.Spec
