import Verif.Optional.Model

/-!
# Specification of optional: maybe-values

`none`: no such optional exists; `some none`: it is empty; `some (some v)`: it has the value `v`.
-/
namespace Gul14.Spec

/-- What an observer sees of the existing optionals. -/
abbrev Maybes (V : Type) := Nat → Option (Option V)

def Maybes.set {V : Type} (a : Maybes V) (i : Nat) (x : Option (Option V)) : Maybes V :=
  fun k => if k = i then x else a k

open Opt (Op)

/-- The optionals an operation works on exist; one that is constructed does not exist yet. -/
def Legal {V : Type} (a : Maybes V) : Op V → Prop
  | .ctorEmpty i => a i = none
  | .ctorCopy i j => a i = none ∧ a j ≠ none
  | .ctorMove i j => a i = none ∧ a j ≠ none
  | .ctorValue i _ => a i = none
  | .dtor i => a i ≠ none
  | .assignNull i => a i ≠ none
  | .assignCopy i j => a i ≠ none ∧ a j ≠ none
  | .assignMove i j => a i ≠ none ∧ a j ≠ none
  | .assignValue i _ => a i ≠ none
  | .emplace i _ => a i ≠ none
  | .swap i j => a i ≠ none ∧ a j ≠ none

/-- Effect of an operation that does not throw.  An object that has been moved from keeps existing
with the value `mv v`. -/
def effect {V : Type} (mv : V → V) (a : Maybes V) : Op V → Maybes V
  | .ctorEmpty i => a.set i (some none)
  | .ctorCopy i j => a.set i (a j)
  | .ctorMove i j => (a.set i (a j)).set j ((a j).map (·.map mv))
  | .ctorValue i v => a.set i (some (some v))
  | .dtor i => a.set i none
  | .assignNull i => a.set i (some none)
  | .assignCopy i j => a.set i (a j)
  | .assignMove i j => (a.set i (a j)).set j ((a j).map (·.map mv))
  | .assignValue i v => a.set i (some (some v))
  | .emplace i v => a.set i (some (some v))
  | .swap i j => (a.set i (a j)).set j (a i)

/-- Allowed states after an exception, as for std::optional: a constructor leaves no object; an
empty target of an assignment stays empty; emplace leaves the target empty; an element whose own
assignment or move threw keeps existing with an unspecified value; nobody else is affected. -/
def AfterThrow {V : Type} (a a' : Maybes V) : Op V → Prop
  | .ctorCopy _ _ => a' = a
  | .ctorMove _ j => ∃ w, (∃ v, a j = some (some v)) ∧ a' = a.set j (some (some w))
  | .ctorValue _ _ => a' = a
  | .assignCopy i _ => (a i = some none ∧ a' = a) ∨
      ∃ v w, a i = some (some v) ∧ a' = a.set i (some (some w))
  | .assignMove i j => ∃ v w, a j = some (some v) ∧
      ((a i = some none ∧ a' = a.set j (some (some w))) ∨
       ∃ u, a i = some (some u) ∧ a' = (a.set i (some (some w))).set j (some (some w)))
  | .assignValue i _ => (a i = some none ∧ a' = a) ∨
      ∃ v w, a i = some (some v) ∧ a' = a.set i (some (some w))
  | .emplace i _ => a' = a.set i (some none)
  | .swap i j => (∃ v w, a i = some (some v) ∧ a j = some none ∧ a' = a.set i (some (some w))) ∨
      (∃ v w, a i = some none ∧ a j = some (some v) ∧ a' = a.set j (some (some w))) ∨
      ∃ u v w w', a i = some (some u) ∧ a j = some (some v) ∧
        a' = (a.set i (some (some w))).set j (some (some w'))
  | .ctorEmpty _ | .dtor _ | .assignNull _ => False

end Gul14.Spec
