import Verif.Basic

/-!
# optional<T&> (optional.h:512-626, C67)

An optional reference stores a pointer.  The heap holds the objects referred to.
-/
namespace Gul14.OptRef

variable {V : Type}

/-- The objects, by address, and the optional references, by number: `none` is the null pointer. The
member ref of optional.h:528-624 and the objects that it points to. -/
structure World (V : Type) where
  heap : Nat → V
  ref : Nat → Option Nat

/-- The member ref of optional.h:528-624. -/
def World.bind (w : World V) (i : Nat) (p : Option Nat) : World V :=
  { w with ref := fun k => if k = i then p else w.ref k }

/-- optional(), optional(nullopt), optional.h:523-527; operator=(nullopt), 546-549; reset(),
621-623. -/
def setNull (w : World V) (i : Nat) : World V := w.bind i none

/-- optional(T&), optional(in_place, T&), optional.h:529-530, 537-538; emplace(T&), 582-584. -/
def emplace (w : World V) (i : Nat) (p : Nat) : World V := w.bind i (some p)

/-- optional(const optional&), optional.h:534-535; operator= from an optional<T&>, 561-571. -/
def assign (w : World V) (i j : Nat) : World V := w.bind i (w.ref j)

/-- swap(), optional.h:588-590: std::swap of the pointers. -/
def swap (w : World V) (i j : Nat) : World V :=
  let t := w.ref i
  (w.bind i (w.ref j)).bind j t

/-- operator*, optional.h:598-600 (asserts), as a value; operator-> is the same with an address. -/
def deref (w : World V) (i : Nat) : Res V :=
  match w.ref i with
  | some p => .ok (w.heap p)
  | none => .terminate

/-- value(), optional.h:602-604. -/
def value (w : World V) (i : Nat) : Res V :=
  match w.ref i with
  | some p => .ok (w.heap p)
  | none => .throw .logicError

/-- operator bool, has_value(), optional.h:606-612. -/
def hasValue (w : World V) (i : Nat) : Bool := (w.ref i).isSome

/-- value_or(v), optional.h:614-617. -/
def valueOr (w : World V) (i : Nat) (v : V) : Res V := if hasValue w i then deref w i else .ok v

/-- Assignment to `*o` by the user. -/
def write (w : World V) (i : Nat) (v : V) : Res (World V) :=
  match w.ref i with
  | some p => .ok { w with heap := fun a => if a = p then v else w.heap a }
  | none => .terminate

/-- The operations on optional references themselves. The members of optional<T&>, optional.h:528-624. -/
inductive Op where
  | setNull (i : Nat)
  | emplace (i p : Nat)
  | assign (i j : Nat)
  | swap (i j : Nat)

/-- The members of optional<T&>, optional.h:528-624. -/
def exec (w : World V) : Op → World V
  | .setNull i => setNull w i
  | .emplace i p => emplace w i p
  | .assign i j => assign w i j
  | .swap i j => swap w i j

/-- Assigning, emplacing, swapping and resetting optional references never changes an object that
they refer to, in any sequence. -/
theorem c67_objects_untouched (w : World V) (ops : List Op) :
    (ops.foldl exec w).heap = w.heap := by
  induction ops generalizing w with
  | nil => rfl
  | cons o ops ih =>
    simp only [List.foldl_cons]
    rw [ih]
    cases o <;> rfl

/-- The operations rebind: afterwards the optional on the left refers to what the right one
referred to, and no other optional is affected. -/
theorem c67_rebind (w : World V) (i j : Nat) (p : Nat) :
    (setNull w i).ref i = none ∧ (emplace w i p).ref i = some p ∧
    (assign w i j).ref i = w.ref j ∧
    (swap w i j).ref i = w.ref j ∧ (swap w i j).ref j = w.ref i ∧
    ∀ k, k ≠ i → (setNull w i).ref k = w.ref k ∧ (emplace w i p).ref k = w.ref k ∧
      (assign w i j).ref k = w.ref k ∧ (k ≠ j → (swap w i j).ref k = w.ref k) := by
  refine ⟨by simp [setNull, World.bind], by simp [emplace, World.bind],
    by simp [assign, World.bind], ?_, by simp [swap, World.bind], ?_⟩
  · simp only [swap, World.bind]
    by_cases h : i = j <;> simp [h]
  · intro k hk
    refine ⟨by simp [setNull, World.bind, hk], by simp [emplace, World.bind, hk],
      by simp [assign, World.bind, hk], fun h => by simp [swap, World.bind, hk, h]⟩

/-- The observers see the object referred to as it is now; through `*o` the object itself is
changed, and every optional referring to it sees the change. -/
theorem c67_observe (w : World V) (i : Nat) (d : V) :
    (∀ p, w.ref i = some p →
      hasValue w i = true ∧ deref w i = .ok (w.heap p) ∧ value w i = .ok (w.heap p) ∧
      valueOr w i d = .ok (w.heap p) ∧
      ∀ v, ∃ w', write w i v = .ok w' ∧ w'.ref = w.ref ∧ w'.heap p = v ∧
        (∀ a, a ≠ p → w'.heap a = w.heap a) ∧
        ∀ j, w.ref j = some p → value w' j = .ok v) ∧
    (w.ref i = none →
      hasValue w i = false ∧ deref w i = .terminate ∧ value w i = .throw .logicError ∧
      valueOr w i d = .ok d) := by
  constructor
  · intro p h
    refine ⟨by simp [hasValue, h], by simp [deref, h], by simp [value, h],
      by simp [valueOr, hasValue, deref, h], ?_⟩
    intro v
    refine ⟨{ w with heap := fun a => if a = p then v else w.heap a }, by simp [write, h], rfl, by simp, fun a ha => by simp [ha], ?_⟩
    intro j hj
    simp [value, hj]
  · intro h
    simp [hasValue, deref, value, valueOr, h]

example : value (exec (exec ⟨fun a => a * 10, fun _ => none⟩ (.emplace 0 3)) (.assign 1 0)) 1 =
    .ok 30 := by decide +kernel

end Gul14.OptRef
