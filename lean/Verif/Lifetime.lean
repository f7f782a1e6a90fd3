import Verif.Basic

/-!
# Raw storage, object lifetimes and throwing element operations

Vocabulary for the containers that manage the lifetime of their elements themselves (optional,
expected, SmallVector).  A storage cell is raw or holds a live object.  Destroying or reading a
cell that holds no live object, and constructing over a live object, are errors (`ub`; the last
one is a leak rather than undefined behaviour, but no correct program does it).

Every element operation that runs user code (constructors and assignments) can throw.  A call of
a modelled function is accompanied by a `Fail`, which says which of its element operations throws,
counted from zero (`none`: no one), and which value a failed assignment leaves behind.
-/
namespace Gul14

/-- A storage cell for one object. -/
inductive Cell (V : Type) where
  | raw
  | live (v : V)
  deriving DecidableEq, Repr

/-- Which element operation throws, and the value left behind in the objects it was to modify. -/
structure Fail (V : Type) where
  at? : Option Nat
  left : V
  deriving Repr

/-- Outcome of a call that works on a state `σ`; `n` counts the element operations. -/
inductive Out (σ α : Type) where
  | ok (a : α) (s : σ) (n : Nat)
  | throw (s : σ) (n : Nat)
  | terminate
  | ub
  deriving DecidableEq, Repr

/-- Calls with element type `V` on a state `σ`. -/
def LM (V σ α : Type) : Type := Fail V → σ → Nat → Out σ α

namespace LM
variable {V σ α β : Type}

def pure (a : α) : LM V σ α := fun _ s n => .ok a s n

def bind (x : LM V σ α) (f : α → LM V σ β) : LM V σ β := fun w s n =>
  match x w s n with
  | .ok a s n => f a w s n
  | .throw s n => .throw s n
  | .terminate => .terminate
  | .ub => .ub

instance : Monad (LM V σ) where
  pure := pure
  bind := bind

@[simp] theorem pure_apply (a : α) (w : Fail V) (s : σ) (n : Nat) :
    (Pure.pure a : LM V σ α) w s n = .ok a s n := rfl

@[simp] theorem bind_apply (x : LM V σ α) (f : α → LM V σ β) (w : Fail V) (s : σ) (n : Nat) :
    (x >>= f) w s n = match x w s n with
      | .ok a s n => f a w s n
      | .throw s n => .throw s n
      | .terminate => .terminate
      | .ub => .ub := rfl

/-- Undefined behaviour. -/
def error : LM V σ α := fun _ _ _ => .ub

/-- An exception that does not come from an element operation. -/
def raise : LM V σ α := fun _ s n => .throw s n

/-- assert: aborts if the condition is false. -/
def assert (b : Bool) : LM V σ Unit := fun _ s n => if b then .ok () s n else .terminate

def getState : LM V σ σ := fun _ s n => .ok s s n
def setState (s : σ) : LM V σ Unit := fun _ _ n => .ok () s n

/-- One element operation: `good` is its effect, `bad` the state it leaves if it throws. -/
def elem (good : σ → σ) (bad : V → σ → σ) : LM V σ Unit := fun w s n =>
  if w.at? = some n then .throw (bad w.left s) (n + 1) else .ok () (good s) (n + 1)

/-- An element operation of a type whose operation cannot throw (`nothrow`) or can. -/
def elemIf (nothrow : Bool) (good : σ → σ) (bad : V → σ → σ) : LM V σ Unit :=
  if nothrow then fun _ s n => .ok () (good s) n else elem good bad

/-- `try { x } catch (...) { h; throw; }` -/
def onThrow (x : LM V σ α) (h : LM V σ Unit) : LM V σ α := fun w s n =>
  match x w s n with
  | .throw s n => match h w s n with
    | .ok _ s n => .throw s n
    | .throw s n => .throw s n
    | .terminate => .terminate
    | .ub => .ub
  | r => r

/-- A function declared noexcept. -/
def noexcept (x : LM V σ α) : LM V σ α := fun w s n =>
  match x w s n with
  | .throw _ _ => .terminate
  | r => r

@[simp] theorem error_apply (w : Fail V) (s : σ) (n : Nat) : (error : LM V σ α) w s n = .ub := rfl
@[simp] theorem raise_apply (w : Fail V) (s : σ) (n : Nat) :
    (raise : LM V σ α) w s n = .throw s n := rfl
@[simp] theorem assert_true (w : Fail V) (s : σ) (n : Nat) :
    (assert true : LM V σ Unit) w s n = .ok () s n := rfl
@[simp] theorem assert_false (w : Fail V) (s : σ) (n : Nat) :
    (assert false : LM V σ Unit) w s n = .terminate := rfl
@[simp] theorem getState_apply (w : Fail V) (s : σ) (n : Nat) :
    (getState : LM V σ σ) w s n = .ok s s n := rfl
@[simp] theorem setState_apply (t : σ) (w : Fail V) (s : σ) (n : Nat) :
    (setState t : LM V σ Unit) w s n = .ok () t n := rfl

end LM
end Gul14
