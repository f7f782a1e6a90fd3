import Verif.SmallVector.Alias

/-!
# Calls of SmallVector that do not do what the properties demand

Concrete programs.  `ints` are elements whose operations cannot throw and whose moved-from value is 0;
`strs` can throw in every operation.
-/
namespace Gul14.SmallVector
open LM hiding pure bind

/-- Elements with noexcept operations; inner capacity 2. -/
def ints : Traits Nat := ⟨true, true, true, true, true, fun _ => 0, 0, 2⟩
/-- Elements whose operations may throw; inner capacity 2. -/
def strs : Traits Nat := ⟨false, false, false, false, true, fun _ => 0, 0, 2⟩
/-- Elements that cannot be copied and whose move may throw; inner capacity 2. -/
def moveOnly : Traits Nat := ⟨false, false, false, false, false, fun _ => 0, 0, 2⟩

def noFail : Fail Nat := ⟨none, 0⟩

/-- How a program ends. -/
inductive End (α : Type) where
  | ok (a : α)
  | throw
  | terminate
  | ub
  deriving DecidableEq, Repr

/-- Runs a program from the start. -/
def play {α : Type} (w : Fail Nat) (x : M Nat α) : End α := match x w start 0 with
  | .ok a _ _ => .ok a
  | .throw _ _ => .throw
  | .terminate => .terminate
  | .ub => .ub

/-- Runs a program in which the call `x` throws, and then `y` in the state it leaves. -/
def playCatch {α : Type} (w : Fail Nat) (x : M Nat Unit) (y : M Nat α) : End α := match x w start 0 with
  | .throw s n => match y noFail s n with
    | .ok a _ _ => .ok a
    | .throw _ _ => .throw
    | .terminate => .terminate
    | .ub => .ub
  | _ => .terminate

/-- A vector with the elements 1 and 2: it is full. -/
def two (t : Traits Nat) : M Nat Unit := ctorRange t 0 [1, 2]

/-- **C31 is violated** by push_back(v[0]) and emplace_back(v[0]) when the vector is full: the reference
dangles after the elements have moved to a larger block. -/
theorem c31_push_back_violated :
    play noFail (do two ints; pushBack ints false 0 (.at (.inner 0) 0)) = .ub ∧
    play noFail (do two ints; pushBack ints true 0 (.at (.inner 0) 0)) = .ub ∧
    play noFail (do two ints; emplaceBack ints 0 (.at (.inner 0) 0)) = .ub := by decide +kernel

/-- **C31 is violated** by insert(begin(), v[1]) also if there is room: the reference then refers to what
has been shifted into the place of v[1]. -/
theorem c31_insert_violated :
    play noFail (do
      newVec ints 0; reserve ints 0 5; pushBack ints false 0 (.val 1); pushBack ints false 0 (.val 2)
      let d ← data 0
      let _ ← insertSingle ints false 0 0 (.at d 1)
      elements 0) = .ok [1, 1, 2] ∧
    play noFail (do
      newVec ints 0; reserve ints 0 5; pushBack ints false 0 (.val 1); pushBack ints false 0 (.val 2)
      let d ← data 0
      let _ ← insertN ints 0 0 1 (.at d 1)
      elements 0) = .ok [1, 1, 2] ∧
    play noFail (do two ints; insertSingle ints false 0 0 (.at (.inner 0) 0)) = .ub := by decide +kernel

/-- **C31 is violated** by assign(n, v[0]), which destroys the element before copying it. -/
theorem c31_assign_violated :
    play noFail (do two ints; assignN ints 0 2 (.at (.inner 0) 0)) = .ub := by decide +kernel

/-- **C31 is violated** by resize(n, v[0]) if the capacity must grow. -/
theorem c31_resize_violated :
    play noFail (do two ints; resizeWith ints 0 3 (.at (.inner 0) 0)) = .ub := by decide +kernel

/-- **C28 is violated** by erase(p, p) before the end: the elements that follow are assigned to
themselves by move and are moved-from afterwards (std::vector leaves them alone). -/
theorem c28_erase_empty_violated :
    play noFail (do two ints; let _ ← erase ints 0 0 0; elements 0) = .ok [0, 0] := by decide +kernel

/-- **C29 is violated** if an element operation throws while elements are being shifted by insert: an
element has already been constructed behind the end and is never destroyed; here it is in the internal
array when the vector is destroyed. -/
theorem c29_insert_throws_violated :
    playCatch ⟨some 3, 7⟩ (do
      ctorRange { strs with inCap := 3 } 0 [1, 2]
      let _ ← insertSingle { strs with inCap := 3 } false 0 0 (.val 9)) (dtor 0) = .ub := by decide +kernel

/-- **C29 is violated** if an element operation throws in resize(n, value), assign(n, value),
SmallVector(n, value) or SmallVector(n): the elements constructed so far are never destroyed. -/
theorem c29_fill_throws_violated :
    playCatch ⟨some 1, 7⟩ (do newVec strs 0; resizeWith strs 0 2 (.val 9)) (dtor 0) = .ub ∧
    playCatch ⟨some 1, 7⟩ (do newVec strs 0; assignN strs 0 2 (.val 9)) (dtor 0) = .ub ∧
    play ⟨some 1, 7⟩ (ctorNV strs 0 2 (.val 9)) = .ub ∧
    play ⟨some 1, 7⟩ (ctorN strs 0 2) = .ub := by decide +kernel

/-- A heap block is still allocated. -/
def leaked : M Nat Bool := fun _ s n => .ok (s.mem (.heap 0)).isSome s n

/-- **C29 is violated** if a constructor throws after it has allocated memory: the block is never freed,
although no vector exists. -/
theorem c29_constructor_leak_violated :
    playCatch ⟨some 1, 7⟩ (ctorRange strs 0 [1, 2, 3]) leaked = .ok true ∧
    playCatch ⟨some 4, 7⟩ (do ctorRange strs 0 [1, 2, 3]; ctorCopy strs 1 0; pure ()) leaked = .ok true ∧
    playCatch ⟨some 1, 7⟩ (ctorRange strs 0 [1, 2, 3]) (elements 0) = .ub := by decide +kernel

/-- **C28 is violated** by copy construction and copy assignment of elements with noexcept copies: both
are noexcept but allocate memory; running out of memory ends the program. -/
theorem c28_noexcept_allocation_violated :
    play ⟨some 1, 7⟩ (do ctorRange ints 0 [1, 2, 3]; ctorCopy ints 1 0) = .terminate ∧
    play ⟨some 1, 7⟩ (do ctorRange ints 0 [1, 2, 3]; newVec ints 1; copyAssign ints 1 0) = .terminate := by
  decide +kernel

/-- **C32 is violated** for elements that cannot be copied and whose move constructor throws: the
elements moved so far have lost their values (std::vector makes the same exception). -/
theorem c32_move_only_violated :
    playCatch ⟨some 4, 7⟩ (do
      newVec moveOnly 0; emplaceBack moveOnly 0 (.val 1); emplaceBack moveOnly 0 (.val 2)
      emplaceBack moveOnly 0 (.val 3)) (elements 0) = .ok [0, 7] := by decide +kernel

/-! ### The hypotheses of the theorems are met -/

open Spec.Sv (Op Shown Vars History legal result)

/-- A history with heap memory, shifting, moving and swapping. -/
def sample : List (Op Nat) :=
  [.newRange 0 [1, 2, 3], .insert 0 1 false 9, .new 1, .pushBack 1 true 5, .swap 0 1, .newMove 2 1,
   .erase 2 0 2, .delete 1]

theorem sample_history : ∃ B, History ints.inCap ints.dflt (fun _ => none) sample B ∧
    B 0 = some ⟨[5], 2⟩ ∧ B 1 = none ∧ B 2 = some ⟨[2, 3], 4⟩ := by
  refine ⟨_, .cons ⟨rfl, by decide⟩ (.cons ⟨_, rfl, by decide, by decide⟩ (.cons rfl
    (.cons ⟨_, rfl, by decide⟩ (.cons ⟨⟨_, rfl⟩, _, rfl⟩ (.cons ⟨rfl, _, rfl⟩
    (.cons ⟨_, rfl, by decide, by decide⟩ (.cons ⟨_, rfl⟩ (.nil _)))))))), ?_, ?_, ?_⟩ <;> rfl

/-- The hypotheses of the theorems of C28 to C31 are met by the state after this history. -/
theorem c28_sample : ∃ s B n, runAll ints sample noFail start 0 = .ok () s n ∧ Shows s B ∧ Reach ints s B ∧
    B 0 = some ⟨[5], 2⟩ ∧ B 2 = some ⟨[2, 3], 4⟩ := by
  obtain ⟨B, h, h0, _, h2⟩ := sample_history
  obtain ⟨s, n, h3, h4, h5⟩ := c28_history (by decide) h 0 0
  exact ⟨s, B, n, h3, h4, h5, h0, h2⟩

/-- A vector of the maximum size can be reached, so the hypotheses of `c30_length_error` are met. -/
theorem c30_full_reachable : ∃ (s : St Nat) (B : Vars Nat) (x : Shown Nat), Reach ints s B ∧ B 0 = some x ∧
    x.elems.length = maxSize := by
  obtain ⟨s, n, _, _, h⟩ := c28_history (t := ints) (ops := [.newN 0 maxSize]) (by decide)
    (.cons ⟨rfl, Nat.le_refl _⟩ (.nil _)) 0 0
  exact ⟨s, _, _, h, rfl, List.length_replicate⟩

/-- The hypotheses of `c32_strong_partial` are met: constructing the new element throws while the
vector grows. -/
example : playCatch ⟨some 5, 7⟩ (do
      two strs; pushBack strs false 0 (.val 3)) (do
      let xs ← elements 0
      let c ← capacity 0
      pure (xs, c)) = .ok ([1, 2], 3) := by decide +kernel
example : playCatch ⟨some 4, 7⟩ (do two strs; reserve strs 0 5) (do
      let xs ← elements 0
      let c ← capacity 0
      pure (xs, c)) = .ok ([1, 2], 2) := by decide +kernel

end Gul14.SmallVector
