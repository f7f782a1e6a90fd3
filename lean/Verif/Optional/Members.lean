/-!
# The special member functions of optional<T> and what they promise about exceptions

The four copy and move operations of `optional` are user-provided and not constrained
(include/gul14/optional.h:333-388), its destructor is defaulted (366) in a class whose base is chosen by
the triviality of the destructor of `T` (200-259), and the noexcept specifications of the operations and
of `swap` are written out (341, 383, 415-416, 870).  This file models these declarations, and the
bodies as far as they call functions of `T`: which of them can throw, and what then becomes of the
exception.  The values are in Optional/Model.lean.
-/
namespace Gul14.Opt.Members

/-- A copy or move operation of `T`. -/
inductive Fn where
  | deleted
  | trivial
  /-- not trivial; the flag says whether it is declared noexcept -/
  | user (nothrow : Bool)
  deriving DecidableEq, Repr

/-- `T`, as far as it matters here. `none` for a move operation: there is none, rvalues are copied.
`swap`: whether two lvalues can be swapped, and whether this is declared noexcept. Destructors do not throw.
Type traits of the language and the library; no code in /repo. -/
structure Ty where
  copyCtor : Fn
  moveCtor : Option Fn
  copyAssign : Fn
  moveAssign : Option Fn
  swap : Option Bool
  dtorTrivial : Bool
  deriving DecidableEq, Repr

/-- The operation exists. -/
def Fn.ok (f : Fn) : Bool := f != .deleted

/-- The operation exists and is noexcept; trivial operations are. -/
def Fn.nothrow (f : Fn) : Bool := f == .trivial || f == .user true

/-- The constructor for rvalues. -/
def Ty.rvalueCtor (t : Ty) : Fn := t.moveCtor.getD t.copyCtor

/-- The assignment for rvalues. -/
def Ty.rvalueAssign (t : Ty) : Fn := t.moveAssign.getD t.copyAssign

/-! ### What is declared -/

/-- A function of optional as the type traits see it. -/
structure Decl where
  exists_ : Bool
  trivial : Bool
  nothrow : Bool
  deriving DecidableEq, Repr

/-- optional(const optional&), optional.h:333. -/
def copyCtorDecl (_ : Ty) : Decl := ⟨true, false, false⟩

/-- optional(optional&&), optional.h:341: std::is_nothrow_move_constructible<T>. -/
def moveCtorDecl (t : Ty) : Decl := ⟨true, false, t.rvalueCtor.nothrow⟩

/-- operator=(const optional&), optional.h:375. -/
def copyAssignDecl (_ : Ty) : Decl := ⟨true, false, false⟩

/-- operator=(optional&&), optional.h:382-383: std::is_nothrow_move_assignable<T> and
std::is_nothrow_move_constructible<T>. -/
def moveAssignDecl (t : Ty) : Decl := ⟨true, false, t.rvalueAssign.nothrow && t.rvalueCtor.nothrow⟩

/-- The noexcept specification of the member swap, optional.h:415-416 with adl_swap, 128-134, and of the
function swap, 869-870. It is only asked for if `T` can be swapped. -/
def swapNothrow (t : Ty) : Bool := t.rvalueCtor.nothrow && t.swap == some true

/-- The two bases, optional.h:200-252: the destructor of optional_base is written, the one of
constexpr_optional_base and those of its members are defaulted. -/
inductive Base where
  | optional_base
  | constexpr_optional_base
  deriving DecidableEq, Repr

/-- OptionalBase, optional.h:254-259. -/
def base (t : Ty) : Base := if t.dtorTrivial then .constexpr_optional_base else .optional_base

/-- ~optional() = default, optional.h:366. The union constexpr_storage_t<T> (185-198) has a trivial
destructor only if `T` has. -/
def dtorTrivial (t : Ty) : Bool := match base t with
  | .optional_base => false
  | .constexpr_optional_base => t.dtorTrivial

/-! ### What the bodies do -/

/-- What becomes of a use in a program. -/
inductive Out where
  /-- it does not compile: the body uses a function that is deleted -/
  | error
  | done
  /-- an exception of a function of `T` reaches the caller -/
  | thrown
  /-- an exception meets a noexcept specification -/
  | terminated
  deriving DecidableEq, Repr

/-- The functions of `T` that the bodies call. -/
inductive Call where
  | copyCtor | rvalueCtor | copyAssign | rvalueAssign | swap
  deriving DecidableEq, Repr

/-- Whether a function can be called, and whether it is noexcept. -/
def Ty.callable (t : Ty) : Call → Bool
  | .copyCtor => t.copyCtor.ok
  | .rvalueCtor => t.rvalueCtor.ok
  | .copyAssign => t.copyAssign.ok
  | .rvalueAssign => t.rvalueAssign.ok
  | .swap => t.swap.isSome

def Ty.noexcept (t : Ty) : Call → Bool
  | .copyCtor => t.copyCtor.nothrow
  | .rvalueCtor => t.rvalueCtor.nothrow
  | .copyAssign => t.copyAssign.nothrow
  | .rvalueAssign => t.rvalueAssign.nothrow
  | .swap => t.swap == some true

/-- A function with noexcept specification `spec`. Language rule; no code in /repo. -/
def guarded (spec : Bool) (o : Out) : Out := if spec && o == .thrown then .terminated else o

/-- A call of a function of `T`; `throws` says which of them throw at this time. -/
def call (throws : Call → Bool) (c : Call) : Out := if throws c then .thrown else .done

/-- initialize, optional.h:308-313: its noexcept specification is that of the constructor. -/
def initialise (t : Ty) (throws : Call → Bool) (c : Call) : Out := guarded (t.noexcept c) (call throws c)

/-- A body compiles only if all the functions it names can be called, whichever it reaches. -/
def body (t : Ty) (named : List Call) (o : Out) : Out :=
  if named.all t.callable then o else .error

/-- optional(const optional& rhs), optional.h:333-339. -/
def copyConstruct (t : Ty) (throws : Call → Bool) (rhs : Bool) : Out :=
  body t [.copyCtor] <| guarded (copyCtorDecl t).nothrow <|
    if rhs then call throws .copyCtor else .done

/-- optional(optional&& rhs), optional.h:341-347. -/
def moveConstruct (t : Ty) (throws : Call → Bool) (rhs : Bool) : Out :=
  body t [.rvalueCtor] <| guarded (moveCtorDecl t).nothrow <|
    if rhs then call throws .rvalueCtor else .done

/-- operator=(const optional& rhs), optional.h:375-380. -/
def copyAssign (t : Ty) (throws : Call → Bool) (this rhs : Bool) : Out :=
  body t [.copyCtor, .copyAssign] <| guarded (copyAssignDecl t).nothrow <|
    if this && !rhs then .done
    else if !this && rhs then initialise t throws .copyCtor
    else if this && rhs then call throws .copyAssign
    else .done

/-- operator=(optional&& rhs), optional.h:382-388. -/
def moveAssign (t : Ty) (throws : Call → Bool) (this rhs : Bool) : Out :=
  body t [.rvalueCtor, .rvalueAssign] <| guarded (moveAssignDecl t).nothrow <|
    if this && !rhs then .done
    else if !this && rhs then initialise t throws .rvalueCtor
    else if this && rhs then call throws .rvalueAssign
    else .done

/-- swap, optional.h:415-428. -/
def swap (t : Ty) (throws : Call → Bool) (this rhs : Bool) : Out :=
  body t [.rvalueCtor, .swap] <| guarded (swapNothrow t) <|
    if this && !rhs then initialise t throws .rvalueCtor
    else if !this && rhs then initialise t throws .rvalueCtor
    else if this && rhs then call throws .swap
    else .done

/-- optional(const T&), optional.h:349-350: no noexcept specification. -/
def valueCopyConstruct (t : Ty) (throws : Call → Bool) : Out := body t [.copyCtor] (call throws .copyCtor)

/-- optional(T&&), optional.h:352-353. -/
def valueMoveConstruct (t : Ty) (throws : Call → Bool) : Out := body t [.rvalueCtor] (call throws .rvalueCtor)

/-- operator=(U&& v) for an lvalue, optional.h:390-400. -/
def valueCopyAssign (t : Ty) (throws : Call → Bool) (this : Bool) : Out :=
  body t [.copyAssign, .copyCtor] <|
    if this then call throws .copyAssign else initialise t throws .copyCtor

/-- operator=(U&& v) for an rvalue, optional.h:390-400. -/
def valueMoveAssign (t : Ty) (throws : Call → Bool) (this : Bool) : Out :=
  body t [.rvalueAssign, .rvalueCtor] <|
    if this then call throws .rvalueAssign else initialise t throws .rvalueCtor

end Gul14.Opt.Members

namespace Gul14.Spec.OptMembers
open Gul14.Opt.Members

/-- The functions of `T` keep their own promises: one that is noexcept does not throw. -/
def Honest (t : Ty) (throws : Call → Bool) : Prop := ∀ c, t.noexcept c = true → throws c = false

/-- An operation exists. -/
abbrev Has (f : Fn) : Prop := f ≠ .deleted

/-- It is noexcept. -/
abbrev Nothrow (f : Fn) : Prop := f = .trivial ∨ f = .user true

/-- What a construction of an optional should do with a function `c` of `T`, if it has to call it. -/
def Passes (o : Out) (throws : Call → Bool) (needed : Option Call) : Prop :=
  o = match needed with
    | some c => if throws c then .thrown else .done
    | none => .done

/-- The function of `T` that an assignment needs: the constructor if there is a value only on the right,
the assignment if there are two. -/
def neededByAssign (ctor assign : Call) (this rhs : Bool) : Option Call :=
  if rhs then some (if this then assign else ctor) else none

/-- The function of `T` that swap needs: the constructor if there is one value, the swap of `T` if there
are two. -/
def neededBySwap (this rhs : Bool) : Option Call :=
  if this && rhs then some .swap else if this || rhs then some .rvalueCtor else none

end Gul14.Spec.OptMembers

namespace Gul14.Opt.Members
open Gul14.Spec.OptMembers

theorem ok_iff (f : Fn) : f.ok = true ↔ Has f := by cases f <;> simp [Fn.ok, Has]

theorem nothrow_iff (f : Fn) : f.nothrow = true ↔ Nothrow f := by
  simp [Fn.nothrow, Nothrow]

theorem Nothrow.has {f : Fn} (h : Nothrow f) : Has f := by
  rcases h with rfl | rfl <;> decide

theorem initialise_eq {t : Ty} {throws : Call → Bool} (h : Honest t throws) (c : Call) :
    initialise t throws c = call throws c := by
  have := h c
  unfold initialise guarded call
  cases h1 : t.noexcept c <;> cases h2 : throws c <;> simp_all

theorem guarded_call {t : Ty} {throws : Call → Bool} (h : Honest t throws) {spec : Bool} (c : Call)
    (hs : spec = true → t.noexcept c = true) : guarded spec (call throws c) = call throws c := by
  have := h c
  unfold guarded call
  cases spec <;> cases h2 : throws c <;> simp_all

theorem guarded_done (spec : Bool) : guarded spec .done = .done := by cases spec <;> rfl

theorem guarded_false (o : Out) : guarded false o = o := rfl

/-! ### C124 -/

/-- Which operations of an optional compile: the ones for which `T` has the functions that they may need,
whether the optionals are empty or not. -/
theorem c124_compiles (t : Ty) (throws : Call → Bool) (this rhs : Bool) :
    (copyConstruct t throws rhs = .error ↔ ¬ Has t.copyCtor) ∧
    (moveConstruct t throws rhs = .error ↔ ¬ Has t.rvalueCtor) ∧
    (copyAssign t throws this rhs = .error ↔ ¬ (Has t.copyCtor ∧ Has t.copyAssign)) ∧
    (moveAssign t throws this rhs = .error ↔ ¬ (Has t.rvalueCtor ∧ Has t.rvalueAssign)) ∧
    (swap t throws this rhs = .error ↔ ¬ (Has t.rvalueCtor ∧ t.swap ≠ none)) ∧
    (valueCopyConstruct t throws = .error ↔ ¬ Has t.copyCtor) ∧
    (valueMoveConstruct t throws = .error ↔ ¬ Has t.rvalueCtor) ∧
    (valueCopyAssign t throws this = .error ↔ ¬ (Has t.copyCtor ∧ Has t.copyAssign)) ∧
    (valueMoveAssign t throws this = .error ↔ ¬ (Has t.rvalueCtor ∧ Has t.rvalueAssign)) := by
  have hs : t.swap.isSome = true ↔ t.swap ≠ none := by cases t.swap <;> simp
  simp only [← ok_iff, ← hs, copyConstruct, moveConstruct, copyAssign, moveAssign, swap, valueCopyConstruct,
    valueMoveConstruct, valueCopyAssign, valueMoveAssign, body, List.all_cons, List.all_nil, Ty.callable,
    initialise, call, Bool.and_true]
  generalize t.copyCtor.ok = a
  generalize t.rvalueCtor.ok = b
  generalize t.copyAssign.ok = c
  generalize t.rvalueAssign.ok = d
  generalize t.swap.isSome = e
  generalize (copyCtorDecl t).nothrow = n1
  generalize (moveCtorDecl t).nothrow = n2
  generalize (copyAssignDecl t).nothrow = n3
  generalize (moveAssignDecl t).nothrow = n4
  generalize swapNothrow t = n5
  generalize throws .copyCtor = t1
  generalize throws .rvalueCtor = t2
  generalize throws .copyAssign = t3
  generalize throws .rvalueAssign = t4
  generalize throws .swap = t5
  generalize t.noexcept .copyCtor = m1
  generalize t.noexcept .rvalueCtor = m2
  refine ⟨?_, ?_, ?_, ?_, ?_, ?_, ?_, ?_, ?_⟩
  · revert a n1 t1 rhs; decide +kernel
  · revert b n2 t2 rhs; decide +kernel
  · revert a c n3 t1 t3 m1 this rhs; decide +kernel
  · revert b d n4 t2 t4 m2 this rhs; decide +kernel
  · revert b e n5 t2 t5 m2 this rhs; decide +kernel
  · revert a t1; decide +kernel
  · revert b t2; decide +kernel
  · revert a c t1 t3 m1 this; decide +kernel
  · revert b d t2 t4 m2 this; decide +kernel

/-- What the operations that compile do, if the functions of `T` keep their promises: they call at most one
copy or move operation of `T`, and its exception always reaches the caller; in particular the program is
never ended by a noexcept specification of optional. -/
theorem c124_exceptions (t : Ty) (throws : Call → Bool) (h : Honest t throws) (this rhs : Bool) :
    (Has t.copyCtor → Passes (copyConstruct t throws rhs) throws (if rhs then some .copyCtor else none)) ∧
    (Has t.rvalueCtor →
      Passes (moveConstruct t throws rhs) throws (if rhs then some .rvalueCtor else none)) ∧
    (Has t.copyCtor → Has t.copyAssign →
      Passes (copyAssign t throws this rhs) throws (neededByAssign .copyCtor .copyAssign this rhs)) ∧
    (Has t.rvalueCtor → Has t.rvalueAssign →
      Passes (moveAssign t throws this rhs) throws (neededByAssign .rvalueCtor .rvalueAssign this rhs)) ∧
    (Has t.rvalueCtor → t.swap ≠ none → Passes (swap t throws this rhs) throws (neededBySwap this rhs)) ∧
    (Has t.copyCtor → Passes (valueCopyConstruct t throws) throws (some .copyCtor)) ∧
    (Has t.rvalueCtor → Passes (valueMoveConstruct t throws) throws (some .rvalueCtor)) ∧
    (Has t.copyCtor → Has t.copyAssign →
      Passes (valueCopyAssign t throws this) throws (neededByAssign .copyCtor .copyAssign this true)) ∧
    (Has t.rvalueCtor → Has t.rvalueAssign →
      Passes (valueMoveAssign t throws this) throws
        (neededByAssign .rvalueCtor .rvalueAssign this true)) := by
  have hs : t.swap ≠ none → t.swap.isSome = true := by cases t.swap <;> simp
  simp only [← ok_iff, Passes]
  refine ⟨?_, ?_, ?_, ?_, ?_, ?_, ?_, ?_, ?_⟩
  · intro a
    cases rhs <;> simp [copyConstruct, body, Ty.callable, a, copyCtorDecl, guarded_false, call]
  · intro a
    have g := guarded_call h (spec := (moveCtorDecl t).nothrow) .rvalueCtor id
    cases rhs <;> simp [moveConstruct, body, Ty.callable, a, guarded_done, g] <;> simp [call]
  · intro a b
    cases this <;> cases rhs <;>
      simp [copyAssign, body, Ty.callable, a, b, guarded_false, guarded_done, initialise_eq h, call,
        copyAssignDecl, neededByAssign]
  · intro a b
    have g := guarded_call h (spec := (moveAssignDecl t).nothrow) .rvalueCtor
      (by simp +contextual [moveAssignDecl, Ty.noexcept])
    have g' := guarded_call h (spec := (moveAssignDecl t).nothrow) .rvalueAssign
      (by simp +contextual [moveAssignDecl, Ty.noexcept])
    cases this <;> cases rhs <;>
      simp [moveAssign, body, Ty.callable, a, b, guarded_done, initialise_eq h, neededByAssign, g, g'] <;>
      simp [call]
  · intro a b
    have g := guarded_call h (spec := swapNothrow t) .rvalueCtor
      (by simp +contextual [swapNothrow, Ty.noexcept])
    have g' := guarded_call h (spec := swapNothrow t) .swap
      (by simp +contextual [swapNothrow, Ty.noexcept])
    have b := hs b
    cases this <;> cases rhs <;>
      simp [swap, body, Ty.callable, a, b, guarded_done, initialise_eq h, neededBySwap, g, g'] <;>
      simp [call]
  · intro a
    simp [valueCopyConstruct, body, Ty.callable, a, call]
  · intro a
    simp [valueMoveConstruct, body, Ty.callable, a, call]
  · intro a b
    cases this <;> simp [valueCopyAssign, body, Ty.callable, a, b, initialise_eq h, neededByAssign, call]
  · intro a b
    cases this <;> simp [valueMoveAssign, body, Ty.callable, a, b, initialise_eq h, neededByAssign, call]

/-- A promise of noexcept can be relied upon: the operation compiles and never throws. -/
theorem c124_noexcept_kept (t : Ty) (throws : Call → Bool) (h : Honest t throws) (this rhs : Bool) :
    ((moveCtorDecl t).nothrow = true → moveConstruct t throws rhs = .done) ∧
    ((moveAssignDecl t).nothrow = true → moveAssign t throws this rhs = .done) ∧
    (swapNothrow t = true → swap t throws this rhs = .done) := by
  obtain ⟨-, e2, -, e4, e5, -⟩ := c124_exceptions t throws h this rhs
  refine ⟨fun a => ?_, fun a => ?_, fun a => ?_⟩
  · have a' : t.noexcept .rvalueCtor = true := a
    rw [e2 (Nothrow.has ((nothrow_iff _).1 a))]
    cases rhs <;> simp [h _ a']
  · simp only [moveAssignDecl, Bool.and_eq_true] at a
    have a1 : t.noexcept .rvalueCtor = true := a.2
    have a2 : t.noexcept .rvalueAssign = true := a.1
    rw [e4 (Nothrow.has ((nothrow_iff _).1 a.2)) (Nothrow.has ((nothrow_iff _).1 a.1))]
    cases this <;> cases rhs <;> simp [neededByAssign, h _ a1, h _ a2]
  · simp only [swapNothrow, Bool.and_eq_true, beq_iff_eq] at a
    have a1 : t.noexcept .rvalueCtor = true := a.1
    have a2 : t.noexcept .swap = true := by simp [Ty.noexcept, a.2]
    rw [e5 (Nothrow.has ((nothrow_iff _).1 a.1)) (by simp [a.2])]
    cases this <;> cases rhs <;> simp [neededBySwap, h _ a1, h _ a2]

/-- The promises are given exactly when they can be: moves and swap are noexcept if and only if they compile
and the functions of `T` that they may need are noexcept; and otherwise an operation that compiles can
throw.  Copies are never noexcept. -/
theorem c124_noexcept_given (t : Ty) :
    ((moveCtorDecl t).nothrow = true ↔ Nothrow t.rvalueCtor) ∧
    ((moveAssignDecl t).nothrow = true ↔ Nothrow t.rvalueCtor ∧ Nothrow t.rvalueAssign) ∧
    (swapNothrow t = true ↔ Nothrow t.rvalueCtor ∧ t.swap = some true) ∧
    (Has t.rvalueCtor → (moveCtorDecl t).nothrow = false →
      ∃ throws, Honest t throws ∧ moveConstruct t throws true = .thrown) ∧
    (Has t.rvalueCtor → Has t.rvalueAssign → (moveAssignDecl t).nothrow = false →
      ∃ throws this, Honest t throws ∧ moveAssign t throws this true = .thrown) ∧
    (Has t.rvalueCtor → t.swap ≠ none → swapNothrow t = false →
      ∃ throws this, Honest t throws ∧ swap t throws this true = .thrown) ∧
    (copyCtorDecl t).nothrow = false ∧ (copyAssignDecl t).nothrow = false := by
  have hh : Honest t (fun c => !t.noexcept c) := fun c hc => by simp [hc]
  refine ⟨nothrow_iff _, ?_, ?_, ?_, ?_, ?_, rfl, rfl⟩
  · simp [moveAssignDecl, nothrow_iff, and_comm]
  · simp [swapNothrow, nothrow_iff]
  · intro a b
    refine ⟨_, hh, ?_⟩
    rw [(c124_exceptions t _ hh true true).2.1 a]
    have b' : t.noexcept .rvalueCtor = false := b
    simp [b']
  · intro a a' b
    by_cases c : t.noexcept .rvalueCtor = true
    · refine ⟨_, true, hh, ?_⟩
      rw [(c124_exceptions t _ hh true true).2.2.2.1 a a']
      have c' : t.noexcept .rvalueAssign = false := by
        cases d : t.noexcept .rvalueAssign
        · rfl
        · simp only [Ty.noexcept] at c d; simp [moveAssignDecl, c, d] at b
      simp [neededByAssign, c']
    · refine ⟨_, false, hh, ?_⟩
      rw [(c124_exceptions t _ hh false true).2.2.2.1 a a']
      simp [neededByAssign, c]
  · intro a a' b
    by_cases c : t.noexcept .rvalueCtor = true
    · refine ⟨_, true, hh, ?_⟩
      rw [(c124_exceptions t _ hh true true).2.2.2.2.1 a a']
      have c' : t.noexcept .swap = false := by
        cases d : t.noexcept .swap
        · rfl
        · simp only [Ty.noexcept] at c d; simp [swapNothrow, c, d] at b
      simp [neededBySwap, c']
    · refine ⟨_, false, hh, ?_⟩
      rw [(c124_exceptions t _ hh false true).2.2.2.2.1 a a']
      simp [neededBySwap, c]

/-- An optional has a trivial destructor if and only if its type has. -/
theorem c124_destructor (t : Ty) : dtorTrivial t = true ↔ t.dtorTrivial = true := by
  cases h : t.dtorTrivial <;> simp [dtorTrivial, base, h]

/-- The type traits of the copy and move operations of an optional are right (an operation exists if and
only if it compiles) if `T` can be copied and moved in all ways.  What is missing is every other type, and
triviality: see `c124_traits_violated`. -/
theorem c124_traits_partial (t : Ty) (throws : Call → Bool) (this rhs : Bool)
    (h1 : Has t.copyCtor) (h2 : Has t.rvalueCtor) (h3 : Has t.copyAssign) (h4 : Has t.rvalueAssign) :
    ((copyCtorDecl t).exists_ = true ↔ copyConstruct t throws rhs ≠ .error) ∧
    ((moveCtorDecl t).exists_ = true ↔ moveConstruct t throws rhs ≠ .error) ∧
    ((copyAssignDecl t).exists_ = true ↔ copyAssign t throws this rhs ≠ .error) ∧
    ((moveAssignDecl t).exists_ = true ↔ moveAssign t throws this rhs ≠ .error) := by
  obtain ⟨c1, c2, c3, c4, -⟩ := c124_compiles t throws this rhs
  simp [Ne, c1, c2, c3, c4, h1, h2, h3, h4, copyCtorDecl, moveCtorDecl, copyAssignDecl, moveAssignDecl]

/-- The type traits of an optional do not tell the truth for every type: they say that it can be copied and
moved whatever its type is, and for a type that cannot, the use is an error within the library.  They also
say that an optional is never trivially copied or moved, even if its type (like `int`) is. -/
theorem c124_traits_violated :
    (∀ t throws rhs, ¬ Has t.copyCtor →
      (copyCtorDecl t).exists_ = true ∧ copyConstruct t throws rhs = .error) ∧
    (∀ t throws rhs, ¬ Has t.rvalueCtor →
      (moveCtorDecl t).exists_ = true ∧ moveConstruct t throws rhs = .error) ∧
    (∀ t throws this rhs, ¬ (Has t.copyCtor ∧ Has t.copyAssign) →
      (copyAssignDecl t).exists_ = true ∧ copyAssign t throws this rhs = .error) ∧
    (∀ t throws this rhs, ¬ (Has t.rvalueCtor ∧ Has t.rvalueAssign) →
      (moveAssignDecl t).exists_ = true ∧ moveAssign t throws this rhs = .error) ∧
    (∀ t, (copyCtorDecl t).trivial = false ∧ (moveCtorDecl t).trivial = false ∧
      (copyAssignDecl t).trivial = false ∧ (moveAssignDecl t).trivial = false) := by
  refine ⟨?_, ?_, ?_, ?_, fun t => ⟨rfl, rfl, rfl, rfl⟩⟩
  · exact fun t throws rhs h => ⟨rfl, (c124_compiles t throws true rhs).1.2 h⟩
  · exact fun t throws rhs h => ⟨rfl, (c124_compiles t throws true rhs).2.1.2 h⟩
  · exact fun t throws this rhs h => ⟨rfl, (c124_compiles t throws this rhs).2.2.1.2 h⟩
  · exact fun t throws this rhs h => ⟨rfl, (c124_compiles t throws this rhs).2.2.2.1.2 h⟩

/-! ### Cases that meet the hypotheses -/

/-- A type like std::unique_ptr. -/
def pointerLike : Ty := ⟨.deleted, some (.user true), .deleted, some (.user true), some true, false⟩
/-- A type whose copies may throw and that has no moves. -/
def copyOnly : Ty := ⟨.user false, none, .user false, none, some false, false⟩
/-- A type like int. -/
def plain : Ty := ⟨.trivial, some .trivial, .trivial, some .trivial, some true, true⟩

/-- A move of an optional pointer is noexcept and done; its copy is an error although it is declared. -/
example : Honest pointerLike (fun _ => false) ∧ (moveAssignDecl pointerLike).nothrow = true ∧
    moveAssign pointerLike (fun _ => false) true true = .done ∧
    (copyCtorDecl pointerLike).exists_ = true ∧
    copyConstruct pointerLike (fun _ => false) true = .error ∧ ¬ Has pointerLike.copyCtor :=
  ⟨fun _ _ => rfl, by decide +kernel, by decide +kernel, rfl, by decide +kernel, by decide +kernel⟩

/-- An exception of a copy comes out of a move and of a swap, which are not noexcept then. -/
example : Honest copyOnly (fun _ => true) ∧ (moveCtorDecl copyOnly).nothrow = false ∧
    moveConstruct copyOnly (fun _ => true) true = .thrown ∧
    moveConstruct copyOnly (fun _ => true) false = .done ∧
    swap copyOnly (fun _ => true) false true = .thrown ∧ Has copyOnly.rvalueCtor :=
  ⟨fun c => by cases c <;> decide, by decide +kernel, by decide +kernel, by decide +kernel,
    by decide +kernel, by decide +kernel⟩

/-- An optional int. -/
example : dtorTrivial plain = true ∧ dtorTrivial pointerLike = false ∧ swapNothrow plain = true ∧
    (copyCtorDecl plain).trivial = false ∧ Has plain.copyCtor ∧ Has plain.rvalueAssign := by
  decide +kernel

end Gul14.Opt.Members
