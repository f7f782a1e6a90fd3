/-!
# The special member functions of expected<T, E>

Which copy and move operations `expected` has is decided by a chain of base classes with partial
specialisations (include/gul14/expected.h:368-614, 616-1127 and 1158-1421).  This file models that chain
together with the rules of C++14 [class.copy] for implicitly declared and defaulted special member
functions:

* a copy operation that is implicit or `= default` is deleted if the one of a base is, or if a member of a
  union has a non-trivial one; otherwise it does what the ones of the bases do;
* a move operation is implicitly declared only if no destructor, copy or move operation is declared;
* a move operation that is implicit or `= default` and would be deleted is ignored by overload resolution,
  so that the copy operation is taken for rvalues;
* a move operation declared with `= delete` is not ignored.

`unexpected<E>` (148-177) has exactly the implicit operations of its member of type `E` and is represented
by `E`.  Constructors and assignments have the same structure; `Kind` says which of the two is meant.
-/
namespace Gul14.Exp.Members

/-- A special member function of `T` or `E`. -/
inductive Fn where
  | deleted
  | trivial
  /-- not trivial -/
  | user
  deriving DecidableEq, Repr

/-- A type, as far as it matters here. `none`: there is no move operation, rvalues are copied. Type
traits of the language and the library; no code in /repo. -/
structure Ty where
  copyCtor : Fn
  moveCtor : Option Fn
  copyAssign : Fn
  moveAssign : Option Fn
  dtorTrivial : Bool
  deriving DecidableEq, Repr

/-- std::is_copy_constructible -/
def Ty.cc (t : Ty) : Bool := t.copyCtor != .deleted

/-- std::is_trivially_copy_constructible: this trait also asks for a trivial destructor. -/
def Ty.tcc (t : Ty) : Bool := t.copyCtor == .trivial && t.dtorTrivial

/-- The constructor for rvalues. -/
def Ty.rvalueCtor (t : Ty) : Fn := t.moveCtor.getD t.copyCtor

/-- std::is_move_constructible -/
def Ty.mc (t : Ty) : Bool := t.rvalueCtor != .deleted

/-- std::is_trivially_move_constructible -/
def Ty.tmc (t : Ty) : Bool := t.rvalueCtor == .trivial && t.dtorTrivial

/-- std::is_copy_assignable -/
def Ty.ca (t : Ty) : Bool := t.copyAssign != .deleted

/-- std::is_trivially_copy_assignable -/
def Ty.tca (t : Ty) : Bool := t.copyAssign == .trivial

/-- The assignment for rvalues. -/
def Ty.rvalueAssign (t : Ty) : Fn := t.moveAssign.getD t.copyAssign

/-- std::is_move_assignable -/
def Ty.ma (t : Ty) : Bool := t.rvalueAssign != .deleted

/-- std::is_trivially_move_assignable -/
def Ty.tma (t : Ty) : Bool := t.rvalueAssign == .trivial

/-- is_void_or, expected.h:342-343: `T` may be void, which is `none`. -/
def voidOr (t : Option Ty) (p : Ty → Bool) : Bool := match t with
  | none => true
  | some t => p t

/-- What a special member function of one of the base classes does. -/
inductive Eff where
  | deleted
  /-- trivial: the bytes are copied -/
  | bits
  /-- it calls the copy operation of `T` or `E` -/
  | byCopy
  /-- it calls the operation of `T` or `E` for rvalues -/
  | byMove
  deriving DecidableEq, Repr

/-- The copy and the move operation of a class; `none`: no move operation takes part in overload
resolution. Special members of a class after the rules of the language; no code in /repo. -/
structure Cls where
  copy : Eff
  move : Option Eff
  deriving DecidableEq, Repr

/-- The operation that is taken for an rvalue. -/
def Cls.rvalue (c : Cls) : Eff := c.move.getD c.copy

/-- A move operation that is implicit or `= default` in a class with base `b`. Language rules for a
defaulted member; no code in /repo. -/
def defaultMove (b : Cls) : Option Eff := if b.rvalue = .deleted then none else some b.rvalue

/-- A class with base `b` in which both operations are implicit or `= default`. Language rules for a
defaulted member; no code in /repo. -/
def defaulted (b : Cls) : Cls := ⟨b.copy, defaultMove b⟩

/-! ### Construction -/

/-- expected_storage_base, all five specialisations, expected.h:368-614: a union, and a destructor that is
declared, so that there is no move constructor. -/
def storageCtor (t : Option Ty) (e : Ty) : Cls :=
  ⟨if voidOr t (fun t => t.copyCtor == .trivial) && e.copyCtor == .trivial then .bits else .deleted, none⟩

/-- expected_operations_base, expected.h:618-620 and 800-802. -/
def operationsCtor (t : Option Ty) (e : Ty) : Cls := defaulted (storageCtor t e)

/-- expected_copy_base, expected.h:850-878. -/
def copyBaseCtor (t : Option Ty) (e : Ty) : Cls :=
  if voidOr t Ty.tcc && e.tcc then defaulted (operationsCtor t e)
  else ⟨.byCopy, defaultMove (operationsCtor t e)⟩

/-- expected_move_base, expected.h:880-906. -/
def moveBaseCtor (t : Option Ty) (e : Ty) : Cls :=
  if voidOr t Ty.tmc && e.tmc then defaulted (copyBaseCtor t e)
  else ⟨(copyBaseCtor t e).copy, some .byMove⟩

/-- expected_copy_assign_base and expected_move_assign_base, expected.h:908-970: their constructors are
implicit or defaulted. -/
def implCtor (t : Option Ty) (e : Ty) : Cls := defaulted (defaulted (moveBaseCtor t e))

/-- expected_delete_ctor_base, expected.h:972-1020. -/
def deleteCtor (enableCopy enableMove : Bool) : Cls :=
  ⟨if enableCopy then .bits else .deleted, some (if enableMove then .bits else .deleted)⟩

/-- The defaulted operations of a class with the bases `b` and `d`, where `d` is empty. Language rules
for a class with bases and members; no code in /repo. -/
def joined (b d : Cls) : Cls :=
  ⟨if b.copy = .deleted ∨ d.copy = .deleted then .deleted else b.copy,
   if b.rvalue = .deleted ∨ d.rvalue = .deleted then none else some b.rvalue⟩

/-- The constructors of expected, expected.h:1158-1162 and 1418-1419.  The constructors of its bases
expected_delete_assign_base and expected_default_ctor_base are trivial. -/
def expectedCtor (t : Option Ty) (e : Ty) : Cls :=
  joined (implCtor t e) (deleteCtor (voidOr t Ty.cc && e.cc) (voidOr t Ty.mc && e.mc))

/-! ### Assignment -/

/-- expected_storage_base. expected.h:368-614. -/
def storageAssign (t : Option Ty) (e : Ty) : Cls :=
  ⟨if voidOr t (fun t => t.copyAssign == .trivial) && e.copyAssign == .trivial then .bits else .deleted,
   none⟩

/-- expected_operations_base, expected_copy_base, expected_move_base, expected.h:618-620, 800-802, 850-906:
the assignments are implicit or defaulted. -/
def moveBaseAssign (t : Option Ty) (e : Ty) : Cls := defaulted (defaulted (defaulted (storageAssign t e)))

/-- expected_copy_assign_base, expected.h:908-935. -/
def copyAssignBase (t : Option Ty) (e : Ty) : Cls :=
  if voidOr t (fun t => t.tca && t.tcc && t.dtorTrivial) && e.tca && e.tcc && e.dtorTrivial then
    defaulted (moveBaseAssign t e)
  else ⟨.byCopy, defaultMove (moveBaseAssign t e)⟩

/-- expected_move_assign_base, expected.h:937-970. -/
def moveAssignBase (t : Option Ty) (e : Ty) : Cls :=
  if voidOr t (fun t => t.dtorTrivial && t.tmc && t.tma) && e.dtorTrivial && e.tmc && e.tma then
    defaulted (copyAssignBase t e)
  else ⟨(copyAssignBase t e).copy, some .byMove⟩

/-- expected_delete_assign_base, expected.h:1022-1079. -/
def deleteAssign (enableCopy enableMove : Bool) : Cls :=
  ⟨if enableCopy then .bits else .deleted, some (if enableMove then .bits else .deleted)⟩

/-- The assignments of expected, expected.h:1158-1162 and 1420-1421. -/
def expectedAssign (t : Option Ty) (e : Ty) : Cls :=
  joined (moveAssignBase t e)
    (deleteAssign (voidOr t (fun t => t.cc && t.ca) && e.cc && e.ca)
      (voidOr t (fun t => t.mc && t.ma) && e.mc && e.ma))

/-! ### What a program sees -/

/-- What becomes of a copy or move of an expected in a program. -/
inductive Outcome where
  /-- the operation is deleted, and type traits say so -/
  | unavailable
  /-- type traits say that the operation exists, but its use is an error within the library -/
  | error
  /-- the bytes are copied -/
  | bits
  /-- the value (or error) is copied -/
  | copied
  /-- the value (or error) is moved -/
  | moved
  deriving DecidableEq, Repr

/-- The body of a function that calls operations of `T` and `E` compiles only if these exist. -/
def outcome (f : Eff) (copyable movable : Bool) : Outcome := match f with
  | .deleted => .unavailable
  | .bits => .bits
  | .byCopy => if copyable then .copied else .error
  | .byMove => if movable then .moved else .error

/-- `expected<T, E> b(a)`.  construct_with and construct_error, expected.h:627-636 and 808-816. -/
def copyConstruct (t : Option Ty) (e : Ty) : Outcome :=
  outcome (expectedCtor t e).copy (voidOr t Ty.cc && e.cc) (voidOr t Ty.mc && e.mc)

/-- `expected<T, E> b(std::move(a))`. expected.h:627-636. -/
def moveConstruct (t : Option Ty) (e : Ty) : Outcome :=
  outcome (expectedCtor t e).rvalue (voidOr t Ty.cc && e.cc) (voidOr t Ty.mc && e.mc)

/-- `b = a`.  assign and assign_common, expected.h:640-775 and 818-831. -/
def copyAssign (t : Option Ty) (e : Ty) : Outcome :=
  outcome (expectedAssign t e).copy (voidOr t (fun t => t.cc && t.ca) && e.cc && e.ca)
    (voidOr t (fun t => t.mc && t.ma) && e.mc && e.ma)

/-- `b = std::move(a)`. expected.h:709-775, 818-831. -/
def moveAssign (t : Option Ty) (e : Ty) : Outcome :=
  outcome (expectedAssign t e).rvalue (voidOr t (fun t => t.cc && t.ca) && e.cc && e.ca)
    (voidOr t (fun t => t.mc && t.ma) && e.mc && e.ma)

end Gul14.Exp.Members

namespace Gul14.Spec.Members
open Gul14.Exp.Members

/-- Both types have the property; if `T` is void, only `E` has to have it. -/
def All (t : Option Ty) (e : Ty) (p : Ty → Prop) : Prop := (∀ x, t = some x → p x) ∧ p e

/-- The type can be copy constructed, by copying bytes. -/
def BitCopy (x : Ty) : Prop := x.copyCtor = .trivial ∧ x.dtorTrivial = true

/-- The type can be constructed from an rvalue, by copying bytes. -/
def BitMove (x : Ty) : Prop := x.rvalueCtor = .trivial ∧ x.dtorTrivial = true

/-- The type can be copied, by construction and by assignment. -/
def Copyable (x : Ty) : Prop := x.copyCtor ≠ .deleted ∧ x.copyAssign ≠ .deleted

/-- The type can be moved, by construction and by assignment. -/
def Movable (x : Ty) : Prop := x.rvalueCtor ≠ .deleted ∧ x.rvalueAssign ≠ .deleted

end Gul14.Spec.Members

namespace Gul14.Exp.Members
open Gul14.Spec.Members

theorem voidOr_all (t : Option Ty) (e : Ty) (p : Ty → Bool) :
    (voidOr t p && p e) = true ↔ All t e (fun x => p x = true) := by
  cases t <;> simp [voidOr, All]

theorem All.congr' {t : Option Ty} {e : Ty} {p q : Ty → Prop} (h : ∀ x, p x ↔ q x) :
    All t e p ↔ All t e q := by
  simp only [All, h]

theorem All.and {t : Option Ty} {e : Ty} {p q : Ty → Prop} :
    All t e (fun x => p x ∧ q x) ↔ All t e p ∧ All t e q := by
  constructor
  · exact fun h => ⟨⟨fun x hx => (h.1 x hx).1, h.2.1⟩, ⟨fun x hx => (h.1 x hx).2, h.2.2⟩⟩
  · exact fun h => ⟨fun x hx => ⟨h.1.1 x hx, h.2.1 x hx⟩, ⟨h.1.2, h.2.2⟩⟩

theorem All.mono {t : Option Ty} {e : Ty} {p q : Ty → Prop} (h : ∀ x, p x → q x) (a : All t e p) :
    All t e q := ⟨fun x hx => h x (a.1 x hx), h e a.2⟩

/-- `voidOr t p && p e`, as a Boolean. -/
def both (t : Option Ty) (e : Ty) (p : Ty → Bool) : Bool := voidOr t p && p e

theorem both_iff (t : Option Ty) (e : Ty) (p : Ty → Bool) :
    both t e p = true ↔ All t e (fun x => p x = true) := voidOr_all t e p

theorem both_and (t : Option Ty) (e : Ty) (p q : Ty → Bool) :
    both t e (fun x => p x && q x) = (both t e p && both t e q) := by
  cases t <;> simp [both, voidOr]; ac_rfl

theorem both_mono (t : Option Ty) (e : Ty) {p q : Ty → Bool} (h : ∀ x, p x = true → q x = true) :
    both t e p = true → both t e q = true := by
  rw [both_iff, both_iff]
  exact All.mono h

/-- What the constructors do. -/
theorem construct_eq (t : Option Ty) (e : Ty) :
    copyConstruct t e = (if both t e Ty.cc = false then .unavailable
      else if both t e Ty.tcc then .bits else .copied) ∧
    moveConstruct t e = (if both t e Ty.mc = false then copyConstruct t e
      else if both t e Ty.tmc = false then .moved
      else if both t e Ty.tcc then .bits
      else if both t e Ty.cc then .copied else .error) := by
  have h1 : both t e Ty.tcc = true → both t e (fun t => t.copyCtor == .trivial) = true :=
    both_mono t e (by simp +contextual [Ty.tcc])
  have h2 : both t e Ty.tcc = true → both t e Ty.cc = true :=
    both_mono t e (by simp +contextual [Ty.tcc, Ty.cc])
  have h3 : both t e Ty.tmc = true → both t e Ty.mc = true :=
    both_mono t e (by simp +contextual [Ty.tmc, Ty.mc])
  have h4 : both t e Ty.tmc = true → both t e (fun t => t.copyCtor == .trivial) = true →
      both t e Ty.tcc = true := by
    intro a b
    rw [both_iff] at *
    exact All.mono (by simp +contextual [Ty.tmc, Ty.tcc]) (All.and.2 ⟨a, b⟩)
  unfold copyConstruct moveConstruct expectedCtor joined implCtor moveBaseCtor copyBaseCtor
    operationsCtor storageCtor deleteCtor
  unfold both at *
  generalize (voidOr t Ty.cc && e.cc) = CC at *
  generalize (voidOr t Ty.mc && e.mc) = MC at *
  generalize (voidOr t Ty.tcc && e.tcc) = TCC at *
  generalize (voidOr t Ty.tmc && e.tmc) = TMC at *
  generalize (voidOr t (fun t => t.copyCtor == .trivial) && e.copyCtor == .trivial) = B at *
  revert CC MC TCC TMC B
  decide +kernel

/-- What the assignments do. -/
theorem assign_eq (t : Option Ty) (e : Ty) :
    copyAssign t e = (if both t e (fun t => t.cc && t.ca) = false then .unavailable
      else if both t e (fun t => t.tca && t.tcc && t.dtorTrivial) then .bits else .copied) ∧
    moveAssign t e = (if both t e (fun t => t.mc && t.ma) = false then copyAssign t e
      else if both t e (fun t => t.dtorTrivial && t.tmc && t.tma) = false then .moved
      else if both t e (fun t => t.copyAssign == .trivial) then .bits
      else if both t e (fun t => t.cc && t.ca) then .copied else .error) := by
  have h1 : both t e (fun t => t.tca && t.tcc && t.dtorTrivial) = true →
      both t e (fun t => t.copyAssign == .trivial) = true :=
    both_mono t e (by simp +contextual [Ty.tca])
  have h2 : both t e (fun t => t.tca && t.tcc && t.dtorTrivial) = true →
      both t e (fun t => t.cc && t.ca) = true :=
    both_mono t e (by simp +contextual [Ty.tca, Ty.tcc, Ty.cc, Ty.ca])
  have h3 : both t e (fun t => t.dtorTrivial && t.tmc && t.tma) = true →
      both t e (fun t => t.mc && t.ma) = true :=
    both_mono t e (by simp +contextual [Ty.tmc, Ty.tma, Ty.mc, Ty.ma])
  unfold copyAssign moveAssign expectedAssign joined moveAssignBase copyAssignBase moveBaseAssign
    storageAssign deleteAssign
  unfold both at *
  simp only [← Bool.and_assoc] at h1 h2 h3 ⊢
  generalize (voidOr t (fun t => t.cc && t.ca) && e.cc && e.ca) = CC at *
  generalize (voidOr t (fun t => t.mc && t.ma) && e.mc && e.ma) = MC at *
  generalize (voidOr t (fun t => t.tca && t.tcc && t.dtorTrivial) && e.tca && e.tcc && e.dtorTrivial)
    = TCC at *
  generalize (voidOr t (fun t => t.dtorTrivial && t.tmc && t.tma) && e.dtorTrivial && e.tmc && e.tma)
    = TMC at *
  generalize (voidOr t (fun t => t.copyAssign == .trivial) && e.copyAssign == .trivial) = B at *
  revert CC MC TCC TMC B
  decide +kernel

theorem both_false (t : Option Ty) (e : Ty) (p : Ty → Bool) :
    both t e p = false ↔ ¬ All t e (fun x => p x = true) := by
  rw [← both_iff]; simp

/-! ### C99 -/

/-- An expected can be copied if and only if both types can (`void` counts as copyable).  The copy is one of
the bytes if and only if it is for both types, and otherwise the value or error is copied. -/
theorem c99_copy_construct (t : Option Ty) (e : Ty) :
    (copyConstruct t e = .unavailable ↔ ¬ All t e (fun x => x.copyCtor ≠ .deleted)) ∧
    (copyConstruct t e = .bits ↔ All t e BitCopy) ∧
    (copyConstruct t e = .copied ↔ All t e (fun x => x.copyCtor ≠ .deleted) ∧ ¬ All t e BitCopy) := by
  have a : All t e (fun x => x.copyCtor ≠ .deleted) ↔ both t e Ty.cc = true := by
    rw [both_iff]; exact All.congr' (by simp [Ty.cc])
  have b : All t e BitCopy ↔ both t e Ty.tcc = true := by
    rw [both_iff]; exact All.congr' (by simp [BitCopy, Ty.tcc])
  have c : both t e Ty.tcc = true → both t e Ty.cc = true :=
    both_mono t e (by simp +contextual [Ty.tcc, Ty.cc])
  rw [(construct_eq t e).1, a, b]
  revert c
  generalize both t e Ty.cc = x
  generalize both t e Ty.tcc = y
  revert x y
  decide +kernel

/-- The move of an expected whose types can both be moved, completely: it moves the value or error, except
if rvalues of both types are constructed by copying bytes.  Then it copies the bytes if lvalues are as well,
and otherwise it calls the copy constructor of the type, or does not compile if there is none. -/
theorem c99_move_construct_cases (t : Option Ty) (e : Ty) (h : All t e (fun x => x.rvalueCtor ≠ .deleted)) :
    moveConstruct t e ≠ .unavailable ∧
    (¬ All t e BitMove → moveConstruct t e = .moved) ∧
    (All t e BitMove → All t e BitCopy → moveConstruct t e = .bits) ∧
    (All t e BitMove → ¬ All t e BitCopy → All t e (fun x => x.copyCtor ≠ .deleted) →
      moveConstruct t e = .copied) ∧
    (All t e BitMove → ¬ All t e (fun x => x.copyCtor ≠ .deleted) → moveConstruct t e = .error) := by
  have a : All t e (fun x => x.copyCtor ≠ .deleted) ↔ both t e Ty.cc = true := by
    rw [both_iff]; exact All.congr' (by simp [Ty.cc])
  have b : All t e BitCopy ↔ both t e Ty.tcc = true := by
    rw [both_iff]; exact All.congr' (by simp [BitCopy, Ty.tcc])
  have c : All t e BitMove ↔ both t e Ty.tmc = true := by
    rw [both_iff]; exact All.congr' (by simp [BitMove, Ty.tmc])
  have d : both t e Ty.mc = true := by
    rw [both_iff]; exact (All.congr' (by simp [Ty.mc])).1 h
  have f : both t e Ty.tcc = true → both t e Ty.cc = true :=
    both_mono t e (by simp +contextual [Ty.tcc, Ty.cc])
  rw [(construct_eq t e).2, a, b, c, d]
  revert f
  generalize both t e Ty.cc = x
  generalize both t e Ty.tcc = y
  generalize both t e Ty.tmc = z
  cases x <;> cases y <;> cases z <;> simp

/-- Moving an expected moves the value or error (or copies the bytes where that is what a move does), if
both types can be moved and it is not so that rvalues of both, but not lvalues of both, are constructed by
copying bytes.  What is missing is that case: see `c99_move_construct_violated`. -/
theorem c99_move_construct_partial (t : Option Ty) (e : Ty)
    (h : All t e (fun x => x.rvalueCtor ≠ .deleted)) (hx : All t e BitMove → All t e BitCopy) :
    moveConstruct t e = .moved ∨ (moveConstruct t e = .bits ∧ All t e BitMove) := by
  obtain ⟨-, h2, h3, -, -⟩ := c99_move_construct_cases t e h
  by_cases m : All t e BitMove
  · exact Or.inr ⟨h3 m (hx m), m⟩
  · exact Or.inl (h2 m)

/-- If one of the types cannot be moved, an rvalue is handled like an lvalue. -/
theorem c99_move_construct_fallback (t : Option Ty) (e : Ty)
    (h : ¬ All t e (fun x => x.rvalueCtor ≠ .deleted)) : moveConstruct t e = copyConstruct t e := by
  have d : both t e Ty.mc = false := by
    rw [both_false]
    exact fun q => h ((All.congr' (by simp [Ty.mc])).1 q)
  rw [(construct_eq t e).2, d]
  rfl

/-- The general claim is wrong.  There is a type that can be moved but not copied such that
`std::is_move_constructible<expected<T, E>>` holds but moving an expected does not compile; and there is one
that can be moved and copied such that moving an expected copies.  This is so whatever `E` is, as long as it
is a plain type like `int`. -/
theorem c99_move_construct_violated (e : Ty) (he : BitMove e) :
    (∃ t : Ty, t.rvalueCtor ≠ .deleted ∧ moveConstruct (some t) e = .error) ∧
    (e.copyCtor ≠ .deleted →
      ∃ t : Ty, t.rvalueCtor ≠ .deleted ∧ t.copyCtor ≠ t.rvalueCtor ∧
        moveConstruct (some t) e = .copied) := by
  have hm : e.rvalueCtor ≠ .deleted := by rw [he.1]; decide
  constructor
  · refine ⟨⟨.deleted, some .trivial, .deleted, some .trivial, true⟩, by decide, ?_⟩
    refine (c99_move_construct_cases _ e ?_).2.2.2.2 ?_ ?_
    · exact ⟨by rintro x ⟨⟩; decide, hm⟩
    · exact ⟨by rintro x ⟨⟩; exact ⟨rfl, rfl⟩, he⟩
    · exact fun h => h.1 _ rfl rfl
  · intro hc
    refine ⟨⟨.user, some .trivial, .user, some .trivial, true⟩, by decide, by decide, ?_⟩
    refine (c99_move_construct_cases _ e ?_).2.2.2.1 ?_ ?_ ?_
    · exact ⟨by rintro x ⟨⟩; decide, hm⟩
    · exact ⟨by rintro x ⟨⟩; exact ⟨rfl, rfl⟩, he⟩
    · exact fun h => absurd (h.1 _ rfl).1 (by decide)
    · exact ⟨by rintro x ⟨⟩; decide, hc⟩

/-- An expected can be copy assigned if and only if both types can be copy constructed and copy assigned.
It copies bytes if and only if copying does so for both types in both ways. -/
theorem c99_copy_assign (t : Option Ty) (e : Ty) :
    (copyAssign t e = .unavailable ↔ ¬ All t e Copyable) ∧
    (copyAssign t e = .bits ↔ All t e (fun x => BitCopy x ∧ x.copyAssign = .trivial)) ∧
    (copyAssign t e = .copied ↔ All t e Copyable ∧
      ¬ All t e (fun x => BitCopy x ∧ x.copyAssign = .trivial)) := by
  have a : All t e Copyable ↔ both t e (fun t => t.cc && t.ca) = true := by
    rw [both_iff]; exact All.congr' (by simp [Copyable, Ty.cc, Ty.ca])
  have b : All t e (fun x => BitCopy x ∧ x.copyAssign = .trivial) ↔
      both t e (fun t => t.tca && t.tcc && t.dtorTrivial) = true := by
    rw [both_iff]
    refine All.congr' fun x => ?_
    simp only [BitCopy, Ty.tca, Ty.tcc, Bool.and_eq_true, beq_iff_eq]
    exact ⟨fun h => ⟨⟨h.2, h.1.1, h.1.2⟩, h.1.2⟩, fun h => ⟨h.1.2, h.1.1⟩⟩
  have c : both t e (fun t => t.tca && t.tcc && t.dtorTrivial) = true →
      both t e (fun t => t.cc && t.ca) = true :=
    both_mono t e (by simp +contextual [Ty.tca, Ty.tcc, Ty.cc, Ty.ca])
  rw [(assign_eq t e).1, a, b]
  revert c
  generalize both t e (fun t => t.cc && t.ca) = x
  generalize both t e (fun t => t.tca && t.tcc && t.dtorTrivial) = y
  revert x y
  decide +kernel

/-- The move assignment of an expected whose types can both be moved, completely. -/
theorem c99_move_assign_cases (t : Option Ty) (e : Ty) (h : All t e Movable) :
    moveAssign t e ≠ .unavailable ∧
    (¬ All t e (fun x => BitMove x ∧ x.rvalueAssign = .trivial) → moveAssign t e = .moved) ∧
    (All t e (fun x => BitMove x ∧ x.rvalueAssign = .trivial) →
      All t e (fun x => x.copyAssign = .trivial) → moveAssign t e = .bits) ∧
    (All t e (fun x => BitMove x ∧ x.rvalueAssign = .trivial) →
      ¬ All t e (fun x => x.copyAssign = .trivial) → All t e Copyable → moveAssign t e = .copied) ∧
    (All t e (fun x => BitMove x ∧ x.rvalueAssign = .trivial) →
      ¬ All t e (fun x => x.copyAssign = .trivial) → ¬ All t e Copyable → moveAssign t e = .error) := by
  have a : All t e Copyable ↔ both t e (fun t => t.cc && t.ca) = true := by
    rw [both_iff]; exact All.congr' (by simp [Copyable, Ty.cc, Ty.ca])
  have b : All t e (fun x => BitMove x ∧ x.rvalueAssign = .trivial) ↔
      both t e (fun t => t.dtorTrivial && t.tmc && t.tma) = true := by
    rw [both_iff]
    refine All.congr' fun x => ?_
    simp only [BitMove, Ty.tma, Ty.tmc, Bool.and_eq_true, beq_iff_eq]
    exact ⟨fun h => ⟨⟨h.1.2, h.1⟩, h.2⟩, fun h => ⟨h.1.2, h.2⟩⟩
  have c : All t e (fun x => x.copyAssign = .trivial) ↔
      both t e (fun t => t.copyAssign == .trivial) = true := by
    rw [both_iff]; exact All.congr' (by simp)
  have d : both t e (fun t => t.mc && t.ma) = true := by
    rw [both_iff]; exact (All.congr' (by simp [Movable, Ty.mc, Ty.ma])).1 h
  rw [(assign_eq t e).2, a, b, c, d]
  generalize both t e (fun t => t.cc && t.ca) = x
  generalize both t e (fun t => t.copyAssign == .trivial) = y
  generalize both t e (fun t => t.dtorTrivial && t.tmc && t.tma) = z
  simp only [Bool.true_eq_false, if_false]
  revert x y z
  decide +kernel

/-- Move assignment moves the value or error (or copies the bytes where that is what a move does), if both
types can be moved and it is not so that moves of both copy bytes while one of the copy assignments does
not.  What is missing is that case: see `c99_move_assign_violated`. -/
theorem c99_move_assign_partial (t : Option Ty) (e : Ty) (h : All t e Movable)
    (hx : All t e (fun x => BitMove x ∧ x.rvalueAssign = .trivial) →
      All t e (fun x => x.copyAssign = .trivial)) :
    moveAssign t e = .moved ∨
      (moveAssign t e = .bits ∧ All t e (fun x => BitMove x ∧ x.rvalueAssign = .trivial)) := by
  obtain ⟨-, h2, h3, -, -⟩ := c99_move_assign_cases t e h
  by_cases m : All t e (fun x => BitMove x ∧ x.rvalueAssign = .trivial)
  · exact Or.inr ⟨h3 m (hx m), m⟩
  · exact Or.inl (h2 m)

/-- If one of the types cannot be moved, an rvalue is assigned like an lvalue. -/
theorem c99_move_assign_fallback (t : Option Ty) (e : Ty) (h : ¬ All t e Movable) :
    moveAssign t e = copyAssign t e := by
  have d : both t e (fun t => t.mc && t.ma) = false := by
    rw [both_false]
    exact fun q => h ((All.congr' (by simp [Movable, Ty.mc, Ty.ma])).1 q)
  rw [(assign_eq t e).2, d]
  rfl

/-- The general claim is wrong for assignments as well. -/
theorem c99_move_assign_violated (e : Ty) (he : BitMove e) (ha : e.rvalueAssign = .trivial) :
    (∃ t : Ty, Movable t ∧ moveAssign (some t) e = .error) ∧
    (Copyable e → ∃ t : Ty, Movable t ∧ t.copyAssign ≠ t.rvalueAssign ∧
      moveAssign (some t) e = .copied) := by
  have hm : Movable e := ⟨by rw [he.1]; decide, by rw [ha]; decide⟩
  constructor
  · refine ⟨⟨.deleted, some .trivial, .deleted, some .trivial, true⟩, ⟨by decide, by decide⟩, ?_⟩
    refine (c99_move_assign_cases _ e ?_).2.2.2.2 ?_ ?_ ?_
    · exact ⟨by rintro x ⟨⟩; exact ⟨by decide, by decide⟩, hm⟩
    · exact ⟨by rintro x ⟨⟩; exact ⟨⟨rfl, rfl⟩, rfl⟩, he, ha⟩
    · exact fun h => absurd (h.1 _ rfl) (by decide)
    · exact fun h => (h.1 _ rfl).1 rfl
  · intro hc
    refine ⟨⟨.user, some .trivial, .user, some .trivial, true⟩, ⟨by decide, by decide⟩, by decide, ?_⟩
    refine (c99_move_assign_cases _ e ?_).2.2.2.1 ?_ ?_ ?_
    · exact ⟨by rintro x ⟨⟩; exact ⟨by decide, by decide⟩, hm⟩
    · exact ⟨by rintro x ⟨⟩; exact ⟨⟨rfl, rfl⟩, rfl⟩, he, ha⟩
    · exact fun h => absurd (h.1 _ rfl) (by decide)
    · exact ⟨by rintro x ⟨⟩; exact ⟨by decide, by decide⟩, hc⟩

/-! ### Concrete cases -/

/-- `int` -/
def int : Ty := ⟨.trivial, some .trivial, .trivial, some .trivial, true⟩
/-- `std::string` -/
def string : Ty := ⟨.user, some .user, .user, some .user, false⟩
/-- `std::unique_ptr<int>` -/
def uniquePtr : Ty := ⟨.deleted, some .user, .deleted, some .user, false⟩
/-- `struct Token { Token(Token&&) = default; Token& operator=(Token&&) = default; int n; };` -/
def token : Ty := ⟨.deleted, some .trivial, .deleted, some .trivial, true⟩
/-- `std::mutex` -/
def mutex : Ty := ⟨.deleted, none, .deleted, none, false⟩

example : copyConstruct (some int) int = .bits ∧ moveConstruct (some int) int = .bits ∧
    copyAssign (some int) int = .bits ∧ moveAssign (some int) int = .bits := by decide
example : copyConstruct (some string) int = .copied ∧ moveConstruct (some string) int = .moved ∧
    copyAssign (some string) int = .copied ∧ moveAssign (some string) int = .moved := by decide
example : copyConstruct (some uniquePtr) string = .unavailable ∧
    moveConstruct (some uniquePtr) string = .moved ∧ copyAssign (some uniquePtr) string = .unavailable ∧
    moveAssign (some uniquePtr) string = .moved := by decide
example : copyConstruct none string = .copied ∧ moveConstruct none string = .moved ∧
    copyConstruct none int = .bits := by decide
example : moveConstruct (some mutex) int = .unavailable ∧ moveAssign (some mutex) int = .unavailable := by
  decide
example : moveConstruct (some token) int = .error ∧ moveConstruct (some token) string = .moved := by decide
-- The hypotheses of the partial theorems are met by a type with a move that does something.
example : All (some uniquePtr) string (fun x => x.rvalueCtor ≠ .deleted) ∧ All (some uniquePtr) string Movable ∧
    ¬ All (some uniquePtr) string BitMove := by
  refine ⟨⟨by rintro x ⟨⟩; decide, by decide⟩, ⟨by rintro x ⟨⟩; exact ⟨by decide, by decide⟩,
    ⟨by decide, by decide⟩⟩, fun h => absurd h.2.2 (by decide)⟩
example : BitMove int ∧ int.rvalueAssign = .trivial ∧ Copyable int :=
  ⟨⟨rfl, rfl⟩, rfl, by decide, by decide⟩

end Gul14.Exp.Members
