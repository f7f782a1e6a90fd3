import Mathlib.Logic.Basic
import Mathlib.Tactic.ByContra
import Mathlib.Tactic.Tauto
import Verif.Variant.Model
import Verif.Expected.Members

/-!
# The special member functions of variant<Ts...>

Which copy and move operations a variant has is decided by a chain of base classes, each with a
specialisation for every value of a Trait (include/gul14/variant.h:362-416, 935-1366, 1519-1520 and
1595-1598).  This file models that chain together with the rules of C++14 for implicitly declared and
defaulted special member functions that are listed in Verif/Expected/Members.lean: `Fn`, `Ty`, `Eff`, `Cls`
and `Outcome` are taken from there.

Simplification: all alternatives can be destroyed (the C++ language demands it of an object that is used),
and a trivial operation of an alternative is noexcept.
-/
namespace Gul14.Var.Members
open Gul14.Exp.Members (Fn Ty Eff Cls Outcome defaultMove defaulted outcome)

/-- An alternative: its special member functions, and whether construction and assignment from an rvalue
are declared noexcept. -/
structure AltTy extends Ty where
  ctorNothrow : Bool
  assignNothrow : Bool
  deriving DecidableEq, Repr

/-- std::is_nothrow_move_constructible -/
def AltTy.nmc (t : AltTy) : Bool := t.rvalueCtor == .trivial || (t.mc && t.ctorNothrow)

/-- std::is_nothrow_move_assignable -/
def AltTy.nma (t : AltTy) : Bool := t.rvalueAssign == .trivial || (t.ma && t.assignNothrow)

/-- trait<T, IsTriviallyAvailable, IsAvailable>(), variant.h:366-374. -/
def trait (trivially available : Bool) : Trait :=
  if trivially then .trivially else if available then .available else .unavailable

/-- copy_constructible_trait, variant.h:391-394. -/
def copyC (ts : List AltTy) : Trait := commonTrait (ts.map fun t => trait t.tcc t.cc)
/-- move_constructible_trait, variant.h:396-399. -/
def moveC (ts : List AltTy) : Trait := commonTrait (ts.map fun t => trait t.tmc t.mc)
/-- copy_assignable_trait, variant.h:401-405. -/
def copyA (ts : List AltTy) : Trait := commonTrait (copyC ts :: ts.map fun t => trait t.tca t.ca)
/-- move_assignable_trait, variant.h:407-411. -/
def moveA (ts : List AltTy) : Trait := commonTrait (moveC ts :: ts.map fun t => trait t.tma t.ma)
/-- destructible_trait, variant.h:413-416. -/
def dtorT (ts : List AltTy) : Trait := commonTrait (ts.map fun t => trait t.dtorTrivial true)

/-! ### Construction -/

/-- The operation of `alt<I, T>` (variant.h:911-928) for an rvalue: alt has a member of type `T` and only
implicit special member functions. -/
def altRvalue (copy rvalue : Fn) : Fn := if rvalue = .deleted then copy else rvalue

/-- recursive_union, variant.h:930-980: copy and move are defaulted, and therefore deleted if one of the
members has a non-trivial one.  `f` gives the copy operation and the operation for rvalues of a type. -/
def union (f : AltTy → Fn × Fn) : List AltTy → Cls
  | [] => ⟨.bits, some .bits⟩
  | t :: ts =>
    ⟨if (f t).1 = .trivial ∧ (union f ts).copy = .bits then .bits else .deleted,
     if altRvalue (f t).1 (f t).2 = .trivial ∧ (union f ts).rvalue = .bits then some .bits else none⟩

/-- destructor, variant.h:1057-1099, on top of base, variant.h:992-1033: implicit or defaulted. -/
def destructorC (f : AltTy → Fn × Fn) (ts : List AltTy) : Cls := defaulted (defaulted (union f ts))

/-- move_constructor, variant.h:1135-1171, on top of constructor, variant.h:1103-1133. -/
def moveConstructor (ts : List AltTy) : Cls :=
  let b := defaulted (destructorC (fun t => (t.copyCtor, t.rvalueCtor)) ts)
  match moveC ts with
  | .trivially => defaulted b
  | .available => ⟨b.copy, some .byMove⟩
  | .unavailable => ⟨b.copy, some .deleted⟩

/-- copy_constructor, variant.h:1173-1208. -/
def copyConstructor (ts : List AltTy) : Cls :=
  let b := moveConstructor ts
  match copyC ts with
  | .trivially => defaulted b
  | .available => ⟨.byCopy, defaultMove b⟩
  | .unavailable => ⟨.deleted, defaultMove b⟩

/-- The constructors of variant: those of assignment (variant.h:1210-1275), move_assignment (1277-1315),
copy_assignment (1317-1352), impl (1354-1363) and variant (1519-1520) are implicit or defaulted. -/
def variantCtor (ts : List AltTy) : Cls :=
  defaulted (defaulted (defaulted (defaulted (defaulted (copyConstructor ts)))))

/-! ### Assignment -/

/-- assignment, variant.h:1210-1275, and what is below: the assignments are implicit or defaulted. -/
def assignment (ts : List AltTy) : Cls :=
  defaulted (defaulted (defaulted (defaulted
    (destructorC (fun t => (t.copyAssign, t.rvalueAssign)) ts))))

/-- move_assignment, variant.h:1277-1315. -/
def moveAssignment (ts : List AltTy) : Cls :=
  let b := assignment ts
  match moveA ts with
  | .trivially => defaulted b
  | .available => ⟨b.copy, some .byMove⟩
  | .unavailable => ⟨b.copy, some .deleted⟩

/-- copy_assignment, variant.h:1317-1352. -/
def copyAssignment (ts : List AltTy) : Cls :=
  let b := moveAssignment ts
  match copyA ts with
  | .trivially => defaulted b
  | .available => ⟨.byCopy, defaultMove b⟩
  | .unavailable => ⟨.deleted, defaultMove b⟩

/-- The assignments of impl (variant.h:1365-1366) and variant (1597-1598). -/
def variantAssign (ts : List AltTy) : Cls := defaulted (defaulted (copyAssignment ts))

/-! ### What a program sees -/

/-- `variant<Ts...> b(a)`.  generic_construct, variant.h:1116-1132, constructs an alternative from a
`const T&` or a `T&&`. -/
def copyConstruct (ts : List AltTy) : Outcome :=
  outcome (variantCtor ts).copy (ts.all fun t => t.cc) (ts.all fun t => t.mc)

/-- `variant<Ts...> b(std::move(a))`. variant.h:1116-1171. -/
def moveConstruct (ts : List AltTy) : Outcome :=
  outcome (variantCtor ts).rvalue (ts.all fun t => t.cc) (ts.all fun t => t.mc)

/-- What assign_alt, variant.h:1229-1256, asks of an alternative that is copied: assignment, construction,
and - because both functions of the local class are compiled - construction from the temporary `T(arg)`. -/
def assignCopyOk (t : AltTy) : Bool := t.ca && t.cc && t.mc

/-- What assign_alt asks of an alternative that is moved. variant.h:1229-1256. -/
def assignMoveOk (t : AltTy) : Bool := t.ma && t.mc

/-- `b = a`. variant.h:1337-1346 with 1258-1274. -/
def copyAssign (ts : List AltTy) : Outcome :=
  outcome (variantAssign ts).copy (ts.all assignCopyOk) (ts.all assignMoveOk)

/-- `b = std::move(a)`. variant.h:1297-1309. -/
def moveAssign (ts : List AltTy) : Outcome :=
  outcome (variantAssign ts).rvalue (ts.all assignCopyOk) (ts.all assignMoveOk)

/-- Does the destructor do nothing?  ~recursive_union and ~destructor, variant.h:973-978 and 1077-1097; the
destructors of the classes above are defaulted. -/
def dtorTrivial (ts : List AltTy) : Bool := dtorT ts == .trivially

/-- std::is_nothrow_move_constructible<variant<Ts...>>: the exception specification of the move constructor
(variant.h:1160-1161) if that is the one with a body, true for trivial constructors, and that of the copy
constructor (1198), which has none, if rvalues are copied. -/
def moveConstructNothrow (ts : List AltTy) : Bool := match moveConstruct ts with
  | .bits => true
  | .moved => ts.all AltTy.nmc
  | _ => false

/-- std::is_nothrow_move_assignable<variant<Ts...>>, variant.h:1303-1306 and 1365-1366. -/
def moveAssignNothrow (ts : List AltTy) : Bool := match moveAssign ts with
  | .bits => true
  | .moved => ts.all fun t => t.nmc && t.nma
  | _ => false

/-- The configuration of Verif/Variant/Model.lean that belongs to these alternatives, as far as the choice
of an operation is concerned. -/
def cfg (ts : List AltTy) : Cfg := ts.map fun t =>
  { copyC := trait t.tcc t.cc, moveC := trait t.tmc t.mc, copyA := trait t.tca t.ca,
    moveA := trait t.tma t.ma, dtor := trait t.dtorTrivial true, ntCopyC := false, ntMoveC := t.nmc,
    ntCopyA := false, ntMoveA := t.nma, ntSwap := false }

end Gul14.Var.Members

namespace Gul14.Spec.VarMembers
open Gul14.Exp.Members (Ty Fn)
open Gul14.Var.Members (AltTy)

/-- The type can be copied. -/
def Copies (t : AltTy) : Prop := t.copyCtor ≠ .deleted

/-- An object of the type can be constructed from an rvalue. -/
def Moves (t : AltTy) : Prop := t.rvalueCtor ≠ .deleted

/-- The type can be assigned to. -/
def CopyAssigns (t : AltTy) : Prop := t.copyAssign ≠ .deleted

def MoveAssigns (t : AltTy) : Prop := t.rvalueAssign ≠ .deleted

/-- Copies are made by copying the bytes, and there is nothing to be destroyed. -/
def PlainCopy (t : AltTy) : Prop := t.copyCtor = .trivial ∧ t.dtorTrivial = true

def PlainMove (t : AltTy) : Prop := t.rvalueCtor = .trivial ∧ t.dtorTrivial = true

/-- Moving cannot throw. -/
def SafeMove (t : AltTy) : Prop :=
  t.rvalueCtor = .trivial ∨ (t.rvalueCtor ≠ .deleted ∧ t.ctorNothrow = true)

def SafeMoveAssign (t : AltTy) : Prop :=
  t.rvalueAssign = .trivial ∨ (t.rvalueAssign ≠ .deleted ∧ t.assignNothrow = true)

end Gul14.Spec.VarMembers

namespace Gul14.Var.Members
open Gul14.Exp.Members (Fn Ty Eff Cls Outcome defaultMove defaulted outcome)
open Gul14.Spec.VarMembers

/-! ### Lemmas -/

theorem foldl_max_ge (ts : List Trait) (r : Trait) :
    (ts.foldl (fun r t => if t.toNat > r.toNat then t else r) r = .trivially ↔
      r = .trivially ∧ ∀ t ∈ ts, t = .trivially) ∧
    (ts.foldl (fun r t => if t.toNat > r.toNat then t else r) r = .unavailable ↔
      r = .unavailable ∨ ∃ t ∈ ts, t = .unavailable) := by
  induction ts generalizing r with
  | nil => simp
  | cons t ts ih =>
    simp only [List.foldl_cons, ih]
    cases t <;> cases r <;> simp [Trait.toNat]

theorem commonTrait_trivially (ts : List Trait) :
    commonTrait ts = .trivially ↔ ∀ t ∈ ts, t = .trivially := by
  simp [commonTrait, (foldl_max_ge ts _).1]

theorem commonTrait_unavailable (ts : List Trait) :
    commonTrait ts = .unavailable ↔ ∃ t ∈ ts, t = .unavailable := by
  simp [commonTrait, (foldl_max_ge ts _).2]

theorem trait_trivially (a b : Bool) : trait a b = .trivially ↔ a = true := by
  cases a <;> cases b <;> simp [trait]

theorem trait_unavailable (a b : Bool) : trait a b = .unavailable ↔ a = false ∧ b = false := by
  cases a <;> cases b <;> simp [trait]

theorem copyC_trivially (ts : List AltTy) : copyC ts = .trivially ↔ ∀ t ∈ ts, PlainCopy t := by
  simp [copyC, commonTrait_trivially, trait_trivially, Ty.tcc, PlainCopy]

theorem copyC_unavailable (ts : List AltTy) : copyC ts = .unavailable ↔ ¬ ∀ t ∈ ts, Copies t := by
  simp only [copyC, commonTrait_unavailable, List.mem_map, exists_exists_and_eq_and, trait_unavailable,
    Ty.tcc, Ty.cc, Copies, not_forall, exists_prop]
  refine exists_congr fun t => and_congr_right fun _ => ?_
  cases t.copyCtor <;> simp

theorem moveC_trivially (ts : List AltTy) : moveC ts = .trivially ↔ ∀ t ∈ ts, PlainMove t := by
  simp [moveC, commonTrait_trivially, trait_trivially, Ty.tmc, PlainMove]

theorem moveC_unavailable (ts : List AltTy) : moveC ts = .unavailable ↔ ¬ ∀ t ∈ ts, Moves t := by
  simp only [moveC, commonTrait_unavailable, List.mem_map, exists_exists_and_eq_and, trait_unavailable,
    Ty.tmc, Ty.mc, Moves, not_forall, exists_prop]
  refine exists_congr fun t => and_congr_right fun _ => ?_
  cases t.rvalueCtor <;> simp

theorem copyA_trivially (ts : List AltTy) :
    copyA ts = .trivially ↔ ∀ t ∈ ts, PlainCopy t ∧ t.copyAssign = .trivial := by
  simp only [copyA, commonTrait_trivially, List.forall_mem_cons, copyC_trivially, List.forall_mem_map,
    trait_trivially, Ty.tca, beq_iff_eq]
  exact ⟨fun h t ht => ⟨h.1 t ht, h.2 t ht⟩, fun h => ⟨fun t ht => (h t ht).1, fun t ht => (h t ht).2⟩⟩

theorem copyA_unavailable (ts : List AltTy) :
    copyA ts = .unavailable ↔ ¬ ∀ t ∈ ts, Copies t ∧ CopyAssigns t := by
  simp only [copyA, commonTrait_unavailable, List.mem_cons, exists_eq_or_imp, copyC_unavailable,
    List.mem_map, exists_exists_and_eq_and, trait_unavailable, Ty.tca, Ty.ca]
  have : (∃ a ∈ ts, (a.copyAssign == Fn.trivial) = false ∧ (a.copyAssign != Fn.deleted) = false) ↔
      ¬ ∀ t ∈ ts, CopyAssigns t := by
    simp only [not_forall, exists_prop, CopyAssigns]
    refine exists_congr fun t => and_congr_right fun _ => ?_
    cases t.copyAssign <;> simp
  rw [this, ← not_and_or]
  refine not_congr ⟨fun h t ht => ⟨h.1 t ht, h.2 t ht⟩,
    fun h => ⟨fun t ht => (h t ht).1, fun t ht => (h t ht).2⟩⟩

theorem moveA_trivially (ts : List AltTy) :
    moveA ts = .trivially ↔ ∀ t ∈ ts, PlainMove t ∧ t.rvalueAssign = .trivial := by
  simp only [moveA, commonTrait_trivially, List.forall_mem_cons, moveC_trivially, List.forall_mem_map,
    trait_trivially, Ty.tma, beq_iff_eq]
  exact ⟨fun h t ht => ⟨h.1 t ht, h.2 t ht⟩, fun h => ⟨fun t ht => (h t ht).1, fun t ht => (h t ht).2⟩⟩

theorem moveA_unavailable (ts : List AltTy) :
    moveA ts = .unavailable ↔ ¬ ∀ t ∈ ts, Moves t ∧ MoveAssigns t := by
  simp only [moveA, commonTrait_unavailable, List.mem_cons, exists_eq_or_imp, moveC_unavailable,
    List.mem_map, exists_exists_and_eq_and, trait_unavailable, Ty.tma, Ty.ma]
  have : (∃ a ∈ ts, (a.rvalueAssign == Fn.trivial) = false ∧ (a.rvalueAssign != Fn.deleted) = false) ↔
      ¬ ∀ t ∈ ts, MoveAssigns t := by
    simp only [not_forall, exists_prop, MoveAssigns]
    refine exists_congr fun t => and_congr_right fun _ => ?_
    cases t.rvalueAssign <;> simp
  rw [this, ← not_and_or]
  refine not_congr ⟨fun h t ht => ⟨h.1 t ht, h.2 t ht⟩,
    fun h => ⟨fun t ht => (h t ht).1, fun t ht => (h t ht).2⟩⟩

/-- The union is copied as bytes if all alternatives are. -/
theorem union_copy (f : AltTy → Fn × Fn) (ts : List AltTy) (h : ∀ t ∈ ts, (f t).1 = .trivial) :
    (union f ts).copy = .bits := by
  induction ts with
  | nil => rfl
  | cons t ts ih =>
    have := ih fun x hx => h x (List.mem_cons_of_mem _ hx)
    simp [union, this, h t List.mem_cons_self]

theorem union_rvalue (f : AltTy → Fn × Fn) (ts : List AltTy) (h : ∀ t ∈ ts, (f t).2 = .trivial) :
    (union f ts).rvalue = .bits := by
  induction ts with
  | nil => rfl
  | cons t ts ih =>
    have := ih fun x hx => h x (List.mem_cons_of_mem _ hx)
    simp [union, Cls.rvalue, altRvalue, h t List.mem_cons_self] at this ⊢
    simp [this]

theorem defaulted_copy (b : Cls) : (defaulted b).copy = b.copy := rfl

theorem defaultMove_getD (b : Cls) (c : Eff) :
    (defaultMove b).getD c = if b.rvalue = .deleted then c else b.rvalue := by
  unfold defaultMove
  split <;> rfl

theorem defaulted_rvalue (b : Cls) :
    (defaulted b).rvalue = if b.rvalue = .deleted then b.copy else b.rvalue := by
  simp only [defaulted, Cls.rvalue, defaultMove_getD]

/-- Beyond the first one, defaulted operations change nothing. -/
theorem defaulted_twice (b : Cls) : (defaulted (defaulted b)).rvalue = (defaulted b).rvalue := by
  rw [defaulted_rvalue, defaulted_copy]
  by_cases h : b.rvalue = .deleted <;> simp [defaulted_rvalue, h]

theorem variantCtor_copy (ts : List AltTy) : (variantCtor ts).copy = (copyConstructor ts).copy := rfl

theorem variantCtor_rvalue (ts : List AltTy) :
    (variantCtor ts).rvalue = (defaulted (copyConstructor ts)).rvalue := by
  simp only [variantCtor, defaulted_twice]

theorem variantAssign_rvalue (ts : List AltTy) :
    (variantAssign ts).rvalue = (defaulted (copyAssignment ts)).rvalue := by
  simp only [variantAssign, defaulted_twice]

theorem copyConstructor_copy (ts : List AltTy) :
    (copyConstructor ts).copy = match copyC ts with
      | .trivially => .bits
      | .available => .byCopy
      | .unavailable => .deleted := by
  unfold copyConstructor
  cases h : copyC ts with
  | trivially =>
    have hu : (union (fun t => (t.copyCtor, t.rvalueCtor)) ts).copy = .bits :=
      union_copy _ ts fun t ht => ((copyC_trivially ts).1 h t ht).1
    simp only [defaulted_copy]
    unfold moveConstructor
    cases moveC ts <;> simp [defaulted_copy, destructorC, hu]
  | available => rfl
  | unavailable => rfl

theorem moveConstructor_rvalue (ts : List AltTy) :
    (moveConstructor ts).rvalue = match moveC ts with
      | .trivially => .bits
      | .available => .byMove
      | .unavailable => .deleted := by
  unfold moveConstructor
  cases h : moveC ts with
  | trivially =>
    have hu : (union (fun t => (t.copyCtor, t.rvalueCtor)) ts).rvalue = .bits :=
      union_rvalue _ ts fun t ht => ((moveC_trivially ts).1 h t ht).1
    simp [defaulted_twice, destructorC, defaulted_rvalue, hu]
  | available => rfl
  | unavailable => rfl

theorem copyConstructor_rvalue (ts : List AltTy) :
    (copyConstructor ts).rvalue = if (moveConstructor ts).rvalue = .deleted then (copyConstructor ts).copy
      else (moveConstructor ts).rvalue := by
  unfold copyConstructor
  cases copyC ts
  · exact defaulted_rvalue _
  · exact defaultMove_getD _ _
  · exact defaultMove_getD _ _

theorem ctor_rvalue (ts : List AltTy) :
    (variantCtor ts).rvalue = match moveC ts with
      | .trivially => .bits
      | .available => .byMove
      | .unavailable => (copyConstructor ts).copy := by
  rw [variantCtor_rvalue, defaulted_rvalue, copyConstructor_rvalue, moveConstructor_rvalue]
  cases moveC ts <;> simp

theorem copyAssignment_copy (ts : List AltTy) :
    (copyAssignment ts).copy = match copyA ts with
      | .trivially => .bits
      | .available => .byCopy
      | .unavailable => .deleted := by
  unfold copyAssignment
  cases h : copyA ts with
  | trivially =>
    have hu : (union (fun t => (t.copyAssign, t.rvalueAssign)) ts).copy = .bits :=
      union_copy _ ts fun t ht => ((copyA_trivially ts).1 h t ht).2
    simp only [defaulted_copy]
    unfold moveAssignment
    cases moveA ts <;> simp [defaulted_copy, destructorC, assignment, hu]
  | available => rfl
  | unavailable => rfl

theorem moveAssignment_rvalue (ts : List AltTy) :
    (moveAssignment ts).rvalue = match moveA ts with
      | .trivially => .bits
      | .available => .byMove
      | .unavailable => .deleted := by
  unfold moveAssignment
  cases h : moveA ts with
  | trivially =>
    have hu : (union (fun t => (t.copyAssign, t.rvalueAssign)) ts).rvalue = .bits :=
      union_rvalue _ ts fun t ht => ((moveA_trivially ts).1 h t ht).2
    simp [defaulted_twice, destructorC, assignment, defaulted_rvalue, hu]
  | available => rfl
  | unavailable => rfl

theorem copyAssignment_rvalue (ts : List AltTy) :
    (copyAssignment ts).rvalue = if (moveAssignment ts).rvalue = .deleted then (copyAssignment ts).copy
      else (moveAssignment ts).rvalue := by
  unfold copyAssignment
  cases copyA ts
  · exact defaulted_rvalue _
  · exact defaultMove_getD _ _
  · exact defaultMove_getD _ _

theorem assign_rvalue (ts : List AltTy) :
    (variantAssign ts).rvalue = match moveA ts with
      | .trivially => .bits
      | .available => .byMove
      | .unavailable => (copyAssignment ts).copy := by
  rw [variantAssign_rvalue, defaulted_rvalue, copyAssignment_rvalue, moveAssignment_rvalue]
  cases moveA ts <;> simp

theorem trait_ne {x : Trait} (h1 : x ≠ .trivially) (h2 : x ≠ .unavailable) : x = .available := by
  cases x <;> simp_all

theorem all_cc (ts : List AltTy) : (ts.all fun t => t.cc) = true ↔ ∀ t ∈ ts, Copies t := by
  simp [Ty.cc, Copies]

theorem all_mc (ts : List AltTy) : (ts.all fun t => t.mc) = true ↔ ∀ t ∈ ts, Moves t := by
  simp [Ty.mc, Moves]

theorem all_assignCopy (ts : List AltTy) :
    ts.all assignCopyOk = true ↔ ∀ t ∈ ts, CopyAssigns t ∧ Copies t ∧ Moves t := by
  simp [assignCopyOk, Ty.cc, Copies, Ty.mc, Moves, Ty.ca, CopyAssigns, and_assoc]

theorem all_assignMove (ts : List AltTy) :
    ts.all assignMoveOk = true ↔ ∀ t ∈ ts, MoveAssigns t ∧ Moves t := by
  simp [assignMoveOk, Ty.mc, Moves, Ty.ma, MoveAssigns]

/-! ### C107 -/

/-- A variant can be copied if and only if all alternatives can.  The copy is one of the bytes if it is for
all alternatives, and otherwise the alternative that is alive is copied. -/
theorem c107_copy_construct (ts : List AltTy) :
    (copyConstruct ts = .unavailable ↔ ¬ ∀ t ∈ ts, Copies t) ∧
    (copyConstruct ts = .bits ↔ ∀ t ∈ ts, PlainCopy t) ∧
    (copyConstruct ts = .copied ↔ (∀ t ∈ ts, Copies t) ∧ ¬ ∀ t ∈ ts, PlainCopy t) := by
  have hp : (∀ t ∈ ts, PlainCopy t) → ∀ t ∈ ts, Copies t := fun h t ht => by
    rw [Copies, (h t ht).1]; decide
  rw [← copyC_trivially] at hp ⊢
  have hu := copyC_unavailable ts
  simp only [copyConstruct, variantCtor_copy, copyConstructor_copy]
  cases h : copyC ts with
  | trivially => simpa [outcome] using hp h
  | available =>
    have hc : ∀ t ∈ ts, Copies t := by
      by_contra q
      rw [← hu, h] at q
      cases q
    have := (all_cc ts).2 hc
    simpa [outcome, this] using hc
  | unavailable =>
    have := hu.1 h
    simp [outcome, this]

/-- If all alternatives can be moved, then so can the variant: the alternative that is alive is moved, or the
bytes are copied if that is how all alternatives are moved. -/
theorem c107_move_construct (ts : List AltTy) (h : ∀ t ∈ ts, Moves t) :
    (moveConstruct ts = .bits ↔ ∀ t ∈ ts, PlainMove t) ∧
    (moveConstruct ts = .moved ↔ ¬ ∀ t ∈ ts, PlainMove t) := by
  rw [← moveC_trivially]
  have hu : moveC ts ≠ .unavailable := fun q => (moveC_unavailable ts).1 q h
  have := (all_mc ts).2 h
  simp only [moveConstruct, ctor_rvalue]
  cases hm : moveC ts with
  | trivially => simp [outcome]
  | available => simp [outcome, this]
  | unavailable => exact absurd hm hu

/-- If an alternative cannot be moved, an rvalue is handled like an lvalue. -/
theorem c107_move_construct_fallback (ts : List AltTy) (h : ¬ ∀ t ∈ ts, Moves t) :
    moveConstruct ts = copyConstruct ts := by
  rw [← moveC_unavailable] at h
  simp only [moveConstruct, copyConstruct, ctor_rvalue, variantCtor_copy, h]

/-- Copy assignment, completely.  It exists if and only if all alternatives can be copied, by construction
and by assignment.  It copies the bytes if all alternatives are plain; otherwise it copies the alternative
that is alive, but that only compiles if all alternatives can be moved. -/
theorem c107_copy_assign_cases (ts : List AltTy) :
    (copyAssign ts = .unavailable ↔ ¬ ∀ t ∈ ts, Copies t ∧ CopyAssigns t) ∧
    (copyAssign ts = .bits ↔ ∀ t ∈ ts, PlainCopy t ∧ t.copyAssign = .trivial) ∧
    (copyAssign ts = .copied ↔ (∀ t ∈ ts, Copies t ∧ CopyAssigns t ∧ Moves t) ∧
      ¬ ∀ t ∈ ts, PlainCopy t ∧ t.copyAssign = .trivial) ∧
    (copyAssign ts = .error ↔ (∀ t ∈ ts, Copies t ∧ CopyAssigns t) ∧ (¬ ∀ t ∈ ts, Moves t) ∧
      ¬ ∀ t ∈ ts, PlainCopy t ∧ t.copyAssign = .trivial) := by
  have hp : (∀ t ∈ ts, PlainCopy t ∧ t.copyAssign = .trivial) → ∀ t ∈ ts, Copies t ∧ CopyAssigns t :=
    fun h t ht => by
      rw [Copies, CopyAssigns, (h t ht).1.1, (h t ht).2]; decide
  have h3 : (∀ t ∈ ts, Copies t ∧ CopyAssigns t ∧ Moves t) ↔ ts.all assignCopyOk = true := by
    rw [all_assignCopy]
    exact forall_congr' fun t => forall_congr' fun _ => by tauto
  have h4 : (∀ t ∈ ts, Copies t ∧ CopyAssigns t ∧ Moves t) ↔
      (∀ t ∈ ts, Copies t ∧ CopyAssigns t) ∧ ∀ t ∈ ts, Moves t :=
    ⟨fun q => ⟨fun t ht => ⟨(q t ht).1, (q t ht).2.1⟩, fun t ht => (q t ht).2.2⟩,
      fun q t ht => ⟨(q.1 t ht).1, (q.1 t ht).2, q.2 t ht⟩⟩
  rw [h4] at h3 ⊢
  rw [← copyA_trivially] at hp ⊢
  have hu := copyA_unavailable ts
  have e : (variantAssign ts).copy = (copyAssignment ts).copy := rfl
  simp only [copyAssign, e, copyAssignment_copy]
  cases h : copyA ts with
  | trivially => simpa [outcome] using hp h
  | available =>
    have hc : ∀ t ∈ ts, Copies t ∧ CopyAssigns t := by
      by_contra q
      rw [← hu, h] at q
      cases q
    by_cases hm : ∀ t ∈ ts, Moves t
    · have := h3.1 ⟨hc, hm⟩
      simp only [outcome, this]
      simpa using ⟨hc, ⟨hc, hm⟩, fun _ => hm⟩
    · have : ts.all assignCopyOk = false := by
        rw [← Bool.not_eq_true, ← h3]; exact fun q => hm q.2
      simp only [outcome, this]
      simpa [hm] using hc
  | unavailable =>
    have := hu.1 h
    simp [outcome, this]

/-- If all alternatives can be copied, by construction and by assignment, then a variant can be assigned, by
copying what the other one holds.  What is missing are alternatives whose move constructor is explicitly
deleted: see `c107_copy_assign_violated`. -/
theorem c107_copy_assign_partial (ts : List AltTy) (h : ∀ t ∈ ts, Copies t ∧ CopyAssigns t)
    (hm : ∀ t ∈ ts, Moves t) :
    copyAssign ts = .copied ∨
      (copyAssign ts = .bits ∧ ∀ t ∈ ts, PlainCopy t ∧ t.copyAssign = .trivial) := by
  obtain ⟨-, h2, h3, -⟩ := c107_copy_assign_cases ts
  by_cases p : ∀ t ∈ ts, PlainCopy t ∧ t.copyAssign = .trivial
  · exact Or.inr ⟨h2.2 p, p⟩
  · exact Or.inl (h3.2 ⟨fun t ht => ⟨(h t ht).1, (h t ht).2, hm t ht⟩, p⟩)

/-- The general claim is wrong: for a type that can be copied but whose move constructor is deleted, the
type traits say that the variant can be assigned, but the assignment does not compile.  Which other
alternatives the variant has does not matter. -/
theorem c107_copy_assign_violated (us vs : List AltTy)
    (h : ∀ t ∈ us ++ vs, Copies t ∧ CopyAssigns t) :
    ∃ t : AltTy, Copies t ∧ CopyAssigns t ∧ copyAssign (us ++ t :: vs) = .error := by
  refine ⟨⟨⟨.user, some .deleted, .user, some .deleted, true⟩, true, true⟩, by unfold Copies; decide,
    by unfold CopyAssigns; decide, ?_⟩
  refine (c107_copy_assign_cases _).2.2.2.2 ⟨?_, ?_, ?_⟩
  · intro t ht
    rw [List.mem_append, List.mem_cons] at ht
    rcases ht with ht | rfl | ht
    · exact h t (List.mem_append_left _ ht)
    · exact ⟨by unfold Copies; decide, by unfold CopyAssigns; decide⟩
    · exact h t (List.mem_append_right _ ht)
  · exact fun q => q _ (List.mem_append_right _ List.mem_cons_self) rfl
  · exact fun q => absurd (q _ (List.mem_append_right _ List.mem_cons_self)).2 (by decide)

/-- If all alternatives can be moved, by construction and by assignment, then a variant can be assigned from
an rvalue, by moving what the other one holds or by copying the bytes if all alternatives are plain. -/
theorem c107_move_assign (ts : List AltTy) (h : ∀ t ∈ ts, Moves t ∧ MoveAssigns t) :
    (moveAssign ts = .bits ↔ ∀ t ∈ ts, PlainMove t ∧ t.rvalueAssign = .trivial) ∧
    (moveAssign ts = .moved ↔ ¬ ∀ t ∈ ts, PlainMove t ∧ t.rvalueAssign = .trivial) := by
  rw [← moveA_trivially]
  have hu : moveA ts ≠ .unavailable := fun q => (moveA_unavailable ts).1 q h
  have := (all_assignMove ts).2 fun t ht => ⟨(h t ht).2, (h t ht).1⟩
  simp only [moveAssign, assign_rvalue]
  cases hm : moveA ts with
  | trivially => simp [outcome]
  | available => simp [outcome, this]
  | unavailable => exact absurd hm hu

/-- If an alternative cannot be moved by construction and by assignment, an rvalue is handled like an
lvalue. -/
theorem c107_move_assign_fallback (ts : List AltTy) (h : ¬ ∀ t ∈ ts, Moves t ∧ MoveAssigns t) :
    moveAssign ts = copyAssign ts := by
  rw [← moveA_unavailable] at h
  have e : (variantAssign ts).copy = (copyAssignment ts).copy := rfl
  simp only [moveAssign, copyAssign, assign_rvalue, e, h]

/-- A variant needs no destructor if and only if no alternative needs one. -/
theorem c107_destroy (ts : List AltTy) : dtorTrivial ts = true ↔ ∀ t ∈ ts, t.dtorTrivial = true := by
  simp [dtorTrivial, dtorT, commonTrait_trivially, trait_trivially]

/-- Moving a variant whose alternatives can be moved cannot throw if and only if moving any of the
alternatives cannot; for the assignment neither construction nor assignment of an alternative may throw. -/
theorem c107_nothrow (ts : List AltTy) (h : ∀ t ∈ ts, Moves t) :
    (moveConstructNothrow ts = true ↔ ∀ t ∈ ts, SafeMove t) ∧
    ((∀ t ∈ ts, MoveAssigns t) →
      (moveAssignNothrow ts = true ↔ ∀ t ∈ ts, SafeMove t ∧ SafeMoveAssign t)) := by
  have n1 : ∀ t : AltTy, t.nmc = true ↔ SafeMove t := fun t => by
    simp [AltTy.nmc, SafeMove, Ty.mc]
  have n2 : ∀ t : AltTy, t.nma = true ↔ SafeMoveAssign t := fun t => by
    simp [AltTy.nma, SafeMoveAssign, Ty.ma]
  constructor
  · obtain ⟨h1, h2⟩ := c107_move_construct ts h
    by_cases p : ∀ t ∈ ts, PlainMove t
    · simp only [moveConstructNothrow, h1.2 p, true_iff]
      exact fun t ht => Or.inl (p t ht).1
    · simp [moveConstructNothrow, h2.2 p, n1]
  · intro ha
    obtain ⟨h1, h2⟩ := c107_move_assign ts fun t ht => ⟨h t ht, ha t ht⟩
    by_cases p : ∀ t ∈ ts, PlainMove t ∧ t.rvalueAssign = .trivial
    · simp only [moveAssignNothrow, h1.2 p, true_iff]
      exact fun t ht => ⟨Or.inl (p t ht).1.1, Or.inl (p t ht).2⟩
    · simp [moveAssignNothrow, h2.2 p, n1, n2]

/-- The operation that Verif/Variant/Model.lean chooses for a configuration is the one that the chain of base
classes arrives at. -/
theorem c107_model (ts : List AltTy) :
    ((cfg ts).copyC = .trivially ↔ copyConstruct ts = .bits) ∧
    ((cfg ts).copyC = .unavailable ↔ copyConstruct ts = .unavailable) ∧
    ((∀ t ∈ ts, Moves t) → ((cfg ts).moveC = .trivially ↔ moveConstruct ts = .bits)) ∧
    ((cfg ts).copyA = .trivially ↔ copyAssign ts = .bits) ∧
    ((cfg ts).copyA = .unavailable ↔ copyAssign ts = .unavailable) ∧
    ((∀ t ∈ ts, Moves t ∧ MoveAssigns t) →
      ((cfg ts).moveA = .trivially ↔ moveAssign ts = .bits)) ∧
    ((cfg ts).dtor = .trivially ↔ dtorTrivial ts = true) := by
  have e1 : (cfg ts).copyC = copyC ts := by simp [cfg, Cfg.copyC, copyC, Function.comp_def]
  have e2 : (cfg ts).moveC = moveC ts := by simp [cfg, Cfg.moveC, moveC, Function.comp_def]
  have e3 : (cfg ts).copyA = copyA ts := by
    rw [Cfg.copyA, e1, copyA]; simp [cfg, Function.comp_def]
  have e4 : (cfg ts).moveA = moveA ts := by
    rw [Cfg.moveA, e2, moveA]; simp [cfg, Function.comp_def]
  have e5 : (cfg ts).dtor = dtorT ts := by simp [cfg, Cfg.dtor, dtorT, Function.comp_def]
  rw [e1, e2, e3, e4, e5, copyC_trivially, copyC_unavailable, moveC_trivially, copyA_trivially,
    copyA_unavailable, moveA_trivially, (c107_copy_construct ts).1, (c107_copy_construct ts).2.1,
    (c107_copy_assign_cases ts).1, (c107_copy_assign_cases ts).2.1]
  refine ⟨Iff.rfl, Iff.rfl, fun h => (c107_move_construct ts h).1.symm, Iff.rfl, Iff.rfl,
    fun h => (c107_move_assign ts h).1.symm, ?_⟩
  simp [dtorTrivial]

/-! ### Examples -/

/-- int -/
def exInt : AltTy := ⟨⟨.trivial, none, .trivial, none, true⟩, true, true⟩
/-- std::string -/
def exString : AltTy := ⟨⟨.user, some .user, .user, some .user, false⟩, true, true⟩
/-- std::unique_ptr -/
def exUnique : AltTy := ⟨⟨.deleted, some .user, .deleted, some .user, false⟩, true, true⟩

example : copyConstruct [exInt, exInt] = .bits ∧ copyConstruct [exInt, exString] = .copied ∧
    copyConstruct [exString, exUnique] = .unavailable ∧ moveConstruct [exString, exUnique] = .moved ∧
    moveConstruct [exInt, exInt] = .bits := by decide +kernel

example : copyAssign [exInt, exString] = .copied ∧ copyAssign [exInt, exInt] = .bits ∧
    moveAssign [exInt, exUnique] = .moved ∧ moveAssign [exInt, exInt] = .bits ∧
    copyAssign [exUnique] = .unavailable ∧ moveConstructNothrow [exInt, exUnique] = true ∧
    moveAssignNothrow [exInt, exString] = true := by decide +kernel

/-- The hypotheses of the theorems are met. -/
example : (∀ t ∈ [exInt, exString, exUnique], Moves t ∧ MoveAssigns t) ∧
    (∀ t ∈ [exInt, exString], Copies t ∧ CopyAssigns t ∧ Moves t) := by
  unfold Moves MoveAssigns Copies CopyAssigns
  decide +kernel

end Gul14.Var.Members
