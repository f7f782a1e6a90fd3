import Verif.SlidingBuffer.Model

/-!
# Arguments that are the content of the object itself

Assignments and emplace of optional, expected and variant, and insertion into a SlidingBuffer, with a reference to the
content of the same object (or to a part of it) as argument: `o = *o`, `e = e.error()`, `v.emplace<0>(get<1>(v))`.  What
matters is when the argument is read: before or after the content has been destroyed.  Exceptions are the subject of C34,
C38 and C81 and do not occur here.  An object is gone after the call of its destructor and when its
storage is used for another one, also if its type is trivial (then the old bytes may well be there still).  Assignment
operators of the types themselves are assumed to cope with an argument inside of the object.
-/
namespace Gul14.OwnContent

/-- The storage of an optional (alternative 0), expected (0: value, 1: error) or variant: the live object in it, if there is
one.  optional.h:169-252, expected.h:362-625, variant.h:934-1100; the flags and indices always agree with it (C34, C38,
C80). -/
abbrev Cell (V : Type) := Option (Nat × V)

variable {V : Type}

/-- An argument: something outside of the object, or a reference into the alternative `i` of the object, where `f` is what the
type makes of it (the part that is referred to and its conversion). -/
inductive Arg (V : Type) where
  | outside (x : V)
  | own (i : Nat) (f : V → V)

/-- Reading the argument: undefined if the object is gone.  Language semantics; no code in /repo. -/
def read (c : Cell V) : Arg V → Res V
  | .outside x => .ok x
  | .own i f => match c with
    | some (i', y) => if i' = i then .ok (f y) else .ub
    | none => .ub

/-- Call of a destructor.  Language semantics; no code in /repo. -/
def destroy : Cell V → Res (Cell V)
  | some _ => .ok none
  | none => .ub

/-- Placement new of alternative `j`.  Language semantics; no code in /repo. -/
def construct (j : Nat) (r : Arg V) (c : Cell V) : Res (Cell V) :=
  match c with
  | some _ => .ub
  | none => (read c r).map fun x => some (j, x)

/-- Assignment to the live alternative `j`.  Language semantics; no code in /repo. -/
def assign (j : Nat) (r : Arg V) (c : Cell V) : Res (Cell V) :=
  match c with
  | some (i, _) => if i = j then (read c r).map fun x => some (j, x) else .ub
  | none => .ub

/-! ## optional -/

/-- `o = x`, optional.h:389-399.  `same`: `x` is of type `T`; otherwise an optional is constructed from it and assigned,
optional.h:381-387. -/
def optAssign (same : Bool) (r : Arg V) (c : Cell V) : Res (Cell V) :=
  let go (r : Arg V) := if c.isSome then assign 0 r c else construct 0 r c
  if same then go r else (read c r).bind fun x => go (.outside x)

/-- emplace, optional.h:401-411, with clear, 303-306. -/
def optEmplace (r : Arg V) (c : Cell V) : Res (Cell V) :=
  (if c.isSome then destroy c else .ok c).bind (construct 0 r)

/-! ## expected -/

/-- What the overloads depend on: `T` is scalar and the argument is of type `T`; the move constructor of `E` is noexcept; the
constructor of `T` from the argument is noexcept. -/
structure Traits where
  scalarSame : Bool
  eNothrowMove : Bool
  nothrowCtor : Bool

/-- has_value(), expected.h:1871. -/
def has (c : Cell V) : Bool := match c with
  | some (0, _) => true
  | _ => false

/-- `auto tmp = std::move(err());`, expected.h:1600, 1669, 1709; `moved`: what is left. -/
def moveErr (moved : V → V) : Cell V → Res (Cell V)
  | some (1, y) => .ok (some (1, moved y))
  | _ => .ub

/-- `e = x`, expected.h:1560-1618: the two operators; if their condition is not met, an expected is constructed from `x`
(1546-1558) and assigned (707-737). -/
def expAssign (t : Traits) (moved : V → V) (r : Arg V) (c : Cell V) : Res (Cell V) :=
  if t.scalarSame || !t.eNothrowMove then
    (read c r).bind fun x =>
      if has c then assign 0 (.outside x) c else (destroy c).bind (construct 0 (.outside x))
  else if has c then assign 0 r c
  else if t.nothrowCtor then (destroy c).bind (construct 0 r)
  else (moveErr moved c).bind fun c => (destroy c).bind (construct 0 r)

/-- `e = u` for an unexpected `u`, expected.h:1620-1648. -/
def expAssignError (r : Arg V) (c : Cell V) : Res (Cell V) :=
  if !has c then assign 1 r c else (destroy c).bind (construct 1 r)

/-- emplace(args...), expected.h:1650-1685. -/
def expEmplace (t : Traits) (moved : V → V) (r : Arg V) (c : Cell V) : Res (Cell V) :=
  if t.nothrowCtor then (destroy c).bind (construct 0 r)
  else if has c then (destroy c).bind (construct 0 r)
  else (moveErr moved c).bind fun c => (destroy c).bind (construct 0 r)

/-- emplace({...}, args...), expected.h:1687-1725. -/
def expEmplaceList (t : Traits) (moved : V → V) (r : Arg V) (c : Cell V) : Res (Cell V) :=
  if has c then (read c r).bind fun x => assign 0 (.outside x) c
  else if t.nothrowCtor then (destroy c).bind (construct 0 r)
  else (moveErr moved c).bind fun c => (destroy c).bind (construct 0 r)

/-! ## variant -/

/-- emplace<J>, variant.h:1218-1227; destroy() does nothing for a valueless variant. -/
def varEmplace (j : Nat) (r : Arg V) (c : Cell V) : Res (Cell V) :=
  (if c.isSome then destroy c else .ok c).bind (construct j r)

/-- index() == J, variant.h:1232. -/
def holds (j : Nat) (c : Cell V) : Bool := match c with
  | some (i, _) => i == j
  | none => false

/-- `v = x` if the chosen alternative is `j`, variant.h:1229-1256.  `ctor`: it is constructed from `x` without exceptions, `move`:
it is moved without exceptions. -/
def varAssign (ctor move : Bool) (j : Nat) (r : Arg V) (c : Cell V) : Res (Cell V) :=
  if holds j c then assign j r c
  else if ctor || !move then varEmplace j r c
  else (read c r).bind fun x => varEmplace j (.outside x) c

/-! ## SlidingBuffer -/
section Buffer
open SlidingBuffer

/-- The place that operator[] returns a reference to, SlidingBuffer.h:381-396. -/
def place (b : Buf V) (i : Nat) : Nat :=
  let i := (i + b.idxBegin) % sizeMod
  if i ≥ capacity b then i - capacity b else i

/-- push_back(const value_type&) with a reference to a place in the storage, SlidingBuffer.h:306-315. -/
def pushBackOwn (b : Buf V) (p : Nat) : Res (Buf V) :=
  ((subscript b.storage p).bind fun x => store b.storage b.idxEnd x).bind fun st =>
    let b := { b with storage := st }
    let b := { b with idxEnd := increaseIdx b b.idxEnd }
    if b.full then .ok { b with idxBegin := increaseIdx b b.idxBegin }
    else if b.idxEnd = b.idxBegin then .ok { b with full := true }
    else .ok b

/-- push_front(const value_type&) with a reference to a place in the storage, SlidingBuffer.h:344-354. -/
def pushFrontOwn (b : Buf V) (p : Nat) : Res (Buf V) :=
  let b := { b with idxBegin := decreaseIdx b b.idxBegin }
  let b :=
    if b.full then { b with idxEnd := decreaseIdx b b.idxEnd }
    else if b.idxEnd = b.idxBegin then { b with full := true }
    else b
  ((subscript b.storage p).bind fun x => store b.storage b.idxBegin x).map fun st => { b with storage := st }

end Buffer

/-! ## Specification -/
namespace Spec

/-- `x` is what the argument refers to before the call. -/
inductive Refers : Cell V → Arg V → V → Prop
  | outside (c : Cell V) (x : V) : Refers c (.outside x) x
  | own (i : Nat) (y : V) (f : V → V) : Refers (some (i, y)) (.own i f) (f y)

/-- The argument is in the object. -/
def Inside (c : Cell V) (r : Arg V) : Prop := ∃ i y f, c = some (i, y) ∧ r = .own i f

/-- An optional. -/
inductive IsOptional : Cell V → Prop
  | empty : IsOptional none
  | value (x : V) : IsOptional (some (0, x))

/-- An expected. -/
inductive IsExpected : Cell V → Prop
  | value (x : V) : IsExpected (some (0, x))
  | error (x : V) : IsExpected (some (1, x))

end Spec
open Spec

/-! ## Properties -/

theorem refers_cases {c : Cell V} {r : Arg V} {x : V} (h : Refers c r x) :
    (r = .outside x) ∨ ∃ i y f, c = some (i, y) ∧ r = .own i f ∧ x = f y := by
  cases h with
  | outside => exact .inl rfl
  | own i y f => exact .inr ⟨i, y, f, rfl, rfl, rfl⟩

theorem read_outside (c : Cell V) (x : V) : read c (.outside x) = .ok x := rfl

theorem read_refers {c : Cell V} {r : Arg V} {x : V} (h : Refers c r x) : read c r = .ok x := by
  cases h <;> simp [read]

/-- Assigning to an optional what it holds, or a part of it, does the same as assigning a copy of that. -/
theorem c140_optional_assign (same : Bool) (c : Cell V) (hc : IsOptional c) (r : Arg V) (x : V) (h : Refers c r x) :
    optAssign same r c = .ok (some (0, x)) := by
  have hr := read_refers h
  cases hc <;> cases same <;> simp [optAssign, assign, construct, hr, read_outside]

/-- Assigning to an expected what it holds does the same as assigning a copy, if it holds a value, or if the assignment is
made with a temporary object: for a scalar type and an argument of that type, and if moving the error can throw. -/
theorem c140_expected_assign_partial (t : Traits) (moved : V → V) (c : Cell V) (hc : IsExpected c) (r : Arg V) (x : V)
    (h : Refers c r x)
    (hs : ¬ Inside c r ∨ (∃ y, c = some (0, y)) ∨ t.scalarSame = true ∨ t.eNothrowMove = false) :
    expAssign t moved r c = .ok (some (0, x)) := by
  have hr := read_refers h
  by_cases ht : (t.scalarSame || !t.eNothrowMove) = true
  · cases hc <;> simp [expAssign, ht, hr, has, assign, destroy, construct, read_outside]
  · cases hc with
    | value y => simp [expAssign, ht, has, assign, hr]
    | error y =>
      have ho : r = .outside x := by
        rcases refers_cases h with h | ⟨i, y', f, h1, h2, _⟩
        · exact h
        · rcases hs with hs | ⟨z, hz⟩ | hs | hs
          · exact absurd ⟨i, y', f, h1, h2⟩ hs
          · simp at hz
          · simp [hs] at ht
          · simp [hs] at ht
      subst ho
      cases hn : t.nothrowCtor <;> simp [expAssign, ht, has, hn, moveErr, destroy, construct, read]

/-- Violated: in all other cases, `e = e.error()` reads the error after it has been destroyed: for instance an error
message that is made the value of an expected<std::string, std::string>. -/
theorem c140_expected_assign_violated (t : Traits) (moved : V → V) (y : V) (f : V → V) (h1 : t.scalarSame = false)
    (h2 : t.eNothrowMove = true) : expAssign t moved (.own 1 f) (some (1, y)) = .ub := by
  cases hn : t.nothrowCtor <;> simp [expAssign, h1, h2, has, hn, moveErr, destroy, construct, read]

/-- Assigning an unexpected does the same as assigning a copy, unless it is a part of the value that the object holds. -/
theorem c140_unexpected_partial (c : Cell V) (hc : IsExpected c) (r : Arg V) (x : V) (h : Refers c r x)
    (hs : ¬ Inside c r ∨ ∃ y, c = some (1, y)) : expAssignError r c = .ok (some (1, x)) := by
  have hr := read_refers h
  cases hc with
  | error y => simp [expAssignError, has, assign, hr]
  | value y =>
    rcases refers_cases h with rfl | ⟨i, y', f, h1, h2, _⟩
    · simp [expAssignError, has, destroy, construct, read]
    · rcases hs with hs | ⟨z, hz⟩
      · exact absurd ⟨i, y', f, h1, h2⟩ hs
      · simp at hz

/-- Violated: in that case it is read after it has been destroyed. -/
theorem c140_unexpected_violated (y : V) (f : V → V) : expAssignError (.own 0 f) (some (0, y)) = .ub := by
  simp [expAssignError, has, destroy, construct, read]

/-- Assigning to a variant what it holds does the same as assigning a copy, if the alternative stays the same, or if the new
alternative can be moved without exceptions and not be constructed without exceptions. -/
theorem c140_variant_assign_partial (ctor move : Bool) (j : Nat) (c : Cell V) (r : Arg V) (x : V) (h : Refers c r x)
    (hs : ¬ Inside c r ∨ (∃ y, c = some (j, y)) ∨ (ctor = false ∧ move = true)) :
    varAssign ctor move j r c = .ok (some (j, x)) := by
  have hr := read_refers h
  have he : varEmplace j (.outside x) c = .ok (some (j, x)) := by
    cases c <;> simp [varEmplace, destroy, construct, read]
  by_cases hh : holds j c = true
  · cases c with
    | none => simp [holds] at hh
    | some p =>
      obtain ⟨i, y⟩ := p
      have : i = j := by simpa [holds] using hh
      subst this
      simp [varAssign, hh, assign, hr]
  · rcases refers_cases h with rfl | ⟨i, y, f, h1, h2, _⟩
    · simp only [varAssign, hh, Bool.false_eq_true, if_false, hr, Res.bind_ok, he, ite_self]
    · rcases hs with hs | ⟨z, hz⟩ | ⟨hs1, hs2⟩
      · exact absurd ⟨i, y, f, h1, h2⟩ hs
      · rw [hz] at hh; simp [holds] at hh
      · simp [varAssign, hh, hs1, hs2, hr, he]

/-- Violated: otherwise the argument is read after it has been destroyed. -/
theorem c140_variant_assign_violated (ctor move : Bool) (i j : Nat) (y : V) (f : V → V) (hij : i ≠ j)
    (h : ctor = true ∨ move = false) : varAssign ctor move j (.own i f) (some (i, y)) = .ub := by
  have hh : holds j (some (i, y)) = false := by simpa [holds] using hij
  have hc : (ctor || !move) = true := by rcases h with h | h <;> simp [h]
  simp [varAssign, hh, hc, varEmplace, destroy, construct, read]

/-- emplace with arguments that are not in the object gives the new value, whatever the object held before. -/
theorem c140_emplace_partial (t : Traits) (moved : V → V) (j : Nat) (x : V) :
    (∀ c : Cell V, IsOptional c → optEmplace (.outside x) c = .ok (some (0, x))) ∧
    (∀ c : Cell V, IsExpected c → expEmplace t moved (.outside x) c = .ok (some (0, x)) ∧
      expEmplaceList t moved (.outside x) c = .ok (some (0, x))) ∧
    (∀ c : Cell V, varEmplace j (.outside x) c = .ok (some (j, x))) := by
  refine ⟨fun c hc => ?_, fun c hc => ?_, fun c => ?_⟩
  · cases hc <;> simp [optEmplace, destroy, construct, read]
  · cases hc <;> cases hn : t.nothrowCtor <;>
      simp [expEmplace, expEmplaceList, hn, has, moveErr, destroy, construct, read, assign]
  · cases c <;> simp [varEmplace, destroy, construct, read]

/-- Violated: with an argument in the object, emplace reads what it has destroyed — for optional, expected and variant, whatever they
hold and whichever types are involved; but not the emplace of expected that takes a list, if the object holds a value. -/
theorem c140_emplace_violated (t : Traits) (moved : V → V) (j : Nat) (c : Cell V) (r : Arg V) (h : Inside c r) :
    (IsOptional c → optEmplace r c = .ub) ∧
    (IsExpected c → expEmplace t moved r c = .ub ∧
      ∀ x, Refers c r x → expEmplaceList t moved r c = if has c then .ok (some (0, x)) else .ub) ∧
    varEmplace j r c = .ub := by
  obtain ⟨i, y, f, rfl, rfl⟩ := h
  refine ⟨fun _ => ?_, fun hc => ⟨?_, fun x hx => ?_⟩, ?_⟩
  · simp [optEmplace, destroy, construct, read]
  · cases hc <;> cases hn : t.nothrowCtor <;> simp [expEmplace, hn, has, moveErr, destroy, construct, read]
  · have hr := read_refers hx
    cases hc <;> cases hn : t.nothrowCtor <;>
      simp [expEmplaceList, hn, has, moveErr, destroy, construct, read, assign] at hr ⊢ <;> exact hr
  · simp [varEmplace, destroy, construct, read]

/-- push_back and push_front of an element of the same SlidingBuffer do the same as with a copy of it (C23), full or not, also for the
element that is dropped. -/
theorem c140_sliding_buffer (b : SlidingBuffer.Buf V) (i : Nat) (x : V) (h : SlidingBuffer.index b i = .ok x) :
    pushBackOwn b (place b i) = SlidingBuffer.pushBack b x ∧
    pushFrontOwn b (place b i) = SlidingBuffer.pushFront b x := by
  have hp : SlidingBuffer.subscript b.storage (place b i) = .ok x := by
    rw [← h]; unfold SlidingBuffer.index place; dsimp only; split <;> rfl
  refine ⟨?_, ?_⟩
  · unfold pushBackOwn SlidingBuffer.pushBack
    rw [hp]; rfl
  · unfold pushFrontOwn SlidingBuffer.pushFront
    dsimp only
    split
    · simp only [hp, Res.bind_ok]
    · split <;> simp only [hp, Res.bind_ok]

/-! ## Examples -/

/-- The error of an expected<std::string, std::string> made its value, and that of an expected<int, int>. -/
example : expAssign ⟨false, true, false⟩ (fun _ => 0) (.own 1 id) (some (1, 7)) = (.ub : Res (Cell Nat)) ∧
    expAssign ⟨true, true, true⟩ (fun _ => 0) (.own 1 id) (some (1, 7)) = (.ok (some (0, 7)) : Res (Cell Nat)) := by
  decide +kernel
example : Refers (some (1, 7)) (.own 1 (· + 1)) 8 := .own 1 7 (· + 1)
example : Inside (some (1, 7)) (.own 1 (· + 1)) := ⟨1, 7, _, rfl, rfl⟩
example : varAssign false true 0 (.own 1 (· + 1)) (some (1, 7)) = (.ok (some (0, 8)) : Res (Cell Nat)) := by decide +kernel
example : varAssign true true 0 (.own 1 (· + 1)) (some (1, 7)) = (.ub : Res (Cell Nat)) := by decide +kernel
/-- A full buffer with the elements 2, 3, 1: push_back of the first one, which is dropped. -/
example : SlidingBuffer.index (⟨1, 1, true, [1, 2, 3]⟩ : SlidingBuffer.Buf Nat) 0 = .ok 2 ∧
    pushBackOwn (⟨1, 1, true, [1, 2, 3]⟩ : SlidingBuffer.Buf Nat) 1 = .ok ⟨2, 2, true, [1, 2, 3]⟩ := by decide +kernel

end Gul14.OwnContent
