import Verif.Hexdump.Props

/-!
# What the object returned by hexdump_stream holds, and what can be done with it (C143)

`hexdump_stream(x)` chooses between a helper that refers to the caller's data and one that owns a
copy.  The choice depends on the kind of argument and on the container type.  What the owning helper
does when it is copied is the subject of C69.
-/
namespace Gul14.Hexdump.Helper

/-- The argument: a named container, a named constant, a temporary, a temporary constant. Value
categories of the C++ language; no code in /repo. -/
inductive Arg where
  | lvalue | constLvalue | rvalue | constRvalue
  deriving DecidableEq, Repr

/-- Properties of a container type of integral elements: can it be default-constructed, is its default
constructor user-provided (so that a constant can be default-constructed), can it be copied, can it be
assigned from a constant, can it be assigned from a temporary. Type properties, no code in /repo. -/
structure Cont where
  defaultCtor : Bool
  userDefaultCtor : Bool
  copyCtor : Bool
  moveCtor : Bool
  copyAssign : Bool
  moveAssign : Bool
  deriving DecidableEq, Repr

/-- The template argument ContainerT deduced for `ContainerT&& cont`, hexdump.h:452-457: reference
collapsing for named arguments. -/
inductive Deduced where
  | lref | constLref | plain | constPlain
  deriving DecidableEq, Repr

/-- Deduction for a forwarding reference, hexdump.h:457. -/
def deduce : Arg → Deduced
  | .lvalue => .lref
  | .constLvalue => .constLref
  | .rvalue => .plain
  | .constRvalue => .constPlain

/-- Is `HexdumpParameterForward<..., ContainerT> {}` valid (hexdump.h:454-455)? The defaulted
constructor, hexdump.h:268, is deleted for a reference member `cont_`, for one that cannot be
default-constructed, and for a constant without a user-provided default constructor. -/
def defaultConstructs (c : Cont) : Deduced → Bool
  | .lref => false
  | .constLref => false
  | .plain => c.defaultCtor
  | .constPlain => c.defaultCtor && c.userDefaultCtor

/-- The template arguments of the returned object: is IteratorT a constant, is there a container, is it
a constant. The return types at hexdump.h:422, 438 and 456. -/
structure Kind where
  constIter : Bool
  owns : Bool
  constCont : Bool
  deriving DecidableEq, Repr

/-- `HexdumpParameterForward<const IteratorT>`: the overload for two iterators, hexdump.h:420-426, and
the one for `const ContainerT&`, hexdump.h:436-442. -/
def referring : Kind := ⟨true, false, false⟩

/-- Overload resolution of hexdump_stream(cont) between hexdump.h:436-442 and 452-463: if the
forwarding reference takes part, it is the better match for temporaries. -/
def select (c : Cont) (a : Arg) : Kind :=
  if defaultConstructs c (deduce a) then ⟨false, true, deduce a = .constPlain⟩ else referring

/-- Does the call compile: the owning helper initializes its member from the argument, hexdump.h:284,
by moving or (from a constant) by copying. -/
def callCompiles (c : Cont) (a : Arg) : Bool :=
  if (select c a).owns then (if (select c a).constCont then c.copyCtor else c.moveCtor) else true

/-- The body of the copy assignment, hexdump.h:308-321, compiles: begin_ and end_ are assigned to, and
so is cont_. -/
def copyAssigns (c : Cont) (k : Kind) : Bool :=
  !k.constIter && !k.constCont && (!k.owns || c.copyAssign)

/-- The body of the move assignment, hexdump.h:327-340. -/
def moveAssigns (c : Cont) (k : Kind) : Bool :=
  !k.constIter && !k.constCont && (!k.owns || c.moveAssign)

/-- The copy constructor, hexdump.h:293: default construction of the members, then copy assignment. -/
def copies (c : Cont) (k : Kind) : Bool := (!k.owns || c.defaultCtor) && copyAssigns c k

/-- The move constructor, hexdump.h:299-302. -/
def moves (c : Cont) (k : Kind) : Bool := (!k.owns || c.defaultCtor) && moveAssigns c k

/-- `auto helper = gul14::hexdump_stream(...);`: in C++14 this uses the move constructor (even if the
compiler omits the move); from C++17 on it does not. [class.copy], [dcl.init]; the language standard of
/repo/meson.build:8 is C++14. -/
def named (cpp17 : Bool) (c : Cont) (k : Kind) : Bool := cpp17 || moves c k

/-! ### Printing later -/

/-- What the caller may do with the container between making the helper and printing it: change
elements in place, or let the elements go (destroy it, resize it, end of the full expression for a
temporary). No code in /repo. -/
inductive Event where
  | write (xs : List Int)
  | gone
  deriving DecidableEq, Repr

/-- The caller's elements, if the iterators to them are still valid. -/
def elements (xs : List Int) : List Event → Option (List Int)
  | [] => some xs
  | .write ys :: es => if ys.length = xs.length then elements ys es else none
  | .gone :: _ => none

/-- What operator<<, hexdump.h:351-355, reads through begin_ and end_: the helper's own container
(filled when the helper was made, 284-286) or the caller's. -/
def reads (k : Kind) (xs : List Int) (es : List Event) : Res (List Int) :=
  if k.owns then .ok xs
  else match elements xs es with
    | some ys => .ok ys
    | none => .ub

/-- hexdump_stream(cont, prompt) of a container with the elements `xs`, then the events, then
`dest << helper`: hexdump.h:436-463 and 351-355. -/
def printLater (size : Nat) (c : Cont) (a : Arg) (xs : List Int) (prompt : Str) (es : List Event)
    (dest : Stream) : Res Stream :=
  (reads (select c a) xs es).bind fun data => hexdumpStream size dest data prompt

end Gul14.Hexdump.Helper

namespace Gul14.Spec.HexHelper
open Hexdump.Helper

/-- A type like std::string or std::vector: everything that can be asked for works. -/
def Ordinary (c : Cont) : Prop :=
  c.defaultCtor = true ∧ c.userDefaultCtor = true ∧ c.copyCtor = true ∧ c.moveCtor = true ∧
  c.copyAssign = true ∧ c.moveAssign = true

/-- The elements behind the iterators that the caller has handed out: `Now xs es ys` says that they
are valid and show `ys`. -/
inductive Now : List Int → List Event → List Int → Prop
  | same (xs : List Int) : Now xs [] xs
  | write {xs ys zs : List Int} {es : List Event} :
      ys.length = xs.length → Now ys es zs → Now xs (.write ys :: es) zs

end Gul14.Spec.HexHelper

namespace Gul14.Hexdump.Helper
open Spec.HexHelper

theorem elements_iff (es : List Event) : ∀ xs ys, elements xs es = some ys ↔ Now xs es ys := by
  induction es with
  | nil =>
    intro xs ys
    constructor
    · intro h; cases h; exact .same xs
    · intro h; cases h; rfl
  | cons e es ih =>
    intro xs ys
    cases e with
    | write zs =>
      unfold elements
      by_cases hl : zs.length = xs.length
      · rw [if_pos hl, ih]
        constructor
        · exact .write hl
        · intro h; cases h with
          | write _ h => exact h
      · rw [if_neg hl]
        constructor
        · intro h; cases h
        · intro h; cases h with
          | write h1 _ => exact absurd h1 hl
    | gone =>
      constructor
      · intro h; cases h
      · intro h; cases h

/-- The helper owns its data exactly if the argument is a temporary of a type that can be
default-constructed (as a constant, if it is one); otherwise it refers to the caller's data. -/
theorem c143_owns (c : Cont) (a : Arg) :
    (select c a).owns = true ↔
      (a = .rvalue ∧ c.defaultCtor = true) ∨
      (a = .constRvalue ∧ c.defaultCtor = true ∧ c.userDefaultCtor = true) := by
  cases a <;> rcases c with ⟨d, u, _, _, _, _⟩ <;> cases d <;> cases u <;>
    simp [select, deduce, defaultConstructs, referring]

/-- A helper made from a temporary of a default-constructible type (with a user-provided default
constructor, if the temporary is a constant) prints the elements of that temporary, whatever happens in
the meantime. -/
theorem c143_temporary (size : Nat) (c : Cont) (a : Arg) (hc : c.defaultCtor = true)
    (ha : a = .rvalue ∨ a = .constRvalue ∧ c.userDefaultCtor = true) (xs : List Int)
    (prompt : Str) (es : List Event) (dest : Stream) :
    printLater size c a xs prompt es dest = hexdumpStream size dest xs prompt := by
  rcases ha with rfl | ⟨rfl, hu⟩
  · simp [printLater, reads, select, deduce, defaultConstructs, hc]
  · simp [printLater, reads, select, deduce, defaultConstructs, hc, hu]

/-- A helper made from a named container prints the elements that the container has at that moment. -/
theorem c143_named_container (size : Nat) (c : Cont) (a : Arg) (ha : a = .lvalue ∨ a = .constLvalue)
    (xs ys : List Int) (prompt : Str) (es : List Event) (dest : Stream) (h : Now xs es ys) :
    printLater size c a xs prompt es dest = hexdumpStream size dest ys prompt := by
  have := (elements_iff es xs ys).2 h
  rcases ha with rfl | rfl <;>
    simp [printLater, reads, select, deduce, defaultConstructs, referring, this]

/-- If the elements of the named container are gone, printing is undefined. -/
theorem c143_dangling (size : Nat) (c : Cont) (a : Arg) (ha : a = .lvalue ∨ a = .constLvalue)
    (xs : List Int) (prompt : Str) (es : List Event) (dest : Stream) (h : ∀ ys, ¬ Now xs es ys) :
    printLater size c a xs prompt es dest = .ub := by
  have : elements xs es = none := by
    cases he : elements xs es with
    | none => rfl
    | some ys => exact absurd ((elements_iff es xs ys).1 he) (h ys)
  rcases ha with rfl | rfl <;>
    simp [printLater, reads, select, deduce, defaultConstructs, referring, this]

/-- The temporary of a type that cannot be default-constructed is not kept: the helper can be printed
within the same expression only, although the call compiles. -/
theorem c143_temporary_violated :
    ∃ c : Cont, c.moveCtor = true ∧ c.copyCtor = true ∧ callCompiles c .rvalue = true ∧
      ∀ size xs prompt dest, printLater size c .rvalue xs prompt [.gone] dest = .ub :=
  ⟨⟨false, false, true, true, true, true⟩, rfl, rfl, rfl, fun _ _ _ _ => rfl⟩

/-- With an ordinary container type, every call compiles, and the helper can be copied, moved,
assigned and (in C++14) kept in a variable if the argument is a temporary that is not a constant. -/
theorem c143_copies_partial (c : Cont) (hc : Ordinary c) (a : Arg) :
    callCompiles c a = true ∧
    ((copies c (select c a) = true ∧ moves c (select c a) = true ∧
      copyAssigns c (select c a) = true ∧ moveAssigns c (select c a) = true ∧
      named false c (select c a) = true) ↔ a = .rvalue) := by
  obtain ⟨h1, h2, h3, h4, h5, h6⟩ := hc
  cases a <;>
    simp [callCompiles, copies, moves, copyAssigns, moveAssigns, named, select, deduce,
      defaultConstructs, referring, h1, h2, h3, h4, h5, h6]

/-- The helper for two iterators, and that for a named container of any type, has copy and move
operations that do not compile, because its iterators are constants; in C++14 it cannot even be kept in
a variable. -/
theorem c143_copies_violated (c : Cont) (k : Kind)
    (hk : k = referring ∨ k = select c .lvalue ∨ k = select c .constLvalue) :
    copies c k = false ∧ moves c k = false ∧ copyAssigns c k = false ∧ moveAssigns c k = false ∧
    named false c k = false ∧ named true c k = true := by
  rcases hk with rfl | rfl | rfl <;>
    simp [copies, moves, copyAssigns, moveAssigns, named, select, deduce, defaultConstructs, referring]

/-! ### Examples -/

/-- std::string, std::vector. -/
example : Ordinary ⟨true, true, true, true, true, true⟩ := ⟨rfl, rfl, rfl, rfl, rfl, rfl⟩
/-- A temporary constant std::array is referred to, a temporary constant std::string is copied. -/
example : (select ⟨true, false, true, true, true, true⟩ .constRvalue).owns = false ∧
    (select ⟨true, true, true, true, true, true⟩ .constRvalue).owns = true := by decide
example : Now [1, 2] [.write [1, 3], .write [4, 3]] [4, 3] := .write rfl (.write rfl (.same _))
example : ∀ ys, ¬ Now [1, 2] [.write [1, 3], .gone] ys := by
  intro ys h
  cases h with
  | write _ h => cases h

end Gul14.Hexdump.Helper
