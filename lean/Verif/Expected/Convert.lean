import Verif.Basic

/-!
# C134: conversions into expected<T, E>

Which constructor or assignment of expected<T, E> (expected.h:1444-1648) the compiler takes for an argument, and what the
object holds then.  The types are arbitrary; which of them can be made from which is a parameter.  The value type is not void.
-/
namespace Gul14.Conv

/-! ## Types and arguments -/

/-- A type without const and references. -/
inductive Ty where
  | bool
  | plain (n : Nat)
  /-- in_place_t -/
  | inPlace
  /-- unexpected<E> -/
  | unexp (e : Ty)
  /-- expected<T, E> -/
  | exp (t e : Ty)
  deriving DecidableEq, Repr

/-- The category of an argument: `X&`, `const X&`, `X&&`, `const X&&`. -/
inductive Cat where
  | l | cl | r | cr
  deriving DecidableEq, Repr

/-- An argument. -/
structure Arg where
  ty : Ty
  cat : Cat
  deriving DecidableEq, Repr

/-- The program: std::is_constructible, std::is_convertible, std::is_assignable<T&, U>; the traits of single types. -/
structure World where
  constructible : Ty → Arg → Bool
  convertible : Arg → Ty → Bool
  assignable : Ty → Arg → Bool
  scalar : Ty → Bool
  /-- is_nothrow_copy_constructible -/
  ncc : Ty → Bool
  /-- is_nothrow_move_constructible -/
  nmc : Ty → Bool
  /-- is_move_assignable -/
  ma : Ty → Bool
  /-- is_assignable<T&, T> -/
  selfAssignable : Ty → Bool

/-- expected has an explicit conversion to bool (expected.h:1872), so that a bool can be constructed from it, but not
implicitly. -/
def World.ExplicitBool (W : World) : Prop :=
  ∀ u g c, W.constructible .bool ⟨.exp u g, c⟩ = true ∧ W.convertible ⟨.exp u g, c⟩ .bool = false

/-! ## Specification -/
namespace Spec

/-- What an expected holds after the construction or assignment: a value made from the argument itself; an error made from
the error in the argument; or the value or error, as the argument does. -/
inductive Holds where
  | value | error | same
  deriving DecidableEq, Repr

/-- How the value or error in an argument can be used: it can be moved only from a non-const rvalue. -/
def inner : Cat → Cat
  | .r => .r
  | _ => .cl

/-- The value type takes an expected<u, g>, by itself, in some way. -/
def Wraps (W : World) (T u g : Ty) : Prop :=
  ∃ c, W.constructible T ⟨.exp u g, c⟩ = true ∨ W.convertible ⟨.exp u g, c⟩ T = true

/-- Something of type `X` can be made from `Y` as a part of an argument of the given category: rvalues can also be copied. -/
def Makes (W : World) (X Y : Ty) (c : Cat) : Prop :=
  W.constructible X ⟨Y, .cl⟩ = true ∨ (c = .r ∧ W.constructible X ⟨Y, .r⟩ = true)

end Spec
open Gul14.Conv.Spec

/-! ## The constructors -/

/-- The constructors with one argument: copy and move (expected.h:1417-1418), from unexpected (1444-1479, for const lvalues
and rvalues), from another expected (1493-1543), and from a value (1545-1557).  Each of the last three exists as an explicit
and as an implicit one with opposite conditions. -/
inductive Ctor where
  | copy | move | unexpC | unexpM | otherC | otherM | value
  deriving DecidableEq, Repr

/-- All of them. -/
def ctors : List Ctor := [.copy, .move, .unexpC, .unexpM, .otherC, .otherM, .value]

/-- expected_enable_forward_value, expected.h:323-328. -/
def World.forwardValue (W : World) (T E : Ty) (a : Arg) : Bool :=
  W.constructible T a && a.ty != .inPlace && a.ty != .exp T E && a.ty != .unexp E

/-- expected_enable_from_other, expected.h:330-341; `ur` and `gr` are the categories of the value and error. -/
def World.fromOther (W : World) (T E u g : Ty) (ur gr : Cat) : Bool :=
  W.constructible T ⟨u, ur⟩ && W.constructible E ⟨g, gr⟩ &&
  !W.constructible T ⟨.exp u g, .l⟩ && !W.constructible T ⟨.exp u g, .r⟩ &&
  !W.constructible T ⟨.exp u g, .cl⟩ && !W.constructible T ⟨.exp u g, .cr⟩ &&
  !W.convertible ⟨.exp u g, .l⟩ T && !W.convertible ⟨.exp u g, .r⟩ T &&
  !W.convertible ⟨.exp u g, .cl⟩ T && !W.convertible ⟨.exp u g, .cr⟩ T

/-- The constructor is viable for the argument; a non-const rvalue reference binds to non-const rvalues only.
Conditions of expected.h:1444-1557. -/
def World.viable (W : World) (T E : Ty) (a : Arg) : Ctor → Bool
  | .copy => a.ty == .exp T E
  | .move => a.ty == .exp T E && a.cat == .r
  | .unexpC => match a.ty with
    | .unexp g => W.constructible E ⟨g, .cl⟩
    | _ => false
  | .unexpM => match a.ty with
    | .unexp g => a.cat == .r && W.constructible E ⟨g, .r⟩
    | _ => false
  | .otherC => match a.ty with
    | .exp u g => W.fromOther T E u g .cl .cl
    | _ => false
  | .otherM => match a.ty with
    | .exp u g => a.cat == .r && W.fromOther T E u g .r .r
    | _ => false
  | .value => W.forwardValue T E a

/-- The constructor is explicit, expected.h:1444-1557. -/
def World.explicit (W : World) (T E : Ty) (a : Arg) : Ctor → Bool
  | .copy => false
  | .move => false
  | .unexpC => match a.ty with
    | .unexp g => !W.convertible ⟨g, .cl⟩ E
    | _ => false
  | .unexpM => match a.ty with
    | .unexp g => !W.convertible ⟨g, .r⟩ E
    | _ => false
  | .otherC => match a.ty with
    | .exp u g => !(W.convertible ⟨u, .cl⟩ T && W.convertible ⟨g, .cl⟩ E)
    | _ => false
  | .otherM => match a.ty with
    | .exp u g => !(W.convertible ⟨u, .r⟩ T && W.convertible ⟨g, .r⟩ E)
    | _ => false
  | .value => !W.convertible a T

/-- The reference that the parameter is: for the value constructor `U&&`, that is a reference like the argument. -/
def Ctor.param : Ctor → Cat → Cat
  | .copy, _ => .cl
  | .move, _ => .r
  | .unexpC, _ => .cl
  | .unexpM, _ => .r
  | .otherC, _ => .cl
  | .otherM, _ => .r
  | .value, c => c

/-- Which of two references is the better one for an argument of the category: an rvalue reference for rvalues, the less
const one otherwise.  Language semantics ([over.ics.rank]). -/
def betterRef (p q : Cat) : Cat → Bool
  | .l => p == .l && q == .cl
  | .cl => false
  | .r => (p == .r && (q == .cl || q == .cr)) || (p == .cr && q == .cl)
  | .cr => p == .cr && q == .cl

/-- With equal references: a function is better than a template, and a template for a special class is better than the one
for all types. -/
def Ctor.rank : Ctor → Nat
  | .copy => 2
  | .move => 2
  | .value => 0
  | _ => 1

/-- The better of two viable constructors. -/
def Ctor.better (c d : Ctor) (k : Cat) : Bool :=
  betterRef (c.param k) (d.param k) k || (!betterRef (d.param k) (c.param k) k && d.rank < c.rank)

/-- Overload resolution among some constructors: the one that is better than all others. -/
def choose (l : List Ctor) (k : Cat) : Option Ctor := l.find? fun c => l.all fun d => c == d || c.better d k

/-- `expected<T, E> x(arg);` -/
def World.construct (W : World) (T E : Ty) (a : Arg) : Option Ctor := choose (ctors.filter (W.viable T E a)) a.cat

/-- `expected<T, E> x = arg;`: explicit constructors are left out. -/
def World.convert (W : World) (T E : Ty) (a : Arg) : Option Ctor :=
  choose (ctors.filter fun c => W.viable T E a c && !W.explicit T E a c) a.cat

/-- What the object holds then. -/
def Ctor.holds : Ctor → Holds
  | .copy => .same
  | .move => .same
  | .unexpC => .error
  | .unexpM => .error
  | .otherC => .same
  | .otherM => .same
  | .value => .value

/-! ## Assignment -/

/-- The outcome of `x = arg;`: what it holds then; `hardError`: the chosen function does not compile. -/
inductive Assigned where
  | none
  | hardError
  | holds (h : Holds)
  deriving DecidableEq, Repr

/-- The assignments other than copy and move: a value (expected.h:1559-1618, the two overloads have opposite conditions),
unexpected as a const lvalue (1620-1633) and as an rvalue (1635-1648). -/
inductive Asgn where
  | value | unexpC | unexpM
  deriving DecidableEq, Repr

/-- Conditions of expected.h:1559-1572, 1620-1622, 1635-1637. -/
def World.asgnViable (W : World) (T E : Ty) (a : Arg) : Asgn → Bool
  | .value => a.ty != .exp T E && !(W.scalar T && a.ty == T) && W.constructible T a && W.assignable T a && W.nmc E
  | .unexpC => match a.ty with
    | .unexp g => W.ncc g && W.selfAssignable g
    | _ => false
  | .unexpM => match a.ty with
    | .unexp g => a.cat == .r && W.nmc g && W.ma g
    | _ => false

/-- The better of two of them, as for the constructors. -/
def Asgn.better (c d : Asgn) (k : Cat) : Bool :=
  let p : Asgn → Cat := fun x => match x with
    | .value => k
    | .unexpC => .cl
    | .unexpM => .r
  let rank : Asgn → Nat := fun x => if x = .value then 0 else 1
  betterRef (p c) (p d) k || (!betterRef (p d) (p c) k && rank d < rank c)

/-- The assignment operator that is taken. -/
def World.chooseAsgn (W : World) (T E : Ty) (a : Arg) : Option Asgn :=
  let l := [Asgn.value, .unexpC, .unexpM].filter (W.asgnViable T E a)
  l.find? fun c => l.all fun d => c == d || c.better d a.cat

/-- `x = arg;` for arguments of other types than expected<T, E>; `movable`: expected<T, E> has a move assignment.  If no
operator fits, the argument is converted.  `err() = rhs` (expected.h:1624, 1639) compiles only for the same error type, as the
constructors of unexpected are explicit (154-168). -/
def World.assign (W : World) (T E : Ty) (movable : Bool) (a : Arg) : Assigned :=
  match W.chooseAsgn T E a with
  | some .value => .holds .value
  | some _ => if a.ty = .unexp E then .holds .error else .hardError
  | none =>
    match W.convert T E a with
    | some c => if movable then .holds c.holds else .none
    | none => .none

/-! ## unexpected -/

/-- The constructors of unexpected<E> for an argument of the same type: the implicit copy and move constructors, and the
template that passes its arguments on to the constructor of `E` (expected.h:159-162). -/
inductive UCtor where
  | copy | move | args
  deriving DecidableEq, Repr

/-- `unexpected<E> x(arg);` for an argument of type unexpected<E>, expected.h:148-177. -/
def World.constructUnexp (W : World) (E : Ty) (k : Cat) : Option UCtor :=
  let viable : UCtor → Bool := fun x => match x with
    | .copy => true
    | .move => k == .r
    | .args => W.constructible E ⟨.unexp E, k⟩
  let p : UCtor → Cat := fun x => match x with
    | .copy => .cl
    | .move => .r
    | .args => k
  let rank : UCtor → Nat := fun x => if x = .args then 0 else 1
  let better : UCtor → UCtor → Bool := fun c d =>
    betterRef (p c) (p d) k || (!betterRef (p d) (p c) k && rank d < rank c)
  let l := [UCtor.copy, .move, .args].filter viable
  l.find? fun c => l.all fun d => c == d || better c d

/-! ## Proofs -/

/-- Overload resolution, as a function of which constructors there are. -/
def pick (k : Cat) (b1 b2 b3 b4 b5 b6 b7 : Bool) : Option Ctor :=
  choose ((if b1 then [.copy] else []) ++ ((if b2 then [.move] else []) ++ ((if b3 then [.unexpC] else []) ++
    ((if b4 then [.unexpM] else []) ++ ((if b5 then [.otherC] else []) ++
    ((if b6 then [.otherM] else []) ++ (if b7 then [.value] else []))))))) k

theorem choose_filter (p : Ctor → Bool) (k : Cat) : choose (ctors.filter p) k =
    pick k (p .copy) (p .move) (p .unexpC) (p .unexpM) (p .otherC) (p .otherM) (p .value) := by
  simp only [ctors, List.filter, pick]
  cases p .copy <;> cases p .move <;> cases p .unexpC <;> cases p .unexpM <;> cases p .otherC <;> cases p .otherM <;>
    cases p .value <;> rfl

/-! ## C134 -/

/-- A value (of any type that is not expected, unexpected or in_place_t) gives an expected with a value, if and only if `T` can
be made from it; implicitly if and only if the conversion to `T` is implicit. -/
theorem c134_value (W : World) (T E : Ty) (a : Arg) (h1 : a.ty ≠ .inPlace) (h2 : ∀ g, a.ty ≠ .unexp g)
    (h3 : ∀ u g, a.ty ≠ .exp u g) :
    (W.construct T E a).map Ctor.holds = (if W.constructible T a then some .value else none) ∧
    (W.convert T E a).map Ctor.holds =
      (if W.constructible T a && W.convertible a T then some .value else none) := by
  obtain ⟨ty, cat⟩ := a
  simp only at h1 h2 h3
  cases ty with
  | inPlace => exact absurd rfl h1
  | unexp g => exact absurd rfl (h2 g)
  | exp u g => exact absurd rfl (h3 u g)
  | _ =>
    simp only [World.construct, World.convert, choose_filter, World.viable, World.explicit, World.forwardValue]
    constructor
    · cases W.constructible T ⟨_, cat⟩ <;> cases cat <;> rfl
    · cases W.constructible T ⟨_, cat⟩ <;> cases W.convertible ⟨_, cat⟩ T <;> cases cat <;> rfl

/-- An error, that is an unexpected<G>, gives an expected with an error, if and only if `E` can be made from `G`, and implicitly if
and only if that conversion is implicit; as long as `T` cannot be made from the unexpected itself (or `G` is `E`).  What is missing is that case: see `c134_error_violated`. -/
theorem c134_error_partial (W : World) (T E g : Ty) (c : Cat)
    (hT : g = E ∨ W.constructible T ⟨.unexp g, c⟩ = false) :
    (W.construct T E ⟨.unexp g, c⟩ ≠ none ↔ Makes W E g c) ∧
    (W.convert T E ⟨.unexp g, c⟩ ≠ none ↔
      (W.constructible E ⟨g, .cl⟩ = true ∧ W.convertible ⟨g, .cl⟩ E = true) ∨
      (c = .r ∧ W.constructible E ⟨g, .r⟩ = true ∧ W.convertible ⟨g, .r⟩ E = true)) ∧
    ∀ k, W.construct T E ⟨.unexp g, c⟩ = some k ∨ W.convert T E ⟨.unexp g, c⟩ = some k → k.holds = .error := by
  have hv : W.forwardValue T E ⟨.unexp g, c⟩ = false := by
    unfold World.forwardValue
    rcases hT with rfl | h
    · simp
    · simp [h]
  have n1 : (Ty.unexp g == Ty.exp T E) = false := rfl
  simp only [World.construct, World.convert, choose_filter, World.viable, World.explicit, hv, Makes, n1, Bool.false_and]
  refine ⟨?_, ?_, ?_⟩
  · cases W.constructible E ⟨g, .cl⟩ <;> cases W.constructible E ⟨g, .r⟩ <;> cases c <;> decide
  · cases W.constructible E ⟨g, .cl⟩ <;> cases W.constructible E ⟨g, .r⟩ <;> cases W.convertible ⟨g, .cl⟩ E <;>
      cases W.convertible ⟨g, .r⟩ E <;> cases c <;> decide
  · intro k
    cases W.constructible E ⟨g, .cl⟩ <;> cases W.constructible E ⟨g, .r⟩ <;> cases W.convertible ⟨g, .cl⟩ E <;>
      cases W.convertible ⟨g, .r⟩ E <;> cases c <;> cases k <;> decide

/-- The general claim is wrong: a variable of type unexpected<G> (not const), with `G` other than `E`, gives a value if `T` can
be made from it (like std::any), although it stands for an error and `E` can be made from `G`. -/
theorem c134_error_violated (W : World) (T E g : Ty) (hg : g ≠ E) (hT : W.constructible T ⟨.unexp g, .l⟩ = true) :
    (W.construct T E ⟨.unexp g, .l⟩).map Ctor.holds = some .value := by
  have hv : W.forwardValue T E ⟨.unexp g, .l⟩ = true := by
    unfold World.forwardValue
    have : Ty.unexp g ≠ .unexp E := fun h => hg (by injection h)
    simp [hT, this]
  have n1 : (Ty.unexp g == Ty.exp T E) = false := rfl
  simp only [World.construct, choose_filter, World.viable, hv, n1]
  cases W.constructible E ⟨g, .cl⟩ <;> cases W.constructible E ⟨g, .r⟩ <;> decide

/-- ... but a const variable or a temporary gives the error, if `E` can be made from it. -/
theorem c134_error_const (W : World) (T E g : Ty) :
    (W.constructible E ⟨g, .cl⟩ = true → (W.construct T E ⟨.unexp g, .cl⟩).map Ctor.holds = some .error) ∧
    (W.constructible E ⟨g, .r⟩ = true → (W.construct T E ⟨.unexp g, .r⟩).map Ctor.holds = some .error) := by
  have n1 : (Ty.unexp g == Ty.exp T E) = false := rfl
  simp only [World.construct, choose_filter, World.viable, n1]
  constructor
  · intro h
    rw [h]
    cases W.forwardValue T E ⟨.unexp g, .cl⟩ <;> cases W.constructible E ⟨g, .r⟩ <;> decide
  · intro h
    rw [h]
    cases W.forwardValue T E ⟨.unexp g, .r⟩ <;> cases W.constructible E ⟨g, .cl⟩ <;> decide

theorem not_wraps {W : World} {T u g : Ty} (h : ¬ Wraps W T u g) (c : Cat) :
    W.constructible T ⟨.exp u g, c⟩ = false ∧ W.convertible ⟨.exp u g, c⟩ T = false := by
  constructor
  · cases hc : W.constructible T ⟨.exp u g, c⟩
    · rfl
    · exact absurd ⟨c, .inl hc⟩ h
  · cases hc : W.convertible ⟨.exp u g, c⟩ T
    · rfl
    · exact absurd ⟨c, .inr hc⟩ h

theorem fromOther_eq (W : World) (T E u g : Ty) (ur gr : Cat) (h : ¬ Wraps W T u g) :
    W.fromOther T E u g ur gr = (W.constructible T ⟨u, ur⟩ && W.constructible E ⟨g, gr⟩) := by
  simp [World.fromOther, not_wraps h]

/-- Another expected<U, G>, if `T` cannot be made from it as a whole: the result holds a value if it holds a value and an
error if it holds an error; this works if and only if `T` can be made from `U` and `E` from `G` (both as lvalues, or both as
rvalues for an rvalue), and implicitly if and only if both conversions are implicit.  What is missing is the case of bool: see `c134_bool_violated`. -/
theorem c134_expected_partial (W : World) (T E u g : Ty) (c : Cat) (hn : ¬ Wraps W T u g)
    (hne : Ty.exp u g ≠ .exp T E) :
    (W.construct T E ⟨.exp u g, c⟩ ≠ none ↔
      (W.constructible T ⟨u, .cl⟩ = true ∧ W.constructible E ⟨g, .cl⟩ = true) ∨
      (c = .r ∧ W.constructible T ⟨u, .r⟩ = true ∧ W.constructible E ⟨g, .r⟩ = true)) ∧
    (W.convert T E ⟨.exp u g, c⟩ ≠ none ↔
      ((W.constructible T ⟨u, .cl⟩ = true ∧ W.constructible E ⟨g, .cl⟩ = true) ∧
        (W.convertible ⟨u, .cl⟩ T = true ∧ W.convertible ⟨g, .cl⟩ E = true)) ∨
      (c = .r ∧ (W.constructible T ⟨u, .r⟩ = true ∧ W.constructible E ⟨g, .r⟩ = true) ∧
        (W.convertible ⟨u, .r⟩ T = true ∧ W.convertible ⟨g, .r⟩ E = true))) ∧
    ∀ k, W.construct T E ⟨.exp u g, c⟩ = some k ∨ W.convert T E ⟨.exp u g, c⟩ = some k → k.holds = .same := by
  have hv : W.forwardValue T E ⟨.exp u g, c⟩ = false := by simp [World.forwardValue, not_wraps hn]
  have n1 : (Ty.exp u g == Ty.exp T E) = false := by simp only [beq_eq_false_iff_ne]; exact hne
  simp only [World.construct, World.convert, choose_filter, World.viable, World.explicit, hv, n1, fromOther_eq W T E u g _ _ hn,
    Bool.false_and, ← Bool.and_eq_true]
  refine ⟨?_, ?_, ?_⟩
  · cases W.constructible E ⟨g, .cl⟩ <;> cases W.constructible E ⟨g, .r⟩ <;> cases W.constructible T ⟨u, .cl⟩ <;>
      cases W.constructible T ⟨u, .r⟩ <;> cases c <;> decide
  · generalize (W.constructible T ⟨u, .cl⟩ && W.constructible E ⟨g, .cl⟩) = b1
    generalize (W.constructible T ⟨u, .r⟩ && W.constructible E ⟨g, .r⟩) = b2
    generalize (W.convertible ⟨u, .cl⟩ T && W.convertible ⟨g, .cl⟩ E) = b3
    generalize (W.convertible ⟨u, .r⟩ T && W.convertible ⟨g, .r⟩ E) = b4
    cases b1 <;> cases b2 <;> cases b3 <;> cases b4 <;> cases c <;> decide
  · intro k
    generalize (W.constructible T ⟨u, .cl⟩ && W.constructible E ⟨g, .cl⟩) = b1
    generalize (W.constructible T ⟨u, .r⟩ && W.constructible E ⟨g, .r⟩) = b2
    generalize (W.convertible ⟨u, .cl⟩ T && W.convertible ⟨g, .cl⟩ E) = b3
    generalize (W.convertible ⟨u, .r⟩ T && W.convertible ⟨g, .r⟩ E) = b4
    cases b1 <;> cases b2 <;> cases b3 <;> cases b4 <;> cases c <;> cases k <;> decide

/-- If `T` can be made from the argument as a whole, that is done, whatever `U` and `G` are. -/
theorem c134_wraps (W : World) (T E u g : Ty) (c : Cat) (hT : W.constructible T ⟨.exp u g, c⟩ = true)
    (hne : Ty.exp u g ≠ .exp T E) : W.construct T E ⟨.exp u g, c⟩ = some .value := by
  have hv : W.forwardValue T E ⟨.exp u g, c⟩ = true := by simp [World.forwardValue, hT, hne]
  have n1 : (Ty.exp u g == Ty.exp T E) = false := by simp only [beq_eq_false_iff_ne]; exact hne
  have hf : ∀ a b, W.fromOther T E u g a b = false := by
    intro a b
    unfold World.fromOther
    cases c <;> simp [hT]
  simp only [World.construct, choose_filter, World.viable, hv, n1, hf]
  cases c <;> decide

/-- The general claim is wrong for expected<bool, E>: constructed from an expected<U, G> of another type, even from an
expected<bool, G>, it always holds a value, namely whether the argument holds one.  An error becomes the value false. -/
theorem c134_bool_violated (W : World) (hW : W.ExplicitBool) (E u g : Ty) (c : Cat)
    (hne : Ty.exp u g ≠ .exp .bool E) :
    (W.construct .bool E ⟨.exp u g, c⟩).map Ctor.holds = some .value ∧ W.convert .bool E ⟨.exp u g, c⟩ = none := by
  refine ⟨by rw [c134_wraps W .bool E u g c (hW u g c).1 hne]; rfl, ?_⟩
  have n1 : (Ty.exp u g == Ty.exp .bool E) = false := by simp only [beq_eq_false_iff_ne]; exact hne
  have hf : ∀ a b, W.fromOther .bool E u g a b = false := by intro a b; simp [World.fromOther, (hW u g _).1]
  simp only [World.convert, choose_filter, World.viable, World.explicit, (hW u g c).2, n1, hf, Bool.not_false, Bool.not_true,
    Bool.and_false, Bool.false_and]
  cases c <;> decide

/-- The same type is copied or moved. -/
theorem c134_same (W : World) (T E : Ty) (c : Cat) :
    W.construct T E ⟨.exp T E, c⟩ = some (if c = .r then .move else .copy) ∧
    W.convert T E ⟨.exp T E, c⟩ = some (if c = .r then .move else .copy) := by
  have n1 : (Ty.exp T E == Ty.exp T E) = true := by simp
  have n2 : (Ty.exp T E != Ty.exp T E) = false := by simp
  simp only [World.construct, World.convert, choose_filter, World.viable, World.explicit, World.forwardValue, n1, n2, Bool.false_and,
    Bool.and_false]
  generalize W.fromOther T E T E .cl .cl = b1
  generalize W.fromOther T E T E .r .r = b2
  generalize (W.convertible ⟨T, .cl⟩ T && W.convertible ⟨E, .cl⟩ E) = b3
  generalize (W.convertible ⟨T, .r⟩ T && W.convertible ⟨E, .r⟩ E) = b4
  cases b1 <;> cases b2 <;> cases b3 <;> cases b4 <;> cases c <;> decide

/-- Assignment of a value gives a value: directly, or (for scalar types, or if `T` cannot be assigned from it) by a
conversion. -/
theorem c134_assign_value (W : World) (T E : Ty) (m : Bool) (a : Arg) (h1 : a.ty ≠ .inPlace)
    (h2 : ∀ g, a.ty ≠ .unexp g) (h3 : ∀ u g, a.ty ≠ .exp u g) :
    W.assign T E m a =
      if (W.constructible T a = true ∧ W.assignable T a = true ∧ W.nmc E = true ∧ ¬ (W.scalar T = true ∧ a.ty = T)) ∨
        (m = true ∧ W.constructible T a = true ∧ W.convertible a T = true) then .holds .value else .none := by
  have hc := (c134_value W T E a h1 h2 h3).2
  have h4 : a.ty ≠ .exp T E := h3 T E
  have key : W.chooseAsgn T E a = if W.asgnViable T E a .value then some .value else none := by
    obtain ⟨ty, cat⟩ := a
    cases ty with
    | inPlace => exact absurd rfl h1
    | unexp g => exact absurd rfl (h2 g)
    | exp u g => exact absurd rfl (h3 u g)
    | _ =>
      simp only [World.chooseAsgn, List.filter]
      have e1 : ∀ X, W.asgnViable T E X .unexpC = (match X.ty with | .unexp g => W.ncc g && W.selfAssignable g | _ => false) :=
        fun _ => rfl
      have e2 : ∀ X, W.asgnViable T E X .unexpM = (match X.ty with | .unexp g => X.cat == .r && W.nmc g && W.ma g | _ => false) :=
        fun _ => rfl
      rw [e1, e2]
      cases W.asgnViable T E ⟨_, cat⟩ .value <;> rfl
  unfold World.assign
  rw [key]
  have hv : W.asgnViable T E a .value = true ↔ W.constructible T a = true ∧ W.assignable T a = true ∧ W.nmc E = true ∧
      ¬ (W.scalar T = true ∧ a.ty = T) := by
    simp only [World.asgnViable, Bool.and_eq_true, Bool.not_eq_true', Bool.and_eq_false_iff, bne_iff_ne, ne_eq, h4,
      not_false_iff, true_and, beq_eq_false_iff_ne, not_and]
    constructor
    · rintro ⟨⟨⟨h, i⟩, j⟩, k⟩
      exact ⟨i, j, k, fun hs => by rcases h with h | h; simp [h] at hs; exact h⟩
    · rintro ⟨i, j, k, h⟩
      refine ⟨⟨⟨?_, i⟩, j⟩, k⟩
      cases hs : W.scalar T
      · exact .inl rfl
      · exact .inr (h hs)
  by_cases hx : W.asgnViable T E a .value = true
  · rw [if_pos hx]
    exact (if_pos (Or.inl (hv.1 hx))).symm
  · rw [if_neg hx]
    dsimp only
    have hx' := fun h => hx (hv.2 h)
    by_cases hb : W.constructible T a = true ∧ W.convertible a T = true
    · rw [if_pos (by simpa using hb)] at hc
      cases hk : W.convert T E a with
      | none => simp [hk] at hc
      | some k =>
        rw [hk] at hc
        simp only [Option.map_some, Option.some.injEq] at hc
        cases m
        · refine Eq.trans ?_ (if_neg ?_).symm
          · rfl
          · rintro (h | h)
            · exact hx' h
            · simp at h
        · refine Eq.trans ?_ (if_pos (.inr ⟨rfl, hb⟩)).symm
          simp [hc]
    · rw [if_neg (by simpa using hb)] at hc
      cases hk : W.convert T E a with
      | some k => simp [hk] at hc
      | none =>
        refine Eq.trans ?_ (if_neg ?_).symm
        · rfl
        · rintro (h | h)
          · exact hx' h
          · exact hb h.2

/-- Assignment of an unexpected<E> gives an error, unless `T` can be assigned from it: if it is an rvalue and `E` can be moved
without exceptions, directly, and otherwise at least by a conversion. -/
theorem c134_assign_error_partial (W : World) (T E : Ty) (m : Bool) (c : Cat)
    (hT : W.constructible T ⟨.unexp E, c⟩ = false ∨ W.assignable T ⟨.unexp E, c⟩ = false) :
    (W.assign T E m ⟨.unexp E, c⟩ = .holds .error ∨ W.assign T E m ⟨.unexp E, c⟩ = .none) ∧
    ((W.ncc E = true ∧ W.selfAssignable E = true) ∨ (c = .r ∧ W.nmc E = true ∧ W.ma E = true) ∨
      (m = true ∧ W.constructible E ⟨E, .cl⟩ = true ∧ W.convertible ⟨E, .cl⟩ E = true) →
      W.assign T E m ⟨.unexp E, c⟩ = .holds .error) := by
  have hx : W.asgnViable T E ⟨.unexp E, c⟩ .value = false := by
    unfold World.asgnViable
    rcases hT with h | h <;> simp [h]
  have hv : W.forwardValue T E ⟨.unexp E, c⟩ = false := by simp [World.forwardValue]
  have n1 : (Ty.unexp E == Ty.exp T E) = false := rfl
  have e1 : W.asgnViable T E ⟨.unexp E, c⟩ .unexpC = (W.ncc E && W.selfAssignable E) := rfl
  have e2 : W.asgnViable T E ⟨.unexp E, c⟩ .unexpM = (c == .r && W.nmc E && W.ma E) := rfl
  simp only [World.assign, World.chooseAsgn, World.convert, List.filter, hx, e1, e2, choose_filter, World.viable, World.explicit,
    hv, n1, if_true, Bool.false_and]
  cases W.ncc E <;> cases W.selfAssignable E <;> cases W.nmc E <;> cases W.ma E <;> cases m <;>
    cases W.constructible E ⟨E, .cl⟩ <;> cases W.constructible E ⟨E, .r⟩ <;> cases W.convertible ⟨E, .cl⟩ E <;>
    cases W.convertible ⟨E, .r⟩ E <;> cases c <;> decide

/-- The general claim is wrong: an rvalue unexpected<G> with another error type, like the result of
`make_unexpected("text")` for an expected<T, std::string>, can be used for construction but not for assignment: that does not
compile.  And a variable of type unexpected<E> is assigned as a value if `T` can be made and assigned from it. -/
theorem c134_assign_error_violated (W : World) (T E g : Ty) (m : Bool) :
    (g ≠ E → W.nmc g = true → W.ma g = true → W.constructible E ⟨g, .r⟩ = true →
      (W.construct T E ⟨.unexp g, .r⟩).map Ctor.holds = some .error ∧ W.assign T E m ⟨.unexp g, .r⟩ = .hardError) ∧
    (W.constructible T ⟨.unexp E, .l⟩ = true → W.assignable T ⟨.unexp E, .l⟩ = true → W.nmc E = true →
      T ≠ .unexp E → W.assign T E m ⟨.unexp E, .l⟩ = .holds .value) := by
  constructor
  · intro hg h1 h2 h3
    refine ⟨(c134_error_const W T E g).2 h3, ?_⟩
    have e1 : W.asgnViable T E ⟨.unexp g, .r⟩ .unexpC = (W.ncc g && W.selfAssignable g) := rfl
    have e2 : W.asgnViable T E ⟨.unexp g, .r⟩ .unexpM = true := by
      show (Cat.r == Cat.r && W.nmc g && W.ma g) = true
      simp [h1, h2]
    have hne : ¬ Ty.unexp g = .unexp E := fun h => hg (by injection h)
    have : W.chooseAsgn T E ⟨.unexp g, .r⟩ = some .unexpM := by
      simp only [World.chooseAsgn, List.filter, e1, e2]
      cases W.asgnViable T E ⟨.unexp g, .r⟩ .value <;> cases (W.ncc g && W.selfAssignable g) <;> decide
    simp only [World.assign, this]
    rw [if_neg hne]
  · intro h1 h2 h3 h4
    have hx : W.asgnViable T E ⟨.unexp E, .l⟩ .value = true := by
      have : ¬ Ty.unexp E = T := fun h => h4 h.symm
      simp [World.asgnViable, h1, h2, h3, this]
    have e1 : W.asgnViable T E ⟨.unexp E, .l⟩ .unexpC = (W.ncc E && W.selfAssignable E) := rfl
    have e2 : W.asgnViable T E ⟨.unexp E, .l⟩ .unexpM = false := rfl
    have : W.chooseAsgn T E ⟨.unexp E, .l⟩ = some .value := by
      simp only [World.chooseAsgn, List.filter, hx, e1, e2]
      cases (W.ncc E && W.selfAssignable E) <;> decide
    simp only [World.assign, this]

/-- Copying an unexpected copies the error, if it is const or `E` cannot be made from an unexpected; moving it moves the error. -/
theorem c134_unexpected_partial (W : World) (E : Ty) (k : Cat) :
    (k = .r → W.constructUnexp E k = some .move) ∧
    (k = .cl → W.constructUnexp E k = some .copy) ∧
    (k ≠ .r → W.constructible E ⟨.unexp E, k⟩ = false → W.constructUnexp E k = some .copy) := by
  unfold World.constructUnexp
  refine ⟨?_, ?_, ?_⟩
  · rintro rfl
    cases W.constructible E ⟨.unexp E, .r⟩ <;> simp only [List.filter] <;> decide
  · rintro rfl
    cases W.constructible E ⟨.unexp E, .cl⟩ <;> simp only [List.filter] <;> decide
  · intro h1 h2
    simp only [List.filter, h2]
    cases k <;> first | decide | exact absurd rfl h1

/-- The general claim is wrong: a variable that is not const is not copied, but an error is made from the whole variable, if `E`
can be made from it (like std::any). -/
theorem c134_unexpected_violated (W : World) (E : Ty) (h : W.constructible E ⟨.unexp E, .l⟩ = true) :
    W.constructUnexp E .l = some .args := by
  unfold World.constructUnexp
  simp only [List.filter, h]
  decide

/-! ## Examples -/

/-- int (0), std::string (1), const char* (2), a type like std::any (3) that can be made from everything. -/
def demo : World where
  constructible X a := X == a.ty || (X == .plain 1 && a.ty == .plain 2) || X == .plain 3 ||
    (X == .bool && match a.ty with | .exp _ _ => true | _ => false)
  convertible a X := X == a.ty || (X == .plain 1 && a.ty == .plain 2) || X == .plain 3
  assignable X a := X == a.ty || (X == .plain 1 && a.ty == .plain 2) || X == .plain 3
  scalar X := X == .bool || X == .plain 0 || X == .plain 2
  ncc X := X != .plain 1
  nmc _ := true
  ma _ := true
  selfAssignable _ := true

example : demo.ExplicitBool := fun _ _ _ => ⟨rfl, rfl⟩
example : ¬ Wraps demo (.plain 0) (.plain 0) (.plain 2) := by
  rintro ⟨c, h⟩
  revert h
  cases c <;> decide +kernel
example : demo.constructUnexp (.plain 3) .l = some .args ∧ demo.constructUnexp (.plain 1) .l = some .copy := by decide +kernel
example : demo.construct (.plain 0) (.plain 1) ⟨.unexp (.plain 2), .r⟩ = some .unexpM ∧
    demo.assign (.plain 0) (.plain 1) true ⟨.unexp (.plain 2), .r⟩ = .hardError ∧
    demo.assign (.plain 0) (.plain 1) true ⟨.unexp (.plain 1), .l⟩ = .holds .error ∧
    demo.assign (.plain 0) (.plain 1) true ⟨.plain 0, .r⟩ = .holds .value ∧
    demo.construct (.plain 0) (.plain 1) ⟨.exp (.plain 0) (.plain 2), .l⟩ = some .otherC ∧
    demo.construct (.plain 3) (.plain 1) ⟨.unexp (.plain 2), .l⟩ = some .value ∧
    demo.construct .bool (.plain 1) ⟨.exp .bool (.plain 2), .cl⟩ = some .value := by decide +kernel

end Gul14.Conv
