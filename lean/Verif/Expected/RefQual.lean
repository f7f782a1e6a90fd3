import Verif.Expected.Monadic

/-!
# The overloads of the monadic operations of expected (C121)

and_then, map (transform), map_error (transform_error) and or_else exist for lvalues, const
lvalues, rvalues and const rvalues (expected.h:1203-1415).  All four call the same function
template with the object as a forwarding reference.  Here the object itself is part of the state,
so that moving from it and changes by the user's function are visible.

Simplification: copy and move constructions do not throw (C38, C100 and C101 treat those that do).
-/
namespace Gul14.Exp.Overloads
open Spec

/-- The four overloads: `&`, `const &`, `&&` and `const &&`, expected.h:1203-1238. -/
inductive Qual where
  | lref | clref | rref | crref
  deriving DecidableEq

/-- The overload gets the object as const, expected.h:1209-1214. -/
def Qual.isConst : Qual → Bool
  | .clref | .crref => true
  | .lref | .rref => false

/-- What the move constructors of `T` and `E` leave in their source.  Language semantics of
std::move in expected.h:1862-1869, 1911-1918. -/
structure Left (T E : Type) where
  val : T → T
  err : E → E

/-- A function of the user with a parameter: it sees how the argument is passed, may have any
effect on the world, may throw, and leaves something in its argument.  The calls of `invoke`
in expected.h:1939-2144. -/
def Fn (W A B : Type) : Type := Qual → A → W → Res B × A × W

/-- A function of the user without parameters. The calls of `invoke` in expected.h:1951-2011. -/
abbrev Fn0 (W B : Type) : Type := Call W B

/-- A computation with the object `*this` and the world as its state. Language semantics of the
functions in expected.h:1939-2144. -/
def M (T E W α : Type) : Type := Obj T E → W → Res α × Obj T E × W

variable {T U E F W α β : Type}

instance : Monad (M T E W) where
  pure a := fun o w => (.ok a, o, w)
  bind x f := fun o w =>
    match x o w with
    | (.ok a, o, w) => f a o w
    | (.throw e, o, w) => (.throw e, o, w)
    | (.terminate, o, w) => (.terminate, o, w)
    | (.ub, o, w) => (.ub, o, w)
    | (.diverge, o, w) => (.diverge, o, w)

/-- `exp.has_value()`, expected.h:1871. -/
def has : M T E W Bool := fun o w => (.ok o.has, o, w)

/-- `invoke(f, *std::forward<Exp>(exp))`: operator* asserts that there is a value; a const argument
stays as it is. expected.h:1939-1971, 1846-1869. -/
def callVal (q : Qual) (f : Fn W T β) : M T E W β := fun o w =>
  if o.has then
    match o.cell with
    | .val t =>
      match f q t w with
      | (r, t', w') => (r, ⟨true, .val (if q.isConst then t else t')⟩, w')
    | _ => (.ub, o, w)
  else (.terminate, o, w)

/-- `invoke(f, std::forward<Exp>(exp).error())`: error() asserts that there is no value.
expected.h:2013-2144, 1903-1918. -/
def callErr (q : Qual) (f : Fn W E β) : M T E W β := fun o w =>
  if !o.has then
    match o.cell with
    | .err e =>
      match f q e w with
      | (r, e', w') => (r, ⟨false, .err (if q.isConst then e else e')⟩, w')
    | _ => (.ub, o, w)
  else (.terminate, o, w)

/-- `invoke(f)`, expected.h:1951-1959, 1989-2011. -/
def call0 (f : Fn0 W β) : M T E W β := fun o w =>
  match f w with
  | (r, w') => (r, o, w')

/-- A new `T` from `*std::forward<Exp>(exp)`: moved for `&&`, else copied.
expected.h:1846-1869, 2022, 2033. -/
def newFromVal (L : Left T E) (q : Qual) : M T E W T := fun o w =>
  if o.has then
    match o.cell with
    | .val t => (.ok t, ⟨true, .val (if q = .rref then L.val t else t)⟩, w)
    | _ => (.ub, o, w)
  else (.terminate, o, w)

/-- A new `E` from `std::forward<Exp>(exp).error()`: moved for `&&`, else copied.
expected.h:1903-1918, 1948, 1958. -/
def newFromErr (L : Left T E) (q : Qual) : M T E W E := fun o w =>
  if !o.has then
    match o.cell with
    | .err e => (.ok e, ⟨false, .err (if q = .rref then L.err e else e)⟩, w)
    | _ => (.ub, o, w)
  else (.terminate, o, w)

/-- A new object from `std::forward<Exp>(exp)`: the move constructor for `&&`, else the copy
constructor. expected.h:2132, 2141-2143, 856-927. -/
def newFromExp (L : Left T E) (q : Qual) : M T E W (Obj T E) := fun o w =>
  (.ok o, ⟨o.has, match o.cell with
    | .val t => .val (if q = .rref then L.val t else t)
    | .err e => .err (if q = .rref then L.err e else e)
    | .raw => .raw⟩, w)

variable (L : Left T E) (q : Qual)

/-- and_then_impl, expected.h:1939-1949. -/
def andThen (f : Fn W T (Obj U E)) : M T E W (Obj U E) := do
  if ← has then callVal q f else return mkErr (← newFromErr L q)

/-- expected_map_impl, expected.h:1961-1971. -/
def map (f : Fn W T U) : M T E W (Obj U E) := do
  if ← has then return mkVal (← callVal q f) else return mkErr (← newFromErr L q)

/-- expected_map_impl for a function without result, expected.h:1973-1987. -/
def mapToVoid (f : Fn W T Unit) : M T E W (VObj E) := do
  if ← has then
    callVal q f
    return mkVoid
  else return mkErr (← newFromErr L q)

/-- map_error_impl, expected.h:2013-2024. -/
def mapError (f : Fn W E F) : M T E W (Obj T F) := do
  if ← has then return mkVal (← newFromVal L q) else return mkErr (← callErr q f)

/-- map_error_impl for a function without result, expected.h:2025-2038. -/
def mapErrorUnit (f : Fn W E Unit) : M T E W (Obj T Unit) := do
  if ← has then return mkVal (← newFromVal L q)
  else
    callErr q f
    return mkErr ()

/-- or_else_impl, expected.h:2126-2134. -/
def orElse (f : Fn W E (Obj T E)) : M T E W (Obj T E) := do
  if ← has then newFromExp L q else callErr q f

/-- or_else_impl for a function without result, expected.h:2136-2144: the function gets
`std::forward<Exp>(exp).error()`, and afterwards the result is made from
`std::forward<Exp>(exp)`. -/
def orElseUnit (f : Fn W E Unit) : M T E W (Obj T E) := do
  if ← has then newFromExp L q
  else
    callErr q f
    newFromExp L q

/-- value_or(), expected.h:1920-1931: two overloads, `const &` (also for `&` and `const &&`) and
`&&`. -/
def valueOr (v : T) : M T E W T := do
  if ← has then newFromVal L q else return v

/-- and_then_impl for void, expected.h:1951-1959. -/
def andThenVoid (L : Left Empty E) (q : Qual) (f : Fn0 W (Obj U E)) : M Empty E W (Obj U E) := do
  if ← has then call0 f else return mkErr (← newFromErr L q)

/-- expected_map_impl for void, expected.h:1989-1997. -/
def mapVoid (L : Left Empty E) (q : Qual) (f : Fn0 W U) : M Empty E W (Obj U E) := do
  if ← has then return mkVal (← call0 f) else return mkErr (← newFromErr L q)

/-- expected_map_impl for void and a function without result, expected.h:1999-2011. -/
def mapVoidVoid (L : Left Empty E) (q : Qual) (f : Fn0 W Unit) : M Empty E W (VObj E) := do
  if ← has then
    call0 f
    return mkVoid
  else return mkErr (← newFromErr L q)

/-- map_error_impl for void, expected.h:2039-2050. -/
def mapErrorVoid (q : Qual) (f : Fn W E F) : M Empty E W (VObj F) := do
  if ← has then return mkVoid else return mkErr (← callErr q f)

/-- map_error_impl for void and a function without result, expected.h:2051-2064. -/
def mapErrorVoidUnit (q : Qual) (f : Fn W E Unit) : M Empty E W (VObj Unit) := do
  if ← has then return mkVoid
  else
    callErr q f
    return mkErr ()

end Gul14.Exp.Overloads

namespace Gul14.Spec
open Exp Exp.Overloads
variable {T E W α : Type}

/-- The user's function `f` does with its argument what the plain function `g` does, however the
argument is passed; it may leave anything in the argument. -/
def Does {A B : Type} (f : Fn W A B) (g : A → Call W B) : Prop :=
  ∀ q a w, (f q a w).1 = (g a w).1 ∧ (f q a w).2.2 = (g a w).2

/-- It leaves the argument as it is. -/
def Keeps {A B : Type} (f : Fn W A B) : Prop := ∀ q a w, (f q a w).2.1 = a

/-- Run on object `o`, the operation gives the same outcome and world as `c`, which does not touch
the object. -/
def SameOutcome (x : M T E W α) (o : Obj T E) (c : Call W α) : Prop :=
  ∀ w, (x o w).1 = (c w).1 ∧ (x o w).2.2 = (c w).2

/-- The operation leaves object `o` as it is. -/
def LeavesAlone (x : M T E W α) (o : Obj T E) : Prop := ∀ w, (x o w).2.1 = o

end Gul14.Spec

namespace Gul14.Exp.Overloads
open Spec
variable {T U E F W α β : Type}

theorem bind_apply (x : M T E W α) (f : α → M T E W β) (o : Obj T E) (w : W) :
    (x >>= f) o w = match x o w with
      | (.ok a, o, w) => f a o w
      | (.throw e, o, w) => (.throw e, o, w)
      | (.terminate, o, w) => (.terminate, o, w)
      | (.ub, o, w) => (.ub, o, w)
      | (.diverge, o, w) => (.diverge, o, w) := rfl

theorem pure_apply (a : α) (o : Obj T E) (w : W) : (pure a : M T E W α) o w = (.ok a, o, w) := rfl

theorem call_bind_apply (x : Call W α) (f : α → Call W β) (w : W) :
    (x >>= f) w = match x w with
      | (.ok a, w) => f a w
      | (.throw e, w) => (.throw e, w)
      | (.terminate, w) => (.terminate, w)
      | (.ub, w) => (.ub, w)
      | (.diverge, w) => (.diverge, w) := rfl

theorem call_pure_apply (a : α) (w : W) : (pure a : Call W α) w = (.ok a, w) := rfl

theorem ite_apply' (c : Bool) (x y : M T E W α) (o : Obj T E) (w : W) :
    (if c = true then x else y) o w = if c = true then x o w else y o w := by
  cases c <;> rfl

/-- What a function does that is called with an argument, in terms of the plain function. -/
theorem does_eq {f : Fn W α β} {g : α → Call W β} (h : Does f g) (q : Qual) (a : α) (w : W) :
    f q a w = ((g a w).1, (f q a w).2.1, (g a w).2) := by
  rw [← (h q a w).1, ← (h q a w).2]

variable (L : Left T E) (q : Qual)

theorem andThen_agrees (o : Obj T E) (c : Except E T) (h : Holds o c)
    {f : Fn W T (Obj U E)} {f' : T → Call W (Obj U E)} (hf : Does f f') :
    SameOutcome (andThen L q f) o (Exp.andThen o f') := by
  cases h with
  | val t =>
    intro w
    simp only [andThen, bind_apply, has, ite_apply', callVal, if_true, Exp.andThen, deref,
      Call.lift_ok_bind]
    exact hf q t w
  | err e => intro w; exact ⟨rfl, rfl⟩

/-- Every overload gives the result and the side effects of the operation of C36 on the same
content, whatever the function leaves in its argument: and_then, map, map_error, or_else with a
function that returns an expected, and value_or. -/
theorem c121_same_result (o : Obj T E) (c : Except E T) (h : Holds o c)
    {f : Fn W T (Obj U E)} {f' : T → Call W (Obj U E)} (hf : Does f f')
    {g : Fn W T U} {g' : T → Call W U} (hg : Does g g')
    {g0 : Fn W T Unit} {g0' : T → Call W Unit} (hg0 : Does g0 g0')
    {k : Fn W E F} {k' : E → Call W F} (hk : Does k k')
    {k0 : Fn W E Unit} {k0' : E → Call W Unit} (hk0 : Does k0 k0')
    {r : Fn W E (Obj T E)} {r' : E → Call W (Obj T E)} (hr : Does r r') (d : T) :
    SameOutcome (andThen L q f) o (Exp.andThen o f') ∧
    SameOutcome (map L q g) o (Exp.map o g') ∧
    SameOutcome (mapToVoid L q g0) o (Exp.mapToVoid o g0') ∧
    SameOutcome (mapError L q k) o (Exp.mapError o k') ∧
    SameOutcome (mapErrorUnit L q k0) o (Exp.mapErrorUnit o k0') ∧
    SameOutcome (orElse L q r) o (Exp.orElse o r') ∧
    SameOutcome (W := W) (valueOr L q d) o (Call.lift (Exp.valueOr o d)) := by
  refine ⟨andThen_agrees L q o c h hf, ?_⟩
  cases h with
  | val t =>
    refine ⟨?_, ?_, ?_, ?_, ?_, ?_⟩ <;> intro w
    · simp only [map, bind_apply, has, ite_apply', callVal, if_true, Exp.map, deref,
        Call.lift_ok_bind, call_bind_apply]
      rw [does_eq hg q t w]
      rcases g' t w with ⟨_ | _ | _ | _ | _, w'⟩ <;> exact ⟨rfl, rfl⟩
    · simp only [mapToVoid, bind_apply, has, ite_apply', callVal, if_true, Exp.mapToVoid, deref,
        Call.lift_ok_bind, call_bind_apply]
      rw [does_eq hg0 q t w]
      rcases g0' t w with ⟨_ | _ | _ | _ | _, w'⟩ <;> exact ⟨rfl, rfl⟩
    · exact ⟨rfl, rfl⟩
    · exact ⟨rfl, rfl⟩
    · exact ⟨rfl, rfl⟩
    · exact ⟨rfl, rfl⟩
  | err e =>
    refine ⟨?_, ?_, ?_, ?_, ?_, ?_⟩ <;> intro w
    · exact ⟨rfl, rfl⟩
    · exact ⟨rfl, rfl⟩
    · simp only [mapError, bind_apply, has, ite_apply', callErr, Exp.mapError, error,
        Call.lift_ok_bind, call_bind_apply, Bool.false_eq_true, if_false, Bool.not_false, if_true]
      rw [does_eq hk q e w]
      rcases k' e w with ⟨_ | _ | _ | _ | _, w'⟩ <;> exact ⟨rfl, rfl⟩
    · simp only [mapErrorUnit, bind_apply, has, ite_apply', callErr, Exp.mapErrorUnit, error,
        Call.lift_ok_bind, call_bind_apply, Bool.false_eq_true, if_false, Bool.not_false, if_true]
      rw [does_eq hk0 q e w]
      rcases k0' e w with ⟨_ | _ | _ | _ | _, w'⟩ <;> exact ⟨rfl, rfl⟩
    · simp only [orElse, bind_apply, has, ite_apply', callErr, Exp.orElse, error,
        Call.lift_ok_bind, Bool.false_eq_true, if_false, Bool.not_false, if_true]
      exact hr q e w
    · exact ⟨rfl, rfl⟩

/-- The same for expected<void, E>. -/
theorem c121_same_result_void (L : Left Empty E) (o : VObj E) (c : Option E) (h : HoldsVoid o c)
    (f : Fn0 W (Obj U E)) (g : Fn0 W U) (g0 : Fn0 W Unit)
    {k : Fn W E F} {k' : E → Call W F} (hk : Does k k')
    {k0 : Fn W E Unit} {k0' : E → Call W Unit} (hk0 : Does k0 k0')
    {r : Fn W E (VObj E)} {r' : E → Call W (VObj E)} (hr : Does r r') :
    SameOutcome (andThenVoid L q f) o (Exp.andThenVoid o f) ∧
    SameOutcome (mapVoid L q g) o (Exp.mapVoid o g) ∧
    SameOutcome (mapVoidVoid L q g0) o (Exp.mapVoidVoid o g0) ∧
    SameOutcome (mapErrorVoid q k) o (Exp.mapErrorVoid o k') ∧
    SameOutcome (mapErrorVoidUnit q k0) o (Exp.mapErrorVoidUnit o k0') ∧
    SameOutcome (orElse L q r) o (Exp.orElse o r') := by
  cases h with
  | void =>
    refine ⟨?_, ?_, ?_, ?_, ?_, ?_⟩ <;> intro w
    · exact ⟨rfl, rfl⟩
    · simp only [mapVoid, bind_apply, has, ite_apply', call0, if_true, Exp.mapVoid,
        call_bind_apply]
      rcases g w with ⟨_ | _ | _ | _ | _, w'⟩ <;> exact ⟨rfl, rfl⟩
    · simp only [mapVoidVoid, bind_apply, has, ite_apply', call0, if_true, Exp.mapVoidVoid,
        call_bind_apply]
      rcases g0 w with ⟨_ | _ | _ | _ | _, w'⟩ <;> exact ⟨rfl, rfl⟩
    · exact ⟨rfl, rfl⟩
    · exact ⟨rfl, rfl⟩
    · exact ⟨rfl, rfl⟩
  | err e =>
    refine ⟨?_, ?_, ?_, ?_, ?_, ?_⟩ <;> intro w
    · exact ⟨rfl, rfl⟩
    · exact ⟨rfl, rfl⟩
    · exact ⟨rfl, rfl⟩
    · simp only [mapErrorVoid, bind_apply, has, ite_apply', callErr, Exp.mapErrorVoid, error,
        Call.lift_ok_bind, call_bind_apply, Bool.false_eq_true, if_false, Bool.not_false, if_true]
      rw [does_eq hk q e w]
      rcases k' e w with ⟨_ | _ | _ | _ | _, w'⟩ <;> exact ⟨rfl, rfl⟩
    · simp only [mapErrorVoidUnit, bind_apply, has, ite_apply', callErr, Exp.mapErrorVoidUnit,
        error, Call.lift_ok_bind, call_bind_apply, Bool.false_eq_true, if_false, Bool.not_false,
        if_true]
      rw [does_eq hk0 q e w]
      rcases k0' e w with ⟨_ | _ | _ | _ | _, w'⟩ <;> exact ⟨rfl, rfl⟩
    · simp only [orElse, bind_apply, has, ite_apply', callErr, Exp.orElse, error,
        Call.lift_ok_bind, Bool.false_eq_true, if_false, Bool.not_false, if_true]
      exact hr q e w

/-- or_else with a function without result gives the result and the side effects of C36 on the
same content, if the function leaves its argument as it is or the object is const or has a
value. -/
theorem c121_or_else_void_partial (o : Obj T E) (c : Except E T) (h : Holds o c)
    {k : Fn W E Unit} {k' : E → Call W Unit} (hk : Does k k')
    (hq : (q = .clref ∨ q = .crref) ∨ Keeps k ∨ o.has = true) :
    SameOutcome (orElseUnit L q k) o (Exp.orElseUnit o k') := by
  replace hq : q.isConst = true ∨ Keeps k ∨ o.has = true :=
    hq.imp_left fun h => by rcases h with rfl | rfl <;> rfl
  cases h with
  | val t => intro w; exact ⟨rfl, rfl⟩
  | err e =>
    intro w
    have he : (if q.isConst = true then e else (k q e w).2.1) = e := by
      rcases hq with hq | hq | hq
      · simp [hq]
      · rw [hq q e w]; simp
      · simp at hq
    simp only [orElseUnit, bind_apply, has, ite_apply', callErr, newFromExp, Exp.orElseUnit, error,
      Call.lift_ok_bind, call_bind_apply, Bool.false_eq_true, if_false, Bool.not_false, if_true, he]
    rw [does_eq hk q e w]
    rcases k' e w with ⟨_ | _ | _ | _ | _, w'⟩ <;> exact ⟨rfl, rfl⟩

/-- But on an rvalue, a function that takes the error by value (and so moves it out of the object)
makes or_else return the moved-from error: for every error that moving changes, the result differs
from what the const overload returns for the same function. -/
theorem c121_or_else_void_violated (e : E) (he : L.err e ≠ e) (w : W) :
    ∃ k : Fn W E Unit, Does k (fun _ => (pure () : Call W Unit)) ∧
      (orElseUnit L .rref k ⟨false, .err e⟩ w).1 = .ok ⟨false, .err (L.err e)⟩ ∧
      (orElseUnit L .clref k ⟨false, .err e⟩ w).1 = .ok ⟨false, .err e⟩ ∧
      (orElseUnit L .rref k ⟨false, .err e⟩ w).1 ≠ (orElseUnit L .clref k ⟨false, .err e⟩ w).1 := by
  refine ⟨fun q a w => (.ok (), (if q = .rref then L.err a else a), w), fun _ _ _ => ⟨rfl, rfl⟩,
    rfl, rfl, ?_⟩
  show (Res.ok (⟨false, .err (L.err e)⟩ : Obj T E)) ≠ .ok ⟨false, .err e⟩
  simpa using he

/-- The overloads for const objects leave the object as it is, whatever the functions do. -/
theorem c121_const_untouched (hq : q = .clref ∨ q = .crref) (o : Obj T E) (c : Except E T) (h : Holds o c)
    (f : Fn W T (Obj U E)) (g : Fn W T U) (g0 : Fn W T Unit) (k : Fn W E F) (k0 : Fn W E Unit)
    (r : Fn W E (Obj T E)) (d : T) :
    LeavesAlone (andThen L q f) o ∧ LeavesAlone (map L q g) o ∧ LeavesAlone (mapToVoid L q g0) o ∧
    LeavesAlone (mapError L q k) o ∧ LeavesAlone (mapErrorUnit L q k0) o ∧
    LeavesAlone (orElse L q r) o ∧ LeavesAlone (orElseUnit L q k0) o ∧
    LeavesAlone (W := W) (valueOr L q d) o := by
  replace hq : q.isConst = true := by rcases hq with rfl | rfl <;> rfl
  have hn : q ≠ .rref := by rintro rfl; simp [Qual.isConst] at hq
  cases h with
  | val t =>
    refine ⟨?_, ?_, ?_, ?_, ?_, ?_, ?_, ?_⟩ <;> intro w
    · simp [andThen, bind_apply, has, callVal, hq]
    · simp only [map, bind_apply, has, callVal, hq, if_true]
      rcases g q t w with ⟨_ | _ | _ | _ | _, _, _⟩ <;> rfl
    · simp only [mapToVoid, bind_apply, has, callVal, hq, if_true]
      rcases g0 q t w with ⟨_ | _ | _ | _ | _, _, _⟩ <;> rfl
    all_goals
      simp [mapError, mapErrorUnit, orElse, orElseUnit, valueOr, bind_apply, pure_apply, has,
        newFromVal, newFromExp, hn]
  | err e =>
    refine ⟨?_, ?_, ?_, ?_, ?_, ?_, ?_, ?_⟩ <;> intro w
    · simp [andThen, bind_apply, pure_apply, has, newFromErr, hn]
    · simp [map, bind_apply, pure_apply, has, newFromErr, hn]
    · simp [mapToVoid, bind_apply, pure_apply, has, newFromErr, hn]
    · simp only [mapError, bind_apply, has, callErr, hq, if_true, Bool.false_eq_true, if_false,
        Bool.not_false]
      rcases k q e w with ⟨_ | _ | _ | _ | _, _, _⟩ <;> rfl
    · simp only [mapErrorUnit, bind_apply, has, callErr, hq, if_true, Bool.false_eq_true, if_false,
        Bool.not_false]
      rcases k0 q e w with ⟨_ | _ | _ | _ | _, _, _⟩ <;> rfl
    · simp [orElse, bind_apply, has, callErr, hq]
    · simp only [orElseUnit, bind_apply, has, callErr, newFromExp, hq, if_true, Bool.false_eq_true,
        if_false, Bool.not_false, hn]
      rcases k0 q e w with ⟨_ | _ | _ | _ | _, _, _⟩ <;> rfl
    · rfl

/-- On an lvalue, an operation that does not call the function copies and leaves the object as it
is; one that does call it passes the function the object's own value or error, and the object
afterwards holds what the function left there. -/
theorem c121_lvalue (t : T) (e : E) (f : Fn W T (Obj U E)) (g : Fn W T U) (k : Fn W E F)
    (r : Fn W E (Obj T E)) (k0 : Fn W E Unit) (d : T) :
    (LeavesAlone (andThen L .lref f) ⟨false, .err e⟩ ∧ LeavesAlone (map L .lref g) ⟨false, .err e⟩ ∧
      LeavesAlone (mapError L .lref k) ⟨true, .val t⟩ ∧ LeavesAlone (orElse L .lref r) ⟨true, .val t⟩ ∧
      LeavesAlone (orElseUnit L .lref k0) ⟨true, .val t⟩ ∧
      LeavesAlone (W := W) (valueOr L .lref d) ⟨true, .val t⟩) ∧
    (∀ w, (andThen L .lref f ⟨true, .val t⟩ w).2.1 = ⟨true, .val (f .lref t w).2.1⟩ ∧
      (map L .lref g ⟨true, .val t⟩ w).2.1 = ⟨true, .val (g .lref t w).2.1⟩ ∧
      (mapError L .lref k ⟨false, .err e⟩ w).2.1 = ⟨false, .err (k .lref e w).2.1⟩ ∧
      (orElse L .lref r ⟨false, .err e⟩ w).2.1 = ⟨false, .err (r .lref e w).2.1⟩ ∧
      (orElseUnit L .lref k0 ⟨false, .err e⟩ w).2.1 = ⟨false, .err (k0 .lref e w).2.1⟩) := by
  refine ⟨⟨?_, ?_, ?_, ?_, ?_, ?_⟩, fun w => ⟨?_, ?_, ?_, ?_, ?_⟩⟩
  · intro w; rfl
  · intro w; rfl
  · intro w; rfl
  · intro w; rfl
  · intro w; rfl
  · intro w; rfl
  · rfl
  · simp only [map, bind_apply, has, callVal, if_true]
    rcases g .lref t w with ⟨_ | _ | _ | _ | _, _, _⟩ <;> rfl
  · simp only [mapError, bind_apply, has, callErr, if_true, Bool.false_eq_true, if_false,
      Bool.not_false]
    rcases k .lref e w with ⟨_ | _ | _ | _ | _, _, _⟩ <;> rfl
  · rfl
  · simp only [orElseUnit, bind_apply, has, callErr, newFromExp, if_true, Bool.false_eq_true,
      if_false, Bool.not_false]
    rcases k0 .lref e w with ⟨_ | _ | _ | _ | _, _, _⟩ <;> rfl

/-- On an rvalue, an operation that does not call the function moves the value or the error into
the result; the object keeps its kind of content, with what the move left. -/
theorem c121_rvalue_moves (t : T) (e : E) (f : Fn W T (Obj U E)) (g : Fn W T U) (k : Fn W E F)
    (r : Fn W E (Obj T E)) (k0 : Fn W E Unit) (d : T) (w : W) :
    andThen L .rref f ⟨false, .err e⟩ w = (.ok ⟨false, .err e⟩, ⟨false, .err (L.err e)⟩, w) ∧
    map L .rref g ⟨false, .err e⟩ w = (.ok ⟨false, .err e⟩, ⟨false, .err (L.err e)⟩, w) ∧
    mapError L .rref k ⟨true, .val t⟩ w = (.ok ⟨true, .val t⟩, ⟨true, .val (L.val t)⟩, w) ∧
    orElse L .rref r ⟨true, .val t⟩ w = (.ok ⟨true, .val t⟩, ⟨true, .val (L.val t)⟩, w) ∧
    orElseUnit L .rref k0 ⟨true, .val t⟩ w = (.ok ⟨true, .val t⟩, ⟨true, .val (L.val t)⟩, w) ∧
    valueOr L .rref d ⟨true, .val t⟩ w = (.ok t, ⟨true, .val (L.val t)⟩, w) :=
  ⟨rfl, rfl, rfl, rfl, rfl, rfl⟩

/-- A chain on temporaries, `x.and_then(f).and_then(g)`, in which both calls are on rvalues, does
what the chain of the plain functions does on `x`, so that the monad laws of C36 hold for it. -/
theorem c121_chain {X : Type} (LU : Left U E) (o : Obj T E) (c : Except E T) (h : Holds o c)
    {f : Fn W T (Obj U E)} {f' : T → Call W (Obj U E)} (hf : Does f f') (hr : ∀ t, Returns (f' t))
    {g : Fn W U (Obj X E)} {g' : U → Call W (Obj X E)} (hg : Does g g') (w : W) (p : Obj U E)
    (hp : (andThen L .rref f o w).1 = .ok p) :
    (andThen LU .rref g p (andThen L .rref f o w).2.2).1
      = (Exp.andThen o (fun t => f' t >>= fun p => Exp.andThen p g') w).1 ∧
    (andThen LU .rref g p (andThen L .rref f o w).2.2).2.2
      = (Exp.andThen o (fun t => f' t >>= fun p => Exp.andThen p g') w).2 := by
  obtain ⟨h1, h2⟩ := andThen_agrees L .rref o c h hf w
  rw [hp] at h1
  have hfo : Exp.andThen o f' w = (.ok p, (Exp.andThen o f' w).2) := Prod.ext h1.symm rfl
  have hret : Returns (Exp.andThen o f') := by
    cases h with
    | val t => exact hr t
    | err e =>
      intro w o w' hx
      cases hx
      exact ⟨_, .err e⟩
  obtain ⟨c', hc'⟩ := hret w p _ hfo
  have hl : Exp.andThen o (fun t => f' t >>= fun p => Exp.andThen p g') w
      = Exp.andThen p g' (Exp.andThen o f' w).2 := by
    have := congrFun (show (Exp.andThen o f' >>= fun p => Exp.andThen p g')
      = Exp.andThen o (fun t => f' t >>= fun p => Exp.andThen p g') by cases h <;> rfl) w
    rw [← this, call_bind_apply, hfo]
  rw [hl, h2]
  exact andThen_agrees LU .rref p c' hc' hg _

/-- Strings: moving leaves the empty one. -/
def strings : Left (List Nat) (List Nat) := ⟨fun _ => [], fun _ => []⟩

/-- A function that takes its argument by value, logs it and returns nothing. -/
def logs : Fn (List (List Nat)) (List Nat) Unit :=
  fun q a w => (.ok (), (if q = .rref then [] else a), w ++ [a])

example : Does logs (fun a w => (.ok (), w ++ [a])) := fun _ _ _ => ⟨rfl, rfl⟩
example : Keeps (fun _ a w => (.ok (), a, w ++ [a]) : Fn (List (List Nat)) (List Nat) Unit) :=
  fun _ _ _ => rfl
example : Returns (fun w => (.ok ⟨true, .val 3⟩, w) : Call Nat (Obj Nat Nat)) := by
  intro w o w' h; cases h; exact ⟨_, .val 3⟩

/-- The error "ab" is logged; the result of the rvalue overload carries the empty error, that of
the lvalue overload "ab". -/
example :
    orElseUnit strings .rref logs ⟨false, .err [97, 98]⟩ []
      = (.ok ⟨false, .err []⟩, ⟨false, .err []⟩, [[97, 98]]) ∧
    orElseUnit strings .lref logs ⟨false, .err [97, 98]⟩ []
      = (.ok ⟨false, .err [97, 98]⟩, ⟨false, .err [97, 98]⟩, [[97, 98]]) := by decide +kernel

/-- and_then on an rvalue that holds an error moves the error into the result. -/
example : andThen strings .rref (fun _ t w => (.ok (⟨true, .val t.length⟩ : Obj Nat (List Nat)), [], w))
    ⟨false, .err [97, 98]⟩ (0 : Nat) = (.ok ⟨false, .err [97, 98]⟩, ⟨false, .err []⟩, 0) := by
  decide +kernel

end Gul14.Exp.Overloads
