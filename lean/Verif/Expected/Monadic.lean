import Verif.Expected.Base

/-!
# Monadic operations, observers and comparisons of expected (C36, C37)

Functions passed by the user work on a world `W` (any side effects) and may throw: calling one is
a `Call`.  The const& overloads are modelled; the others differ in whether the source is moved
from.
-/
namespace Gul14.Exp
open Spec

/-- A call of user code: the world afterwards is known also if it throws. -/
def Call (W α : Type) : Type := W → Res α × W

namespace Call
variable {W α β : Type}

instance : Monad (Call W) where
  pure a := fun w => (.ok a, w)
  bind x f := fun w =>
    match x w with
    | (.ok a, w) => f a w
    | (.throw e, w) => (.throw e, w)
    | (.terminate, w) => (.terminate, w)
    | (.ub, w) => (.ub, w)
    | (.diverge, w) => (.diverge, w)

/-- An outcome without user code. -/
def lift (r : Res α) : Call W α := fun w => (r, w)

@[simp] theorem lift_ok_bind (a : α) (f : α → Call W β) : (lift (.ok a) >>= f) = f a := rfl
@[simp] theorem pure_bind' (a : α) (f : α → Call W β) : (pure a >>= f) = f a := rfl

theorem bind_assoc' {γ : Type} (x : Call W α) (f : α → Call W β) (g : β → Call W γ) :
    (x >>= f) >>= g = x >>= fun a => f a >>= g := by
  funext w
  show (match (match x w with
    | (.ok a, w) => f a w
    | (.throw e, w) => (.throw e, w)
    | (.terminate, w) => (.terminate, w)
    | (.ub, w) => (.ub, w)
    | (.diverge, w) => (.diverge, w)) with
    | (.ok a, w) => g a w
    | (.throw e, w) => (.throw e, w)
    | (.terminate, w) => (.terminate, w)
    | (.ub, w) => (.ub, w)
    | (.diverge, w) => (.diverge, w)) = _
  show _ = (match x w with
    | (.ok a, w) => (f a >>= g) w
    | (.throw e, w) => (.throw e, w)
    | (.terminate, w) => (.terminate, w)
    | (.ub, w) => (.ub, w)
    | (.diverge, w) => (.diverge, w))
  generalize x w = r
  obtain ⟨r, w'⟩ := r
  cases r <;> rfl

theorem bind_pure' (x : Call W α) : (x >>= fun a => pure a) = x := by
  funext w
  show (match x w with
    | (.ok a, w) => ((Res.ok a, w) : Res α × W)
    | (.throw e, w) => (.throw e, w)
    | (.terminate, w) => (.terminate, w)
    | (.ub, w) => (.ub, w)
    | (.diverge, w) => (.diverge, w)) = _
  generalize x w = r
  obtain ⟨r, w'⟩ := r
  cases r <;> rfl
end Call

variable {T U X E F W : Type}

/-- expected(in_place, t), expected(t): an object with a value. expected.h:1423-1435. -/
def mkVal (t : T) : Obj T E := ⟨true, .val t⟩
/-- expected(unexpect, e): an object with an error. expected.h:1437-1486. -/
def mkErr (e : E) : Obj T E := ⟨false, .err e⟩

/-- operator*, expected.h:1846-1869: asserts that there is a value. -/
def deref (o : Obj T E) : Res T :=
  if o.has then (match o.cell with | .val t => .ok t | _ => .ub) else .terminate

/-- error(), expected.h:1903-1918: asserts that there is no value. -/
def error (o : Obj T E) : Res E :=
  if !o.has then (match o.cell with | .err e => .ok e | _ => .ub) else .terminate

/-- value(), expected.h:1874-1901: bad_expected_access carrying the error (`.error e`) if there is
no value. -/
def value (o : Obj T E) : Res (Except E T) :=
  if !o.has then (match o.cell with | .err e => .ok (.error e) | _ => .ub)
  else (match o.cell with | .val t => .ok (.ok t) | _ => .ub)

/-- value_or(v), expected.h:1920-1931. -/
def valueOr (o : Obj T E) (v : T) : Res T := if o.has then deref o else .ok v

/-- and_then_impl, expected.h:1939-1949. -/
def andThen (o : Obj T E) (f : T → Call W (Obj U E)) : Call W (Obj U E) :=
  if o.has then do f (← Call.lift (deref o)) else do return mkErr (← Call.lift (error o))

/-- expected_map_impl (map, transform), expected.h:1961-1971. -/
def map (o : Obj T E) (f : T → Call W U) : Call W (Obj U E) :=
  if o.has then do return mkVal (← f (← Call.lift (deref o)))
  else do return mkErr (← Call.lift (error o))

/-- map_error_impl, expected.h:2013-2024. -/
def mapError (o : Obj T E) (f : E → Call W F) : Call W (Obj T F) :=
  if o.has then do return mkVal (← Call.lift (deref o))
  else do return mkErr (← f (← Call.lift (error o)))

/-- map_error_impl for a function without result, expected.h:2025-2038: the error becomes
monostate. -/
def mapErrorUnit (o : Obj T E) (f : E → Call W Unit) : Call W (Obj T Unit) :=
  if o.has then do return mkVal (← Call.lift (deref o))
  else do
    f (← Call.lift (error o))
    return mkErr ()

/-- or_else_impl, expected.h:2126-2134. -/
def orElse (o : Obj T E) (f : E → Call W (Obj T E)) : Call W (Obj T E) :=
  if o.has then pure o else do f (← Call.lift (error o))

/-- or_else_impl for a function without result, expected.h:2136-2144. -/
def orElseUnit (o : Obj T E) (f : E → Call W Unit) : Call W (Obj T E) :=
  if o.has then pure o else do
    f (← Call.lift (error o))
    return o

/-- expected<void, E>: no value is stored. expected.h:546-614. -/
abbrev VObj (E : Type) := Obj Empty E

/-- expected<void, E>() expected.h:553, 584. -/
def mkVoid : VObj E := ⟨true, .raw⟩

/-- expected_map_impl for a function without result, expected.h:1973-1987. -/
def mapToVoid (o : Obj T E) (f : T → Call W Unit) : Call W (VObj E) :=
  if o.has then do
    f (← Call.lift (deref o))
    return mkVoid
  else do return mkErr (← Call.lift (error o))

/-- and_then_impl for void, expected.h:1951-1959. -/
def andThenVoid (o : VObj E) (f : Call W (Obj U E)) : Call W (Obj U E) :=
  if o.has then f else do return mkErr (← Call.lift (error o))

/-- expected_map_impl for void and a function with a result, expected.h:1989-1997. -/
def mapVoid (o : VObj E) (f : Call W U) : Call W (Obj U E) :=
  if o.has then do return mkVal (← f)
  else do return mkErr (← Call.lift (error o))

/-- expected_map_impl for void and a function without result, expected.h:1999-2011. -/
def mapVoidVoid (o : VObj E) (f : Call W Unit) : Call W (VObj E) :=
  if o.has then do
    f
    return mkVoid
  else do return mkErr (← Call.lift (error o))

/-- map_error_impl for void, expected.h:2039-2050. -/
def mapErrorVoid (o : VObj E) (f : E → Call W F) : Call W (VObj F) :=
  if o.has then pure mkVoid
  else do return mkErr (← f (← Call.lift (error o)))

/-- map_error_impl for void and a function without result, expected.h:2051-2064. -/
def mapErrorVoidUnit (o : VObj E) (f : E → Call W Unit) : Call W (VObj Unit) :=
  if o.has then pure mkVoid
  else do
    f (← Call.lift (error o))
    return mkErr ()

end Gul14.Exp

namespace Gul14.Spec
open Exp

/-- An object as C38 leaves it: a value or an error, as the flag says. -/
inductive Holds {T E : Type} : Obj T E → Except E T → Prop where
  | val (t : T) : Holds ⟨true, .val t⟩ (.ok t)
  | err (e : E) : Holds ⟨false, .err e⟩ (.error e)

/-- The same for void: nothing or an error. -/
inductive HoldsVoid {E : Type} : VObj E → Option E → Prop where
  | void : HoldsVoid ⟨true, .raw⟩ none
  | err (e : E) : HoldsVoid ⟨false, .err e⟩ (some e)

end Gul14.Spec

namespace Gul14.Exp
open Spec
variable {T U X E F W : Type}

/-- Every object that C38 allows holds exactly one content. -/
theorem holds_unique {o : Obj T E} {c c' : Except E T} (h : Holds o c) (h' : Holds o c') :
    c = c' := by cases h <;> cases h' <;> rfl

/-- Observers: has_value(), value(), operator*, error(), value_or() tell the content; value() on an
error throws bad_expected_access with that error. -/
theorem c36_observers (o : Obj T E) (d : T) :
    (∀ t, Holds o (.ok t) →
      o.has = true ∧ deref o = .ok t ∧ value o = .ok (.ok t) ∧ valueOr o d = .ok t ∧
      error o = .terminate) ∧
    (∀ e, Holds o (.error e) →
      o.has = false ∧ error o = .ok e ∧ value o = .ok (.error e) ∧ valueOr o d = .ok d ∧
      deref o = .terminate) := by
  constructor
  · rintro t ⟨⟩; simp [deref, value, valueOr, error]
  · rintro e ⟨⟩; simp [deref, value, valueOr, error]

/-- On a value: and_then and map call the function once with the value and return its result (for
map, as a value); map_error and or_else return the value without calling anything. -/
theorem c36_on_value (o : Obj T E) (t : T) (h : Holds o (.ok t)) (f : T → Call W (Obj U E))
    (g : T → Call W U) (g0 : T → Call W Unit) (k : E → Call W F) (k0 : E → Call W Unit)
    (r : E → Call W (Obj T E)) :
    andThen o f = f t ∧
    map o g = (do return ⟨true, .val (← g t)⟩) ∧
    mapToVoid o g0 = (do g0 t; return ⟨true, .raw⟩) ∧
    mapError o k = pure ⟨true, .val t⟩ ∧ mapErrorUnit o k0 = pure ⟨true, .val t⟩ ∧
    orElse o r = pure o ∧ orElseUnit o k0 = pure o := by
  cases h
  exact ⟨rfl, rfl, rfl, rfl, rfl, rfl, rfl⟩

/-- On an error: and_then and map return the error without calling anything; map_error and or_else
call the function once with the error and return its result (for map_error, as an error; a function
without result gives monostate, and for or_else the original object). -/
theorem c36_on_error (o : Obj T E) (e : E) (h : Holds o (.error e)) (f : T → Call W (Obj U E))
    (g : T → Call W U) (g0 : T → Call W Unit) (k : E → Call W F) (k0 : E → Call W Unit)
    (r : E → Call W (Obj T E)) :
    andThen o f = pure ⟨false, .err e⟩ ∧ map o g = pure ⟨false, .err e⟩ ∧
    mapToVoid o g0 = pure ⟨false, .err e⟩ ∧
    mapError o k = (do return ⟨false, .err (← k e)⟩) ∧
    mapErrorUnit o k0 = (do k0 e; return ⟨false, .err ()⟩) ∧
    orElse o r = r e ∧ orElseUnit o k0 = (do k0 e; return o) := by
  cases h
  exact ⟨rfl, rfl, rfl, rfl, rfl, rfl, rfl⟩

/-- expected<void, E> -/
theorem c36_void (o : VObj E) (f : Call W (Obj U E)) (g : Call W U) (g0 : Call W Unit)
    (k : E → Call W F) (k0 : E → Call W Unit) :
    (HoldsVoid o none →
      andThenVoid o f = f ∧ mapVoid o g = (do return ⟨true, .val (← g)⟩) ∧
      mapVoidVoid o g0 = (do g0; return ⟨true, .raw⟩) ∧
      mapErrorVoid o k = pure ⟨true, .raw⟩ ∧ mapErrorVoidUnit o k0 = pure ⟨true, .raw⟩) ∧
    (∀ e, HoldsVoid o (some e) →
      andThenVoid o f = pure ⟨false, .err e⟩ ∧ mapVoid o g = pure ⟨false, .err e⟩ ∧
      mapVoidVoid o g0 = pure ⟨false, .err e⟩ ∧
      mapErrorVoid o k = (do return ⟨false, .err (← k e)⟩) ∧
      mapErrorVoidUnit o k0 = (do k0 e; return ⟨false, .err ()⟩)) := by
  constructor
  · rintro ⟨⟩; exact ⟨rfl, rfl, rfl, rfl, rfl⟩
  · rintro e ⟨⟩; exact ⟨rfl, rfl, rfl, rfl, rfl⟩

/-- The functions of the user return objects that hold something. -/
def Returns (x : Call W (Obj T E)) : Prop := ∀ w o w', x w = (.ok o, w') → ∃ c, Holds o c

/-- Monad laws of and_then, for functions with side effects and exceptions. -/
theorem c36_monad_laws (o : Obj T E) (c : Except E T) (h : Holds o c) (t : T)
    (f : T → Call W (Obj U E)) (g : U → Call W (Obj X E)) :
    andThen (E := E) ⟨true, .val t⟩ f = f t ∧
    andThen o (fun t => (pure ⟨true, .val t⟩ : Call W (Obj T E))) = pure o ∧
    (andThen o f >>= fun p => andThen p g) = andThen o (fun t => f t >>= fun p => andThen p g) := by
  refine ⟨rfl, ?_, ?_⟩
  · cases h <;> rfl
  · cases h <;> rfl

/-- Functor laws of map and map_error, and map in terms of and_then. -/
theorem c36_functor_laws (o : Obj T E) (c : Except E T) (h : Holds o c) (f : T → Call W U)
    (g : U → Call W X) (k : E → Call W F) (l : F → Call W X) :
    map o (fun t => (pure t : Call W T)) = pure o ∧
    (map o f >>= fun p => map p g) = map o (fun t => f t >>= g) ∧
    mapError o (fun e => (pure e : Call W E)) = pure o ∧
    (mapError o k >>= fun p => mapError p l) = mapError o (fun e => k e >>= l) ∧
    map o f = andThen o (fun t => do return ⟨true, .val (← f t)⟩) := by
  cases h with
  | val t =>
    refine ⟨rfl, ?_, rfl, rfl, rfl⟩
    simp only [map, deref, if_true, Call.lift_ok_bind]
    rw [Call.bind_assoc', Call.bind_assoc']
    congr 1
  | err e =>
    refine ⟨rfl, rfl, rfl, ?_, rfl⟩
    simp only [mapError, error, Bool.not_false, if_true, Bool.false_eq_true, if_false,
      Call.lift_ok_bind]
    rw [Call.bind_assoc', Call.bind_assoc']
    congr 1

/-- or_else: laws dual to those of and_then. -/
theorem c36_or_else_laws (o : Obj T E) (c : Except E T) (h : Holds o c) (e : E)
    (f g : E → Call W (Obj T E)) :
    orElse (T := T) ⟨false, .err e⟩ f = f e ∧
    orElse o (fun e => (pure ⟨false, .err e⟩ : Call W (Obj T E))) = pure o ∧
    (orElse o f >>= fun p => orElse p g) = orElse o (fun e => f e >>= fun p => orElse p g) := by
  refine ⟨rfl, ?_, ?_⟩
  · cases h <;> rfl
  · cases h <;> rfl

/-- The results hold a value or an error again, if those of the functions do. -/
theorem c36_results_hold (o : Obj T E) (c : Except E T) (h : Holds o c) (f : T → Call W (Obj U E))
    (hf : ∀ t, Returns (f t)) (g : T → Call W U) (k : E → Call W F) :
    Returns (andThen o f) ∧ Returns (map o g) ∧ Returns (mapError o k) := by
  have hret : ∀ {α : Type} {V G : Type} (x : Call W α) (mk : α → Obj V G),
      (∀ a, ∃ c, Holds (mk a) c) → Returns (x >>= fun a => (pure (mk a) : Call W (Obj V G))) := by
    intro α V G x mk hmk w o w' hx
    replace hx : (match x w with
      | (.ok a, w) => ((Res.ok (mk a), w) : Res (Obj V G) × W)
      | (.throw e, w) => (.throw e, w)
      | (.terminate, w) => (.terminate, w)
      | (.ub, w) => (.ub, w)
      | (.diverge, w) => (.diverge, w)) = (.ok o, w') := hx
    cases hxw : x w with
    | mk r w'' =>
      rw [hxw] at hx
      cases r <;> simp at hx
      rw [← hx.1]; exact hmk _
  have hpure : ∀ {V G : Type} (p : Obj V G), (∃ c, Holds p c) →
      Returns (pure p : Call W (Obj V G)) := by
    intro V G p hp w o w' hx
    replace hx : ((Res.ok p, w) : Res (Obj V G) × W) = (.ok o, w') := hx
    simp at hx
    rw [← hx.1]; exact hp
  cases h with
  | val t => exact ⟨hf t, hret (g t) _ (fun a => ⟨_, .val a⟩), hpure _ ⟨_, .val t⟩⟩
  | err e => exact ⟨hpure _ ⟨_, .err e⟩, hpure _ ⟨_, .err e⟩, hret (k e) _ (fun a => ⟨_, .err a⟩)⟩

/-- A chain with a side effect: the log shows that the second function is not called after an
error. -/
example : ((andThen (⟨true, .val 4⟩ : Obj Nat Nat) (fun t log => (.ok ⟨false, .err (t + 1)⟩, log ++ [t]))
      >>= fun p => andThen p (fun t log => (.ok (⟨true, .val t⟩ : Obj Nat Nat), log ++ [t, t]))) :
    Call (List Nat) (Obj Nat Nat)) [] = (.ok ⟨false, .err 5⟩, [4]) := by decide +kernel

/-! ## C37: comparisons -/

/-- The user's == and !=, possibly between different types. -/
structure Eqs (A B : Type) where
  eq : A → B → Bool
  ne : A → B → Bool

variable (cT : Eqs T U) (cE : Eqs E F)

/-- operator== of two expected objects, expected.h:2148-2154. -/
def eqEE (x : Obj T E) (y : Obj U F) : Res Bool :=
  if x.has != y.has then .ok false
  else if !x.has then (error x).bind fun a => (error y).bind fun b => .ok (cE.eq a b)
  else (deref x).bind fun a => (deref y).bind fun b => .ok (cT.eq a b)

/-- operator!= of two expected objects, expected.h:2155-2161. -/
def neEE (x : Obj T E) (y : Obj U F) : Res Bool :=
  if x.has != y.has then .ok true
  else if !x.has then (error x).bind fun a => (error y).bind fun b => .ok (cE.ne a b)
  else (deref x).bind fun a => (deref y).bind fun b => .ok (cT.ne a b)

/-- operator== of two expected<void, E>, expected.h:2162-2168. -/
def eqVV (x : VObj E) (y : VObj F) : Res Bool :=
  if x.has != y.has then .ok false
  else if !x.has then (error x).bind fun a => (error y).bind fun b => .ok (cE.eq a b)
  else .ok true

/-- operator!= of two expected<void, E>, expected.h:2169-2175: if both hold errors it returns
`lhs.error() == rhs.error()`. -/
def neVV (x : VObj E) (y : VObj F) : Res Bool :=
  if x.has != y.has then .ok true
  else if !x.has then (error x).bind fun a => (error y).bind fun b => .ok (cE.eq a b)
  else .ok false

/-- Comparison with a value, expected.h:2177-2192 (both argument orders evaluate `*x == v`). -/
def eqEV (x : Obj T E) (v : U) : Res Bool :=
  if x.has then (deref x).bind fun a => .ok (cT.eq a v) else .ok false
/-- expected.h:2185-2192. -/
def neEV (x : Obj T E) (v : U) : Res Bool :=
  if x.has then (deref x).bind fun a => .ok (cT.ne a v) else .ok true

/-- Comparison with an unexpected, expected.h:2194-2209. -/
def eqEU (x : Obj T E) (e : F) : Res Bool :=
  if x.has then .ok false else (error x).bind fun a => .ok (cE.eq a e)
/-- expected.h:2194-2209. -/
def neEU (x : Obj T E) (e : F) : Res Bool :=
  if x.has then .ok true else (error x).bind fun a => .ok (cE.ne a e)

/-- == and != of a type are opposites and == decides the relation `r`. -/
structure EqsOf {A B : Type} (c : Eqs A B) (r : A → B → Prop) : Prop where
  eq : ∀ a b, c.eq a b = true ↔ r a b
  ne : ∀ a b, c.ne a b = !(c.eq a b)

/-- Both hold related values or both hold related errors. -/
inductive Same (rT : T → U → Prop) (rE : E → F → Prop) : Except E T → Except F U → Prop where
  | vals (a b) : rT a b → Same rT rE (.ok a) (.ok b)
  | errs (a b) : rE a b → Same rT rE (.error a) (.error b)

variable {cT cE}

/-- Objects with values: == holds exactly if both hold equal values or both hold equal errors, !=
is its opposite. -/
theorem c37_value {rT : T → U → Prop} {rE : E → F → Prop} (hT : EqsOf cT rT) (hE : EqsOf cE rE)
    (x : Obj T E) (y : Obj U F) (c : Except E T) (d : Except F U) (hx : Holds x c) (hy : Holds y d) :
    ∃ b, eqEE cT cE x y = .ok b ∧ neEE cT cE x y = .ok (!b) ∧ (b = true ↔ Same rT rE c d) := by
  cases hx <;> cases hy
  · rename_i a b
    refine ⟨cT.eq a b, by simp [eqEE, deref], by simp [neEE, deref, hT.ne], ?_⟩
    rw [hT.eq]
    exact ⟨.vals a b, fun h => by cases h; assumption⟩
  · exact ⟨false, by simp [eqEE], by simp [neEE], by simp, fun h => (by cases h)⟩
  · exact ⟨false, by simp [eqEE], by simp [neEE], by simp, fun h => (by cases h)⟩
  · rename_i a b
    refine ⟨cE.eq a b, by simp [eqEE, error], by simp [neEE, error, hE.ne], ?_⟩
    rw [hE.eq]
    exact ⟨.errs a b, fun h => by cases h; assumption⟩

/-- Comparison with a value and with an unexpected. -/
theorem c37_value_and_unexpected {rT : T → U → Prop} {rE : E → F → Prop} (hT : EqsOf cT rT)
    (hE : EqsOf cE rE) (x : Obj T E) (c : Except E T) (hx : Holds x c) (v : U) (e : F) :
    (∃ b, eqEV cT x v = .ok b ∧ neEV cT x v = .ok (!b) ∧ (b = true ↔ Same rT rE c (.ok v))) ∧
    (∃ b, eqEU cE x e = .ok b ∧ neEU cE x e = .ok (!b) ∧ (b = true ↔ Same rT rE c (.error e))) := by
  cases hx with
  | val a =>
    refine ⟨⟨cT.eq a v, by simp [eqEV, deref], by simp [neEV, deref, hT.ne], ?_⟩,
      ⟨false, by simp [eqEU], by simp [neEU], by simp, fun h => (by cases h)⟩⟩
    rw [hT.eq]
    exact ⟨.vals a v, fun h => by cases h; assumption⟩
  | err a =>
    refine ⟨⟨false, by simp [eqEV], by simp [neEV], by simp, fun h => (by cases h)⟩,
      ⟨cE.eq a e, by simp [eqEU, error], by simp [neEU, error, hE.ne], ?_⟩⟩
    rw [hE.eq]
    exact ⟨.errs a e, fun h => by cases h; assumption⟩

/-- expected<void, E>: == is right; != is its opposite unless both objects hold errors. -/
theorem c37_void_partial {rE : E → F → Prop} (hE : EqsOf cE rE) (x : VObj E) (y : VObj F)
    (c : Option E) (d : Option F) (hx : HoldsVoid x c) (hy : HoldsVoid y d) :
    ∃ b, eqVV cE x y = .ok b ∧
      (b = true ↔ (c = none ∧ d = none) ∨ ∃ e f, c = some e ∧ d = some f ∧ rE e f) ∧
      ((c = none ∨ d = none) → neVV cE x y = .ok (!b)) := by
  cases hx with
  | void => cases hy with
    | void => exact ⟨true, by simp [eqVV], by simp, fun _ => by simp [neVV]⟩
    | err b => exact ⟨false, by simp [eqVV], by simp, fun _ => by simp [neVV]⟩
  | err a => cases hy with
    | void => exact ⟨false, by simp [eqVV], by simp, fun _ => by simp [neVV]⟩
    | err b =>
      refine ⟨cE.eq a b, by simp [eqVV, error], ?_, by simp⟩
      rw [hE.eq]
      simp

/-- expected<void, E> with errors: == and != give the same answer, for every pair of errors. -/
theorem c37_void_violated (a : E) (b : F) :
    neVV cE ⟨false, .err a⟩ ⟨false, .err b⟩ = eqVV cE ⟨false, .err a⟩ ⟨false, .err b⟩ := by
  simp [neVV, eqVV, error]

/-- Concretely: two objects with the same error are both equal and unequal. -/
example : let c : Eqs Nat Nat := ⟨(· == ·), (· != ·)⟩
    eqVV c ⟨false, .err 3⟩ ⟨false, .err 3⟩ = .ok true ∧
    neVV c ⟨false, .err 3⟩ ⟨false, .err 3⟩ = .ok true := by decide +kernel

example : EqsOf (⟨(· == ·), (· != ·)⟩ : Eqs Nat Nat) (· = ·) :=
  ⟨fun a b => by simp, fun a b => rfl⟩

end Gul14.Exp
