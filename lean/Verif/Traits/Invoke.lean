import Verif.Basic

/-!
# C132: invoke, invoke_result, is_invocable and is_invocable_r before C++17 (traits.h:106-297)

From C++17 on the library uses those of the standard library (traits.h:98-104).
-/
namespace Gul14.Traits

/-! ## Types and expressions -/

/-- The category of an expression.  (A prvalue is forwarded as an xvalue.) -/
inductive Cat where
  | lvalue | xvalue
  deriving DecidableEq, Repr

/-- A type without const and references: a class with a number, or another one. -/
inductive Ty where
  | cls (id : Nat)
  | other (id : Nat)
  deriving DecidableEq, Repr

/-- An expression: its type, its category and whether it is const. -/
structure Ex where
  ty : Ty
  cat : Cat := .lvalue
  const : Bool := false
  deriving DecidableEq, Repr

/-- What a call gives: nothing or an expression. -/
inductive Ret where
  | void
  | val (e : Ex)
  deriving DecidableEq, Repr

/-- A member function: which objects it can be called for (const and reference qualifiers), the result for the given
arguments, and whether it is noexcept. -/
structure MemFn where
  accepts : Cat → Bool → Bool
  call : List Ex → Option Ret
  noexc : Bool

/-- What can be invoked: a pointer to a member function or to a data member of a class, or something else that may have a
function call operator (for the given arguments: the result and whether it is noexcept). -/
inductive Callee where
  | fn (cls : Nat) (m : MemFn)
  | data (cls : Nat) (ty : Ty) (const : Bool)
  | obj (call : List Ex → Option (Ret × Bool))

/-- The classes and operators of a program: whether a class is the same as or a base of another one; the class and
constness that a specialization of reference_wrapper refers to; what `*e` gives, and whether it is noexcept. -/
structure World where
  base : Nat → Nat → Bool
  wrapped : Nat → Option (Nat × Bool)
  deref : Ex → Option (Ex × Bool)

/-- The class of an expression is `T` or derived from it. -/
def World.isBase (W : World) (T : Nat) (e : Ex) : Bool :=
  match e.ty with
  | .cls d => W.base T d
  | .other _ => false

/-- `e.get()` for a reference_wrapper: it is noexcept. -/
def World.get (W : World) (e : Ex) : Option Ex :=
  match e.ty with
  | .cls d => (W.wrapped d).map fun (t, c) => ⟨.cls t, .lvalue, c⟩
  | .other _ => none

/-- `(e.*f)(args...)` for a member function of `T`. -/
def World.callMember (W : World) (T : Nat) (m : MemFn) (e : Ex) (args : List Ex) : Option (Ret × Bool) :=
  if W.isBase T e && m.accepts e.cat e.const then (m.call args).map fun r => (r, m.noexc) else none

/-- `e.*f` for a data member of `T`. -/
def World.member (W : World) (T : Nat) (ty : Ty) (const : Bool) (e : Ex) : Option (Ret × Bool) :=
  if W.isBase T e then some (.val ⟨ty, e.cat, e.const || const⟩, true) else none

/-- With an expression that may throw before. -/
def after (noexc : Bool) (r : Option (Ret × Bool)) : Option (Ret × Bool) := r.map fun (x, n) => (x, noexc && n)

/-! ## Specification: INVOKE of the standard (C++17, 23.14.3) -/
namespace Spec

/-- `INVOKE(f, t1, ..., tN)` is well-formed, with this result, and it is (not) noexcept. -/
inductive INVOKE (W : World) : Callee → List Ex → Ret × Bool → Prop where
  /-- `(t1.*f)(t2, ..., tN)` if t1 is an object of the class or of a derived class -/
  | fnObject {T m t1 ts r} : W.isBase T t1 = true → W.callMember T m t1 ts = some r → INVOKE W (.fn T m) (t1 :: ts) r
  /-- `(t1.get().*f)(t2, ..., tN)` if it is not, but is a reference_wrapper -/
  | fnWrapper {T m t1 o ts r} : W.isBase T t1 = false → W.get t1 = some o → W.callMember T m o ts = some r →
      INVOKE W (.fn T m) (t1 :: ts) r
  /-- `((*t1).*f)(t2, ..., tN)` otherwise -/
  | fnPointer {T m t1 o n ts r} : W.isBase T t1 = false → W.get t1 = none → W.deref t1 = some (o, n) →
      W.callMember T m o ts = some r → INVOKE W (.fn T m) (t1 :: ts) (r.1, n && r.2)
  /-- `t1.*f` -/
  | dataObject {T ty c t1 r} : W.isBase T t1 = true → W.member T ty c t1 = some r → INVOKE W (.data T ty c) [t1] r
  /-- `t1.get().*f` -/
  | dataWrapper {T ty c t1 o r} : W.isBase T t1 = false → W.get t1 = some o → W.member T ty c o = some r →
      INVOKE W (.data T ty c) [t1] r
  /-- `(*t1).*f` -/
  | dataPointer {T ty c t1 o n r} : W.isBase T t1 = false → W.get t1 = none → W.deref t1 = some (o, n) →
      W.member T ty c o = some r → INVOKE W (.data T ty c) [t1] (r.1, n && r.2)
  /-- `f(t1, ..., tN)` in all other cases -/
  | call {g ts r} : g ts = some r → INVOKE W (.obj g) ts r

end Spec
open Gul14.Traits.Spec

/-! ## The code -/

/-- detail_invoke::is_reference_wrapper of the decayed type, traits.h:113-118. -/
def World.isWrapper (W : World) (e : Ex) : Bool :=
  match e.ty with
  | .cls d => (W.wrapped d).isSome
  | .other _ => false

/-- The second argument of the template Invoke, traits.h:169-173. -/
def World.how (W : World) (T : Nat) (arg : Ex) : Nat :=
  if W.isBase T arg then 0 else if W.isWrapper arg then 1 else 2

/-- Invoke<true, how>::invoke(f, arg, args...), traits.h:123-142; `none` if the expression is not well-formed. -/
def World.invokeFn (W : World) (how T : Nat) (m : MemFn) (arg : Ex) (args : List Ex) : Option (Ret × Bool) :=
  match how with
  | 0 => W.callMember T m arg args
  | 1 => (W.get arg).bind fun o => W.callMember T m o args
  | _ => (W.deref arg).bind fun (o, n) => after n (W.callMember T m o args)

/-- Invoke<false, how>::invoke(f, arg), traits.h:144-163; it takes exactly one argument. -/
def World.invokeData (W : World) (how T : Nat) (ty : Ty) (c : Bool) (arg : Ex) (args : List Ex) : Option (Ret × Bool) :=
  if args ≠ [] then none
  else
    match how with
    | 0 => W.member T ty c arg
    | 1 => (W.get arg).bind fun o => W.member T ty c o
    | _ => (W.deref arg).bind fun (o, n) => after n (W.member T ty c o)

/-- The overload invoke(R T::*f, Arg&& arg, Args&&... args), traits.h:165-174: only for pointers to members; `none` if it
drops out. -/
def World.overload1 (W : World) : Callee → List Ex → Option (Ret × Bool)
  | .fn T m, arg :: args => W.invokeFn (W.how T arg) T m arg args
  | .data T ty c, arg :: args => W.invokeData (W.how T arg) T ty c arg args
  | _, _ => none

/-- The overload invoke(F&& f, Args&&... args), traits.h:180-182; a pointer to a member cannot be called. -/
def overload2 : Callee → List Ex → Option (Ret × Bool)
  | .obj g, args => g args
  | _, _ => none

/-- detail_invoke::invoke and gul14::invoke, traits.h:165-182 and 199-206: the overload that did not drop out. If there were
two, the call would be ambiguous. -/
def World.invoke (W : World) (f : Callee) (args : List Ex) : Option (Ret × Bool) :=
  match W.overload1 f args, overload2 f args with
  | some r, none => some r
  | none, some r => some r
  | _, _ => none

/-- Functions with the name invoke in the namespaces of the arguments, which are found besides that of the library. -/
inductive Adl where
  /-- none of them can be called, or overload resolution prefers that of the library -/
  | none
  /-- one of them, with this result, is as good as that of the library, if this one can be called -/
  | equal (r : Ret)
  /-- one of them is better, and has this result -/
  | better (r : Ret)

/-- invoke_result, traits.h:214-223, with the unqualified call of invoke. -/
def World.invokeResult (W : World) (adl : Adl) (f : Callee) (args : List Ex) : Option Ret :=
  match adl with
  | .none => (W.invoke f args).map (·.1)
  | .equal r => if (W.invoke f args).isSome then none else some r
  | .better r => some r

/-- is_invocable, traits.h:253-258. -/
def World.isInvocable (W : World) (adl : Adl) (f : Callee) (args : List Ex) : Bool := (W.invokeResult adl f args).isSome

/-- std::is_convertible<From, To>: void is only converted to void. Library; no code in /repo. -/
def isConvertible (conv : Ex → Ty → Bool) : Ret → Option Ty → Bool
  | .void, none => true
  | .val e, some t => conv e t
  | _, _ => false

/-- is_invocable_r, traits.h:260-268; `r` is `none` for void. -/
def World.isInvocableR (W : World) (conv : Ex → Ty → Bool) (adl : Adl) (r : Option Ty) (f : Callee) (args : List Ex) : Bool :=
  match W.invokeResult adl f args with
  | none => false
  | some x => isConvertible conv x r

/-! ## Theorems -/

theorem get_isWrapper (W : World) (e : Ex) : W.isWrapper e = (W.get e).isSome := by
  unfold World.isWrapper World.get
  split <;> simp

/-- **C132**: invoke can be called exactly if INVOKE of the standard is well-formed; it is the same expression, and it is
noexcept exactly if this one is.  For all pointers to members and other callables, all arguments and any classes. -/
theorem c132_invoke (W : World) (f : Callee) (args : List Ex) (r : Ret × Bool) :
    W.invoke f args = some r ↔ INVOKE W f args r := by
  have hw := get_isWrapper W
  constructor
  · intro h
    cases f with
    | fn T m =>
        cases args with
        | nil => simp [World.invoke, World.overload1, overload2] at h
        | cons t1 ts =>
            simp only [World.invoke, overload2, World.overload1, World.how] at h
            by_cases hb : W.isBase T t1 = true
            · rw [if_pos hb] at h
              simp only [World.invokeFn] at h
              rcases hc : W.callMember T m t1 ts with _ | x <;> rw [hc] at h <;> simp at h
              subst h
              exact .fnObject hb hc
            · rw [if_neg hb, hw] at h
              have hb : W.isBase T t1 = false := by simpa using hb
              rcases hg : W.get t1 with _ | o <;> rw [hg] at h <;> simp [World.invokeFn] at h
              · rcases hd : W.deref t1 with _ | ⟨o, n⟩ <;> rw [hd] at h <;> simp at h
                rcases hc : W.callMember T m o ts with _ | x <;> rw [hc] at h <;> simp [after] at h
                subst h
                exact .fnPointer hb hg hd hc
              · rw [hg] at h
                simp at h
                rcases hc : W.callMember T m o ts with _ | x <;> rw [hc] at h <;> simp at h
                subst h
                exact .fnWrapper hb hg hc
    | data T ty c =>
        cases args with
        | nil => simp [World.invoke, World.overload1, overload2] at h
        | cons t1 ts =>
            cases ts with
            | cons t2 ts => simp [World.invoke, overload2, World.overload1, World.invokeData] at h
            | nil =>
                simp only [World.invoke, overload2, World.overload1, World.how] at h
                by_cases hb : W.isBase T t1 = true
                · rw [if_pos hb] at h
                  simp only [World.invokeData, ne_eq, not_true_eq_false, if_false] at h
                  rcases hc : W.member T ty c t1 with _ | x <;> rw [hc] at h <;> simp at h
                  subst h
                  exact .dataObject hb hc
                · rw [if_neg hb, hw] at h
                  have hb : W.isBase T t1 = false := by simpa using hb
                  rcases hg : W.get t1 with _ | o <;> rw [hg] at h <;> simp [World.invokeData] at h
                  · rcases hd : W.deref t1 with _ | ⟨o, n⟩ <;> rw [hd] at h <;> simp at h
                    rcases hc : W.member T ty c o with _ | x <;> rw [hc] at h <;> simp [after] at h
                    subst h
                    exact .dataPointer hb hg hd hc
                  · rw [hg] at h
                    simp at h
                    rcases hc : W.member T ty c o with _ | x <;> rw [hc] at h <;> simp at h
                    subst h
                    exact .dataWrapper hb hg hc
    | obj g =>
        simp only [World.invoke, World.overload1, overload2] at h
        rcases hc : g args with _ | x <;> rw [hc] at h <;> simp at h
        subst h
        exact .call hc
  · intro h
    cases h with
    | fnObject hb hc => simp [World.invoke, overload2, World.overload1, World.how, hb, World.invokeFn, hc]
    | fnWrapper hb hg hc => simp [World.invoke, overload2, World.overload1, World.how, hb, World.invokeFn, hc, hw, hg]
    | fnPointer hb hg hd hc => simp [World.invoke, overload2, World.overload1, World.how, hb, World.invokeFn, hc, hw, hg, hd, after]
    | dataObject hb hc => simp [World.invoke, overload2, World.overload1, World.how, hb, World.invokeData, hc]
    | dataWrapper hb hg hc => simp [World.invoke, overload2, World.overload1, World.how, hb, World.invokeData, hc, hw, hg]
    | dataPointer hb hg hd hc => simp [World.invoke, overload2, World.overload1, World.how, hb, World.invokeData, hc, hw, hg, hd, after]
    | call hc => simp [World.invoke, World.overload1, overload2, hc]

/-- **C132**: invoke_result and is_invocable agree with INVOKE, if no function of the name invoke is found in the namespaces
of the arguments. -/
theorem c132_is_invocable_partial (W : World) (f : Callee) (args : List Ex) :
    (W.isInvocable .none f args = true ↔ ∃ r, INVOKE W f args r) ∧
    (∀ t, W.invokeResult .none f args = some t ↔ ∃ n, INVOKE W f args (t, n)) := by
  have h2 : ∀ t, W.invokeResult .none f args = some t ↔ ∃ n, INVOKE W f args (t, n) := by
    intro t
    simp only [World.invokeResult, Option.map_eq_some_iff]
    constructor
    · rintro ⟨⟨t', n⟩, h, rfl⟩
      exact ⟨n, (c132_invoke W f args _).mp h⟩
    · rintro ⟨n, h⟩
      exact ⟨(t, n), (c132_invoke W f args _).mpr h, rfl⟩
  refine ⟨?_, h2⟩
  simp only [World.isInvocable, Option.isSome_iff_exists, h2]
  constructor
  · rintro ⟨t, n, h⟩; exact ⟨_, h⟩
  · rintro ⟨⟨t, n⟩, h⟩; exact ⟨t, n, h⟩

/-- **C132**: is_invocable_r for types other than void: the result can be converted. -/
theorem c132_is_invocable_r_partial (W : World) (conv : Ex → Ty → Bool) (t : Ty) (f : Callee) (args : List Ex) :
    W.isInvocableR conv .none (some t) f args = true ↔ ∃ e n, INVOKE W f args (.val e, n) ∧ conv e t = true := by
  have h2 := (c132_is_invocable_partial W f args).2
  unfold World.isInvocableR
  constructor
  · intro h
    rcases hr : W.invokeResult .none f args with _ | x <;> rw [hr] at h
    · cases h
    · obtain ⟨n, hn⟩ := (h2 x).mp hr
      cases x with
      | void => cases h
      | val e => exact ⟨e, n, hn, h⟩
  · rintro ⟨e, n, hi, hc⟩
    rw [(h2 (.val e)).mpr ⟨n, hi⟩]
    exact hc

/-- In the standard every result can be discarded: is_invocable_r<void, F, Args...> is true whenever F can be invoked.  Here it
is false for every callable that returns something. -/
theorem c132_void_violated (W : World) (conv : Ex → Ty → Bool) (f : Callee) (args : List Ex) (e : Ex) (n : Bool)
    (h : INVOKE W f args (.val e, n)) : W.isInvocableR conv .none none f args = false := by
  unfold World.isInvocableR
  rw [((c132_is_invocable_partial W f args).2 (.val e)).mpr ⟨n, h⟩]
  rfl

/-- If a namespace of an argument has an equally good function template invoke, as other backports have it, then
is_invocable is false for everything that can be invoked. -/
theorem c132_adl_violated (W : World) (f : Callee) (args : List Ex) (r : Ret × Bool) (u : Ret)
    (h : INVOKE W f args r) : W.isInvocable (.equal u) f args = false := by
  simp [World.isInvocable, World.invokeResult, (c132_invoke W f args r).mpr h]

/-! ## Examples -/

/-- Class 1 is derived from class 0; class 2 is reference_wrapper<class 1>; other type 0 is a pointer to class 1. -/
def exampleWorld : World where
  base t d := t == d || (t == 0 && d == 1)
  wrapped d := if d = 2 then some (1, false) else none
  deref e := if e.ty = .other 0 then some (⟨.cls 1, .lvalue, false⟩, true) else none

/-- `int f() &` -/
def someFn : MemFn := ⟨fun cat const => cat = .lvalue && !const, fun args => if args = [] then some (.val ⟨.other 1, .xvalue, false⟩) else none, false⟩

example : exampleWorld.invoke (.fn 0 someFn) [⟨.cls 1, .lvalue, false⟩] = some (.val ⟨.other 1, .xvalue, false⟩, false) := by decide +kernel
example : exampleWorld.invoke (.fn 0 someFn) [⟨.cls 1, .xvalue, false⟩] = none := by decide +kernel
example : exampleWorld.invoke (.fn 0 someFn) [⟨.cls 2, .xvalue, true⟩] = some (.val ⟨.other 1, .xvalue, false⟩, false) := by decide +kernel
example : exampleWorld.invoke (.fn 0 someFn) [⟨.other 0, .xvalue, false⟩] = some (.val ⟨.other 1, .xvalue, false⟩, false) := by decide +kernel
example : exampleWorld.invoke (.data 0 (.other 1) false) [⟨.cls 1, .xvalue, true⟩] = some (.val ⟨.other 1, .xvalue, true⟩, true) := by decide +kernel
example : exampleWorld.isInvocable .none (.fn 0 someFn) [⟨.cls 1, .lvalue, false⟩] = true ∧
    exampleWorld.isInvocableR (fun _ _ => true) .none none (.fn 0 someFn) [⟨.cls 1, .lvalue, false⟩] = false := by decide +kernel

end Gul14.Traits
