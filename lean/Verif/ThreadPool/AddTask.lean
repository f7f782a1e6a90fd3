import Verif.Basic

/-!
# The overloads of ThreadPool::add_task, include/gul14/ThreadPool.h:300-385

Which calls of add_task compile, and what they put into the queue.  A function object is described by what can be
called: with no argument or with a reference to the pool, on a constant lvalue, an lvalue or an rvalue.  Three of the
six overloads are for functions that take the pool, three for functions that take nothing; five of them call add_task
again, and the overload for that is chosen anew.
-/
namespace Gul14.Pool.AddTask

/-- What a function is called with: `f()` or `f(pool)`. -/
inductive Args where
  | none | pool
  deriving DecidableEq, Repr

/-- The object on which it is called. -/
inductive Cat where
  | constLvalue | lvalue | rvalue
  deriving DecidableEq, Repr

/-- The type of the result: void, an object type, or a reference to one.  (A constant object type behaves like a
reference here: the type that is deduced for a lambda drops the const.) -/
inductive Ret where
  | void
  | value (type : Nat)
  | lref (type : Nat)
  | rref (type : Nat)
  deriving DecidableEq, Repr

/-- The type deduced for `[...](...) { return f(); }`: references are dropped. -/
def Ret.deduced : Ret → Ret
  | .lref t | .rref t => .value t
  | r => r

/-- Whether std::packaged_task and std::future exist for this result. -/
def Ret.hasFuture : Ret → Bool
  | .rref _ => false
  | _ => true

/-- A type of function objects (a closure, a function pointer, std::function, std::bind, ...). -/
structure Fn where
  call : Args → Cat → Bool
  ret : Args → Ret

/-- gul14::is_invocable<F, Args...> (traits.h:217-247 or std::is_invocable): F as an rvalue. -/
def Fn.invocable (f : Fn) (a : Args) : Bool := f.call a .rvalue

/-- What the second argument converts to implicitly: TimePoint, Duration, std::string.  Simplified: the conversions
are not ranked, which matters only for arguments that convert to more than one of them. -/
structure Arg where
  toTime : Bool
  toDuration : Bool
  toString : Bool
  deriving DecidableEq, Repr

/-- A call of add_task: the second argument, if any, and whether there is a third (a name). -/
structure Form where
  second : Option Arg
  third : Bool
  deriving DecidableEq, Repr

/-- The six overloads, in the order of the file. -/
inductive Overload where
  /-- `(Function, TimePoint = {}, std::string = {})`, function with pool, ThreadPool.h:300-341 -/
  | timePool
  /-- the same, function without arguments, 343-351 -/
  | timePlain
  /-- `(Function, Duration, std::string = {})`, with pool, 353-360 -/
  | delayPool
  /-- the same, without arguments, 362-369 -/
  | delayPlain
  /-- `(Function, std::string)`, with pool, 371-377 -/
  | namePool
  /-- the same, without arguments, 379-385 -/
  | namePlain
  deriving DecidableEq, Repr

/-- The function that the overload is for: the return type in 301, enable_if in 344, 354, 363, 372, 380. -/
def Overload.args : Overload → Args
  | .timePool | .delayPool | .namePool => .pool
  | .timePlain | .delayPlain | .namePlain => .none

/-- Whether the other arguments fit, ThreadPool.h:302, 346, 356, 365, 374, 382. -/
def Overload.fits (c : Form) : Overload → Bool
  | .timePool | .timePlain => match c.second with
    | some a => a.toTime
    | none => !c.third
  | .delayPool | .delayPlain => match c.second with
    | some a => a.toDuration
    | none => false
  | .namePool | .namePlain => match c.second with
    | some a => a.toString && !c.third
    | none => false

/-- The six overloads of add_task, ThreadPool.h:300-385. -/
def all : List Overload := [.timePool, .timePlain, .delayPool, .delayPlain, .namePool, .namePlain]

/-- Overload resolution: the viable overloads take the function by value and differ in nothing that could make one
better, so that there has to be exactly one. -/
def resolve (f : Fn) (c : Form) : Option Overload :=
  match all.filter fun o => f.invocable o.args && o.fits c with
  | [o] => some o
  | _ => none

/-- The start time in the queue. -/
inductive Start where
  /-- the time that the caller gave -/
  | given
  /-- the time now plus the delay that the caller gave -/
  | nowPlus
  /-- `TimePoint{}` -/
  | epoch
  deriving DecidableEq, Repr

/-- What is put into the queue and returned: what the task calls `fct` with, its start time, whether it has the name
that the caller gave (otherwise an empty one), and the type of the result of the handle. -/
structure Queued where
  calls : Args
  start : Start
  named : Bool
  result : Ret
  deriving DecidableEq, Repr

/-- `add_task(f, TimePoint, std::string)`. -/
def timeAndName : Form := ⟨some ⟨true, false, false⟩, true⟩

/-- The body of the first overload, ThreadPool.h:304-340: packaged_task calls its copy of the function as an lvalue. -/
def bodyTimePool (f : Fn) (start : Start) (named : Bool) : Option Queued :=
  if f.call .pool .lvalue && (f.ret .pool).hasFuture then some ⟨.pool, start, named, f.ret .pool⟩ else none

/-- The closure of ThreadPool.h:349: its call operator is const, so `f` is constant in it.  It is a function of the
pool only. -/
def wrapper (f : Fn) : Fn where
  call := fun a _ => a == .pool
  ret := fun _ => (f.ret .none).deduced

/-- The body of the second overload, ThreadPool.h:348-350.  The handle that is returned has to be of the type that is
declared in 345: there are no conversions between handles.  The task calls the wrapper with the pool, and the wrapper
calls `f` without arguments. -/
def bodyTimePlain (f : Fn) (start : Start) (named : Bool) : Option Queued :=
  if f.call .none .constLvalue then
    match resolve (wrapper f) timeAndName with
    | some .timePool =>
        match bodyTimePool (wrapper f) start named with
        | some q => if q.result = f.ret .none then some { q with calls := .none } else none
        | none => none
    | _ => none
  else none

/-- `add_task(std::move(fct), <time point>, std::move(name))` in the other bodies, ThreadPool.h:358, 367, 376, 384. -/
def again (f : Fn) (start : Start) (named : Bool) : Option Queued :=
  match resolve f timeAndName with
  | some .timePool => bodyTimePool f start named
  | some .timePlain => bodyTimePlain f start named
  | _ => none

/-- A call of add_task; `none`: it does not compile.  ThreadPool.h:300-385. -/
def addTask (f : Fn) (c : Form) : Option Queued :=
  let start := if c.second.isSome then .given else .epoch
  match resolve f c with
  | none => none
  | some .timePool => bodyTimePool f start c.third
  | some .timePlain => bodyTimePlain f start c.third
  | some .delayPool | some .delayPlain => again f .nowPlus c.third
  | some .namePool | some .namePlain => again f .epoch true

/-! ## The documentation, ThreadPool.h:265-299 -/

/-- The calls in the documentation. -/
inductive Call where
  | plain | start | startName | delay | delayName | name
  deriving DecidableEq, Repr

/-- The arguments of these calls: a time point converts to a TimePoint, a duration to a Duration, a text to a string,
and none of them to another of the three. -/
def Call.form : Call → Form
  | .plain => ⟨none, false⟩
  | .start => ⟨some ⟨true, false, false⟩, false⟩
  | .startName => ⟨some ⟨true, false, false⟩, true⟩
  | .delay => ⟨some ⟨false, true, false⟩, false⟩
  | .delayName => ⟨some ⟨false, true, false⟩, true⟩
  | .name => ⟨some ⟨false, false, true⟩, false⟩

/-- What is promised for a function that is called with `a`: the task calls it like this, not before the time that
was asked for, and the handle delivers what it returns. -/
def promised (f : Fn) (a : Args) (c : Call) : Queued where
  calls := a
  start := match c with
    | .plain | .name => .epoch
    | .start | .startName => .given
    | .delay | .delayName => .nowPlus
  named := match c with
    | .startName | .delayName | .name => true
    | .plain | .start | .delay => false
  result := f.ret a

/-! ## Lemmas -/

theorem resolve_pool {f : Fn} (hp : f.invocable .pool = true) (hn : f.invocable .none = false) (c : Call) :
    resolve f c.form = some (match c with
      | .plain | .start | .startName => .timePool
      | .delay | .delayName => .delayPool
      | .name => .namePool) := by
  cases c <;> simp [resolve, all, Overload.args, Overload.fits, Call.form, hp, hn]

theorem resolve_plain {f : Fn} (hp : f.invocable .pool = false) (hn : f.invocable .none = true) (c : Call) :
    resolve f c.form = some (match c with
      | .plain | .start | .startName => .timePlain
      | .delay | .delayName => .delayPlain
      | .name => .namePlain) := by
  cases c <;> simp [resolve, all, Overload.args, Overload.fits, Call.form, hp, hn]

theorem resolve_both {f : Fn} (hp : f.invocable .pool = true) (hn : f.invocable .none = true) (c : Call) :
    resolve f c.form = none := by
  cases c <;> simp [resolve, all, Overload.args, Overload.fits, Call.form, hp, hn]

theorem resolve_neither {f : Fn} (hp : f.invocable .pool = false) (hn : f.invocable .none = false) (c : Form) :
    resolve f c = none := by
  simp [resolve, all, Overload.args, hp, hn]

theorem wrapper_resolve (f : Fn) : resolve (wrapper f) timeAndName = some .timePool :=
  resolve_pool (f := wrapper f) rfl rfl .startName

theorem bodyTimePlain_eq (f : Fn) (start : Start) (named : Bool) :
    bodyTimePlain f start named =
      if f.call .none .constLvalue = true ∧ (f.ret .none).deduced = f.ret .none then
        some ⟨.none, start, named, f.ret .none⟩
      else none := by
  unfold bodyTimePlain
  rw [wrapper_resolve]
  by_cases h1 : f.call .none .constLvalue = true
  · by_cases h2 : (f.ret .none).deduced = f.ret .none
    · have h3 : (f.ret .none).deduced.hasFuture = true := by cases f.ret .none <;> rfl
      rw [h2] at h3
      simp [h1, h2, bodyTimePool, wrapper, h3]
    · have h3 : (f.ret .none).deduced.hasFuture = true := by cases f.ret .none <;> rfl
      simp [h1, h2, bodyTimePool, wrapper, h3]
  · simp [h1]

theorem again_pool {f : Fn} (hp : f.invocable .pool = true) (hn : f.invocable .none = false) (s : Start) (b : Bool) :
    again f s b = bodyTimePool f s b := by
  unfold again
  rw [show timeAndName = Call.startName.form from rfl, resolve_pool hp hn]

theorem again_plain {f : Fn} (hp : f.invocable .pool = false) (hn : f.invocable .none = true) (s : Start) (b : Bool) :
    again f s b = bodyTimePlain f s b := by
  unfold again
  rw [show timeAndName = Call.startName.form from rfl, resolve_plain hp hn]

theorem addTask_pool {f : Fn} (hp : f.invocable .pool = true) (hn : f.invocable .none = false) (c : Call) :
    addTask f c.form = bodyTimePool f (promised f .pool c).start (promised f .pool c).named := by
  unfold addTask
  rw [resolve_pool hp hn]
  cases c <;> simp [again_pool hp hn, promised, Call.form]

theorem addTask_plain {f : Fn} (hp : f.invocable .pool = false) (hn : f.invocable .none = true) (c : Call) :
    addTask f c.form = bodyTimePlain f (promised f .none c).start (promised f .none c).named := by
  unfold addTask
  rw [resolve_plain hp hn]
  cases c <;> simp [again_plain hp hn, promised, Call.form]

/-! ## The property -/

/-- Functions that take the pool: every documented call compiles and does what is promised, also if the function
object changes itself when it is called, and if it returns a reference. -/
theorem c126_with_pool (f : Fn) (c : Call) (hr : f.call .pool .rvalue = true) (hl : f.call .pool .lvalue = true)
    (hn : f.call .none .rvalue = false) (hf : ∀ t, f.ret .pool ≠ .rref t) :
    addTask f c.form = some (promised f .pool c) := by
  rw [addTask_pool hr hn]
  have hf : (f.ret .pool).hasFuture = true := by
    cases h : f.ret .pool <;> simp_all [Ret.hasFuture]
  simp [bodyTimePool, hl, hf, promised]

/-- Functions without arguments: every documented call compiles and does what is promised if the function can be
called on a constant object and returns void or an object.  (Missing: see the next theorems.) -/
theorem c126_without_arguments_partial (f : Fn) (c : Call) (hr : f.call .none .rvalue = true)
    (hl : f.call .none .constLvalue = true) (hn : f.call .pool .rvalue = false)
    (hf : f.ret .none = .void ∨ ∃ t, f.ret .none = .value t) :
    addTask f c.form = some (promised f .none c) := by
  rw [addTask_plain hn hr, bodyTimePlain_eq]
  have : (f.ret .none).deduced = f.ret .none := by
    rcases hf with h | ⟨t, h⟩ <;> rw [h] <;> rfl
  simp [hl, this, promised]

/-- Whatever the function object is like: a documented call that compiles does what is promised. -/
theorem c126_sound (f : Fn) (c : Call) (q : Queued) (h : addTask f c.form = some q) :
    ∃ a, f.call a .rvalue = true ∧ q = promised f a c := by
  cases hp : f.invocable .pool <;> cases hn : f.invocable .none
  · unfold addTask at h
    rw [resolve_neither hp hn] at h
    cases h
  · rw [addTask_plain hp hn, bodyTimePlain_eq] at h
    refine ⟨.none, hn, ?_⟩
    split at h
    · rw [← Option.some.inj h]; rfl
    · cases h
  · rw [addTask_pool hp hn] at h
    refine ⟨.pool, hp, ?_⟩
    unfold bodyTimePool at h
    split at h
    · rw [← Option.some.inj h]; rfl
    · cases h
  · unfold addTask at h
    rw [resolve_both hp hn] at h
    cases h

/-- A function that can be called neither way is rejected. -/
theorem c126_rejected (f : Fn) (c : Form) (hn : f.call .none .rvalue = false) (hp : f.call .pool .rvalue = false) :
    addTask f c = none := by
  unfold addTask
  rw [resolve_neither hp hn]

/-- Violated: a function without arguments that changes the function object (`[n]() mutable { ... }`) is not accepted,
in no form, because the closure in which it is wrapped is constant.  One that takes the pool is (`c126_with_pool`). -/
theorem c126_mutable_violated (f : Fn) (c : Call) (hc : f.call .none .constLvalue = false)
    (hn : f.call .pool .rvalue = false) : addTask f c.form = none := by
  cases hr : f.invocable .none
  · exact c126_rejected f c.form hr hn
  · rw [addTask_plain hn hr, bodyTimePlain_eq]
    simp [hc]

/-- Violated: nor is a function without arguments that returns a reference, because the wrapper returns a copy. -/
theorem c126_reference_violated (f : Fn) (c : Call) (t : Nat) (hn : f.call .pool .rvalue = false)
    (ht : f.ret .none = .lref t) : addTask f c.form = none := by
  cases hr : f.invocable .none
  · exact c126_rejected f c.form hr hn
  · rw [addTask_plain hn hr, bodyTimePlain_eq, ht]
    simp [Ret.deduced]

/-- Violated: a function object that can be called both ways (the result of std::bind, which ignores further
arguments, or a generic closure with a parameter pack) makes the call ambiguous, in every form. -/
theorem c126_both_violated (f : Fn) (c : Call) (hn : f.call .none .rvalue = true) (hp : f.call .pool .rvalue = true) :
    addTask f c.form = none := by
  unfold addTask
  rw [resolve_both hp hn]

/-- Exactly these function objects are accepted, in every documented form: those that can be called with the pool and not without
arguments, also as an lvalue, and do not return an rvalue reference; and those that can be called without arguments and not
with the pool, also as a constant object, and return void or an object. -/
theorem c126_exactly (f : Fn) (c : Call) : addTask f c.form ≠ none ↔
    (f.call .pool .rvalue = true ∧ f.call .none .rvalue = false ∧ f.call .pool .lvalue = true ∧
      ∀ t, f.ret .pool ≠ .rref t) ∨
    (f.call .none .rvalue = true ∧ f.call .pool .rvalue = false ∧ f.call .none .constLvalue = true ∧
      (f.ret .none = .void ∨ ∃ t, f.ret .none = .value t)) := by
  cases hp : f.call .pool .rvalue <;> cases hn : f.call .none .rvalue
  · simp [c126_rejected f c.form hn hp]
  · rw [addTask_plain hp hn, bodyTimePlain_eq]
    cases hl : f.call .none .constLvalue <;> cases hr : f.ret .none <;> simp [Ret.deduced]
  · rw [addTask_pool hp hn]
    cases hl : f.call .pool .lvalue <;> cases hr : f.ret .pool <;> simp [bodyTimePool, hl, hr, Ret.hasFuture]
  · simp [c126_both_violated f c hn hp]

/-! ## Examples -/

/-- `[]() { return 1; }` -/
def closure : Fn := ⟨fun a _ => a == .none, fun _ => .value 0⟩
/-- `[n = 0]() mutable { return ++n; }` -/
def mutableClosure : Fn := ⟨fun a k => a == .none && k != .constLvalue, fun _ => .value 0⟩
/-- `[n = 0](ThreadPool&) mutable { return ++n; }` -/
def mutablePool : Fn := ⟨fun a k => a == .pool && k != .constLvalue, fun _ => .value 0⟩
/-- `std::bind(g, 1)` -/
def bound : Fn := ⟨fun _ _ => true, fun _ => .void⟩
/-- `int& (*)()` and `int& (*)(ThreadPool&)` -/
def refPlain : Fn := ⟨fun a _ => a == .none, fun _ => .lref 0⟩
def refPool : Fn := ⟨fun a _ => a == .pool, fun _ => .lref 0⟩

example : addTask closure Call.delayName.form = some ⟨.none, .nowPlus, true, .value 0⟩ := by decide +kernel
example : addTask closure Call.name.form = some ⟨.none, .epoch, true, .value 0⟩ := by decide +kernel
example : addTask mutablePool Call.start.form = some ⟨.pool, .given, false, .value 0⟩ := by decide +kernel
example : addTask refPool Call.plain.form = some ⟨.pool, .epoch, false, .lref 0⟩ := by decide +kernel
example : addTask mutableClosure Call.plain.form = none := by decide +kernel
example : addTask bound Call.plain.form = none := by decide +kernel
example : addTask refPlain Call.plain.form = none := by decide +kernel
example : closure.call .none .rvalue = true ∧ closure.call .none .constLvalue = true ∧
    closure.call .pool .rvalue = false ∧ ∃ t, closure.ret .none = .value t := ⟨rfl, rfl, rfl, 0, rfl⟩
example : mutablePool.call .pool .rvalue = true ∧ mutablePool.call .pool .lvalue = true ∧
    mutablePool.call .none .rvalue = false ∧ mutablePool.ret .pool = .value 0 := by decide +kernel
example : mutableClosure.call .none .constLvalue = false ∧ mutableClosure.call .none .lvalue = true ∧
    mutableClosure.call .pool .rvalue = false := by decide +kernel
example : refPlain.call .pool .rvalue = false ∧ refPlain.ret .none = .lref 0 := by decide +kernel
example : bound.call .none .rvalue = true ∧ bound.call .pool .rvalue = true := by decide +kernel

end Gul14.Pool.AddTask
