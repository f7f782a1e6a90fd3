/-!
# Trigger, include/gul14/Trigger.h and src/Trigger.cc; sleep, include/gul14/time_util.h

A labelled transition system.  Any number of threads call member functions of one Trigger object.  A
step is what happens between two points at which threads can be interleaved: the acquisition of the
mutex, a critical section together with the release of the mutex (`triggered_` is only accessed by
the owner of the mutex), and a notification.

The condition variable is modelled as in the C++ standard: wait releases the mutex and blocks in one
step; a blocked thread is unblocked by notify_all, when its deadline has passed, or spuriously; it
then reacquires the mutex.  A timed wait reports a timeout only if its deadline has passed.  There are
two clocks: a steady one, used by wait_for, and another one that can be set arbitrarily, used by
wait_until.  Times are natural numbers; rounding of durations is not modelled.

After the destructor has finished, every access to the members is an error.
-/
namespace Gul14.Trigger

/-- The calls.  operator=(true) is trigger(), Trigger.cc:35-38; operator=(false) does what reset()
does, Trigger.cc:39-43. -/
inductive Call where
  | trigger
  | reset
  | read
  | wait
  | waitFor (d : Nat)
  | waitUntil (t : Nat)
  | sleep (d : Nat)
  | destroy
  deriving DecidableEq, Repr

/-- A point in time on one of the two clocks. The argument of Trigger.h:189, 212. -/
inductive Deadline where
  | steady (t : Nat)
  | other (t : Nat)
  deriving DecidableEq, Repr

/-- A wait in progress: the call, the time on the steady clock when it was called, and the deadline. The
calls of Trigger.cc:72-76 and Trigger.h:189-216. -/
structure Wait where
  call : Call
  began : Nat
  limit : Option Deadline
  deriving DecidableEq, Repr

/-- Where a thread is. Positions in Trigger.cc:33-76 and Trigger.h:189-216. -/
inductive Pc where
  /-- in no call -/
  | idle
  /-- about to lock the mutex in trigger(), Trigger.cc:63; `d`: called by the destructor, 30 -/
  | lockTrigger (d : Bool)
  /-- owns the mutex, Trigger.cc:64-65 -/
  | setHigh (d : Bool)
  /-- before notify_all, Trigger.cc:69 -/
  | notify (d : Bool)
  /-- at the end of the destructor -/
  | die
  /-- about to lock the mutex in reset(), Trigger.cc:56, or operator=, 41 -/
  | lockReset
  /-- owns the mutex, Trigger.cc:57 -/
  | setLow
  /-- about to lock the mutex in operator bool, Trigger.cc:50 -/
  | lockRead
  /-- owns the mutex, Trigger.cc:51 -/
  | reading
  /-- about to lock the mutex in wait, Trigger.cc:74, wait_for, Trigger.h:191, wait_until, 214 -/
  | lockWait (c : Call) (began : Nat)
  /-- owns the mutex, at the test of the predicate in the loop of cv_.wait (Trigger.cc:75,
  Trigger.h:192, 215) -/
  | test (w : Wait)
  /-- blocked in the condition variable -/
  | blocked (w : Wait)
  /-- unblocked, has to reacquire the mutex -/
  | woken (w : Wait)
  /-- owns the mutex, the wait timed out, at the final test of the predicate -/
  | last (w : Wait)
  deriving DecidableEq, Repr

/-- The object and the threads. The members of Trigger.h:219-221 and the positions of all threads. -/
structure St where
  triggered : Bool
  owner : Option Nat
  alive : Bool
  now : Nat
  other : Nat
  pc : Nat → Pc
  err : Bool

/-- What can be observed: the beginning of a call, a change of the level, the result of a call (at the
moment it is determined), and events without influence on the level. -/
inductive Ev where
  | start (i : Nat) (c : Call)
  | level (i : Nat) (b : Bool)
  | result (i : Nat) (c : Call) (r : Option Bool)
  | internal
  | notifyAll (i : Nat)
  | destroyed (i : Nat)
  | timeout (i : Nat)
  | spurious (i : Nat)
  | tick
  | deadAccess (i : Nat)
  deriving DecidableEq, Repr

/-- A step in Trigger.cc:33-76. -/
def St.goto (s : St) (i : Nat) (p : Pc) : St := { s with pc := fun k => if k = i then p else s.pc k }

/-- A deadline has passed. -/
def passed (s : St) : Deadline → Prop
  | .steady t => t ≤ s.now
  | .other t => t ≤ s.other

/-- Where a call begins. -/
def entry (s : St) : Call → Pc
  | .trigger => .lockTrigger false
  | .destroy => .lockTrigger true
  | .reset => .lockReset
  | .read => .lockRead
  | c => .lockWait c s.now

/-- The deadline of a wait: wait_for and sleep (time_util.h:113-117, 135-138) add the duration to the
time on the steady clock; wait_until has its own clock; wait has none. -/
def limitOf (s : St) : Call → Option Deadline
  | .waitFor d => some (.steady (s.now + d))
  | .sleep d => some (.steady (s.now + d))
  | .waitUntil t => some (.other t)
  | _ => none

/-- What a wait returns if it ends with the predicate having the value `b`: wait() returns nothing,
wait_for and wait_until return it, sleep its negation (time_util.h:116). -/
def value (c : Call) (b : Bool) : Option Bool := match c with
  | .sleep _ => some (!b)
  | .wait => none
  | _ => some b

/-- Wakes up a thread that is blocked. std::condition_variable::notify_all, Trigger.cc:60-70. -/
def wake : Pc → Pc
  | .blocked w => .woken w
  | p => p

/-- The next step of a thread accesses the members. -/
def touches : Pc → Bool
  | .idle | .blocked _ => false
  | _ => true

def isBlocked : Pc → Bool
  | .blocked _ => true
  | _ => false

/-- The steps. The interleavings of Trigger.cc:33-76 and Trigger.h:189-216. -/
inductive Step : St → Ev → St → Prop
  | start (s i c) (h : s.pc i = .idle) : Step s (.start i c) (s.goto i (entry s c))
  | lockTrigger (s i d) (ha : s.alive = true) (h : s.pc i = .lockTrigger d) (ho : s.owner = none) :
      Step s .internal ({ s with owner := some i }.goto i (.setHigh d))
  | setHigh (s i d) (ha : s.alive = true) (h : s.pc i = .setHigh d) :
      Step s (.level i true) ({ s with owner := none, triggered := true }.goto i (.notify d))
  | notify (s i) (ha : s.alive = true) (h : s.pc i = .notify false) :
      Step s (.notifyAll i) { s with pc := fun k => if k = i then .idle else wake (s.pc k) }
  | notifyDtor (s i) (ha : s.alive = true) (h : s.pc i = .notify true) :
      Step s (.notifyAll i) { s with pc := fun k => if k = i then .die else wake (s.pc k) }
  | die (s i) (ha : s.alive = true) (h : s.pc i = .die) (hb : ∀ k, isBlocked (s.pc k) = false) :
      Step s (.destroyed i) ({ s with alive := false }.goto i .idle)
  | dieBlocked (s i k) (ha : s.alive = true) (h : s.pc i = .die) (hb : isBlocked (s.pc k) = true) :
      Step s (.deadAccess k) { s with err := true }
  | lockReset (s i) (ha : s.alive = true) (h : s.pc i = .lockReset) (ho : s.owner = none) :
      Step s .internal ({ s with owner := some i }.goto i .setLow)
  | setLow (s i) (ha : s.alive = true) (h : s.pc i = .setLow) :
      Step s (.level i false) ({ s with owner := none, triggered := false }.goto i .idle)
  | lockRead (s i) (ha : s.alive = true) (h : s.pc i = .lockRead) (ho : s.owner = none) :
      Step s .internal ({ s with owner := some i }.goto i .reading)
  | read (s i) (ha : s.alive = true) (h : s.pc i = .reading) :
      Step s (.result i .read (some s.triggered)) ({ s with owner := none }.goto i .idle)
  | lockWait (s i c b) (ha : s.alive = true) (h : s.pc i = .lockWait c b) (ho : s.owner = none) :
      Step s .internal ({ s with owner := some i }.goto i (.test ⟨c, b, limitOf s c⟩))
  | testTrue (s i w) (ha : s.alive = true) (h : s.pc i = .test w) (ht : s.triggered = true) :
      Step s (.result i w.call (value w.call true)) ({ s with owner := none }.goto i .idle)
  | testFalse (s i w) (ha : s.alive = true) (h : s.pc i = .test w) (ht : s.triggered = false) :
      Step s .internal ({ s with owner := none }.goto i (.blocked w))
  | timeout (s i w d) (h : s.pc i = .blocked w) (hd : w.limit = some d) (hp : passed s d) :
      Step s (.timeout i) (s.goto i (.woken w))
  | spurious (s i w) (h : s.pc i = .blocked w) : Step s (.spurious i) (s.goto i (.woken w))
  | relock (s i w) (ha : s.alive = true) (h : s.pc i = .woken w) (ho : s.owner = none) :
      Step s .internal ({ s with owner := some i }.goto i (.test w))
  | relockTimeout (s i w d) (ha : s.alive = true) (h : s.pc i = .woken w) (ho : s.owner = none)
      (hd : w.limit = some d) (hp : passed s d) :
      Step s .internal ({ s with owner := some i }.goto i (.last w))
  | lastTest (s i w) (ha : s.alive = true) (h : s.pc i = .last w) :
      Step s (.result i w.call (value w.call s.triggered)) ({ s with owner := none }.goto i .idle)
  | tick (s n m) (h : s.now ≤ n) : Step s .tick { s with now := n, other := m }
  | dead (s i) (ha : s.alive = false) (h : touches (s.pc i) = true) :
      Step s (.deadAccess i) { s with err := true }

/-- A new object, Trigger.h:113-114, and no thread in a call. -/
def init (b : Bool) : St := ⟨b, none, true, 0, 0, fun _ => .idle, false⟩

/-- Executions, with their events. The interleavings of Trigger.cc:33-76 and Trigger.h:189-216. -/
inductive Run (b : Bool) : List Ev → St → Prop
  | init : Run b [] (init b)
  | step {es : List Ev} {s s' : St} {e : Ev} (h : Run b es s) (hs : Step s e s') : Run b (es ++ [e]) s'

end Gul14.Trigger
