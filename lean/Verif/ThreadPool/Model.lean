import Verif.Basic

/-!
# ThreadPool and TaskHandle, include/gul14/ThreadPool.h and src/ThreadPool.cc

A labelled transition system with `n` worker threads and any number of threads that call member
functions, among them the tasks that the workers are executing (a task gets a reference to the pool).

* The steps of a worker follow ThreadPool::perform_work.  A worker owns the mutex from the lock in line
  206 (or the end of a wait, or line 255) to the next wait, to line 242, or to its end.
* The member functions of the pool that a client calls consist of one critical section, which is one
  step that needs the mutex to be free; add_task then notifies in a separate step.
* The condition variable is modelled as in the C++ standard: a wait releases the mutex and blocks in one
  step; a blocked worker is unblocked by notify_one (which picks any blocked worker), by notify_all, when
  its deadline has passed, or spuriously; it then reacquires the mutex.
* The clock is std::chrono::system_clock, which can be set to any value at any time; time points are
  integers.
* `dying` says that the last shared pointer to the pool has been released, i.e. that the destructor has
  been entered.  From then on, weak_ptr::lock() yields null and shared_from_this() throws.

A call that allocates can fail (step `fail`).  The failure to start a thread and the lack of memory in a
worker, which end the program, are in Verif/ThreadPool/Failure.lean.

Not modelled here: the signal mask, and destructors of function objects that use the pool (they run while the
mutex is locked).  Temporary shared pointers inside the calls are followed in Verif/ThreadPool/Own.lean.
-/
namespace Gul14.Pool

/-- ThreadPool::Task and NamedTask, ThreadPool.h:464-503, without the function. -/
structure Task where
  id : Nat
  name : List UInt8
  start : Int
  deriving DecidableEq, Repr

/-- How a task function ends: with a value or with an exception. How the function in a task ends
(ThreadPool.h:472-486, ThreadPool.cc:240-250). -/
inductive Outcome where
  | value (v : Nat)
  | exception (e : Nat)
  deriving DecidableEq, Repr

/-- The shared state of a std::packaged_task and its std::future. The shared state of a promise and a
future (ThreadPool.h:322-328). -/
inductive Fut where
  | waiting
  | done (o : Outcome)
  /-- the packaged_task was destroyed without having been invoked: future_error(broken_promise) -/
  | broken
  deriving DecidableEq, Repr

/-- std::future::wait_for(0) as used in ThreadPool.h:205-210. -/
def Fut.ready : Fut → Bool
  | .waiting => false
  | _ => true

/-- The member functions with a critical section. The member functions of ThreadPool.h:255-450 and of
TaskHandle, 132-242. -/
inductive Op where
  /-- ThreadPool.h:300-341 -/
  | add (name : List UInt8) (start : Int)
  /-- ThreadPool.cc:97-105 -/
  | cancelAll
  /-- ThreadPool.cc:107-111 -/
  | countPending
  /-- ThreadPool.cc:118-129 -/
  | pendingNames
  /-- ThreadPool.cc:131-135 -/
  | runningNames
  /-- ThreadPool.cc:137-141 -/
  | isFull
  /-- ThreadPool.cc:148-152 -/
  | isIdle
  /-- ThreadPool.cc:172-176 -/
  | isShutdown
  /-- cancel_pending_task, ThreadPool.cc:82-95, private, called by TaskHandle::cancel -/
  | cancel (id : Nat)
  /-- get_task_state, ThreadPool.cc:154-170, private, called by TaskHandle::get_state -/
  | state (id : Nat)
  deriving DecidableEq, Repr

/-- The operations that allocate memory: add_task (ThreadPool.h:315-331) and the two functions that return
names (ThreadPool.cc:118-135).  add_task also moves a function object, which may throw. -/
def Op.allocates : Op → Bool
  | .add _ _ | .pendingNames | .runningNames => true
  | _ => false

/-- The operations that only a TaskHandle calls, through its weak pointer. -/
def Op.handle : Op → Bool
  | .cancel _ | .state _ => true
  | _ => false

/-- TaskState, ThreadPool.h:64-70. -/
inductive TaskState where
  | pending | running | complete | canceled
  deriving DecidableEq, Repr

/-- Return values. -/
inductive Ans where
  | num (n : Nat)
  | flag (b : Bool)
  | names (l : List (List UInt8))
  | state (t : TaskState)
  deriving DecidableEq, Repr

/-- Where a worker is in perform_work. Positions in ThreadPool::perform_work(), ThreadPool.cc:185-266. -/
inductive Wpc where
  /-- has to acquire the mutex: line 206, or at the end of a wait -/
  | want
  /-- owns the mutex, at the head of the loop, 208 -/
  | head
  /-- owns the mutex, has read the clock, 217 -/
  | scan (now : Int)
  /-- blocked in wait, 213, or wait_until, 230 -/
  | sleep (deadline : Option Int)
  /-- executes the function of a task, 246 -/
  | exec (id : Nat)
  /-- the function has returned, has to acquire the mutex, 255 -/
  | done (id : Nat)
  /-- has left perform_work -/
  | over
  deriving DecidableEq, Repr

/-- A calling thread: outside of the pool, or the task that worker `w` executes. -/
inductive Who where
  | ext (k : Nat)
  | task (w : Nat)
  deriving DecidableEq, Repr

/-- Where a caller is. `ptr`: the call is made through a shared pointer. Positions of a thread that
calls the member functions of ThreadPool.cc:68-176. -/
inductive Cpc where
  | idle
  /-- has to acquire the mutex for the critical section -/
  | call (ptr : Bool) (op : Op)
  /-- add_task before notify_one, ThreadPool.h:338 -/
  | notify (ptr : Bool) (id : Nat)
  /-- TaskHandle::cancel after ThreadPool.h:175, before locking the weak pointer -/
  | cancelLock (id : Nat)
  /-- TaskHandle::get_state before locking the weak pointer, 226 -/
  | stateLock (id : Nat)
  /-- TaskHandle::get_state, the pool does not know the task, 230 -/
  | check (id : Nat)
  /-- ~ThreadPool before the lock, ThreadPool.cc:70 -/
  | dtorLock
  /-- ~ThreadPool before notify_all, 73 -/
  | dtorNotify
  /-- ~ThreadPool, joining, 75-79 -/
  | dtorJoin
  /-- std::terminate was called -/
  | aborted
  deriving DecidableEq, Repr

/-- The numbers of threads and of tasks that can be queued. The arguments of the constructor,
ThreadPool.cc:51-66. -/
structure Cfg where
  threads : Nat
  cap : Nat
  deriving DecidableEq, Repr

/-- make_shared and the constructor, ThreadPool.cc:51-66 and 178-183; the limits are in ThreadPool.h:252
and 255. -/
def make (threads cap : Nat) : Res Cfg :=
  if threads = 0 ∨ threads > 10000 then .throw .invalidArgument
  else if cap = 0 ∨ cap > 10000000 then .throw .invalidArgument
  else .ok ⟨threads, cap⟩

/-- The pool, the threads, the futures of the tasks and the handles. There is at most one handle per
task because handles cannot be copied: `handle` says that it was created, `valid` that future_.valid()
is true. The data members of ThreadPool.h:505-527 and the state of all threads. -/
structure St where
  owner : Option Nat
  wpc : Nat → Wpc
  cpc : Who → Cpc
  pending : List Task
  runIds : List Nat
  runNames : List (List UInt8)
  nextId : Nat
  shutdown : Bool
  dying : Bool
  destroyed : Bool
  clock : Int
  fut : Nat → Fut
  handle : Nat → Bool
  valid : Nat → Bool

/-- What can be observed.  The event of a call is at the moment its result is determined. -/
inductive Ev where
  | tick (t : Int)
  | internal
  | spurious (w : Nat)
  | timeout (w : Nat)
  | begin (c : Who) (op : Op)
  | added (c : Who) (t : Task)
  | full (c : Who)
  /-- std::bad_alloc, or another exception of an allocation, or of the function object's constructor -/
  | failed (c : Who) (op : Op)
  /-- logic_error from lock_pool_or_throw, or bad_weak_ptr from shared_from_this -/
  | expired (c : Who)
  | canceled (c : Who) (id : Nat) (b : Bool)
  | cleared (c : Who) (n : Nat)
  | answer (c : Who) (op : Op) (r : Ans)
  /-- the future of the handle of task `id` is set to an empty one -/
  | emptied (c : Who) (id : Nat)
  /-- TaskHandle::is_complete -/
  | complete (c : Who) (id : Nat) (b : Bool)
  /-- TaskHandle::get_result; `none`: logic_error -/
  | result (c : Who) (id : Nat) (r : Option Fut)
  | started (w : Nat) (id : Nat) (now : Int)
  | ended (w : Nat) (id : Nat) (o : Outcome)
  | retired (w : Nat) (id : Nat)
  | release (c : Who)
  | shutdown (c : Who)
  | destroyed (c : Who)
  | terminate (c : Who)
  deriving DecidableEq, Repr

def St.setW (s : St) (w : Nat) (p : Wpc) : St := { s with wpc := fun k => if k = w then p else s.wpc k }
def St.setC (s : St) (c : Who) (p : Cpc) : St := { s with cpc := fun k => if k = c then p else s.cpc k }

/-- The first task that is due, and the queue without it: find_if, ThreadPool.cc:218-219, and erase, 237. -/
def pick (now : Int) : List Task → Option (Task × List Task)
  | [] => none
  | t :: ts =>
      if t.start ≤ now then some (t, ts)
      else match pick now ts with
        | none => none
        | some (x, r) => some (x, t :: r)

/-- The start time found by min_element, ThreadPool.cc:223-228. -/
def earliest : List Task → Option Int
  | [] => none
  | t :: ts => some (ts.foldl (fun m x => if x.start < m then x.start else m) t.start)

/-- ThreadPool.cc:257-263: the id and the name at the same index are erased. -/
def retire (id : Nat) (ids : List Nat) (names : List (List UInt8)) : List Nat × List (List UInt8) :=
  match ids.findIdx? (· == id) with
  | some i => (ids.eraseIdx i, names.eraseIdx i)
  | none => (ids, names)

/-- is_full_i, ThreadPool.cc:143-146. -/
def isFull (cfg : Cfg) (s : St) : Bool := decide (s.pending.length ≥ cfg.cap)

/-- The promises of destroyed tasks are broken. Destruction of the promises in the pending tasks
(ThreadPool.cc:82-105).  Simplified: at once; `clear()` destroys the tasks one after the other, so that for a moment a thread with
several handles can see some of the futures ready and others not yet. -/
def breakAll (l : List Task) (fut : Nat → Fut) : Nat → Fut :=
  fun id => if id ∈ l.map Task.id then .broken else fut id

/-- The critical sections. The critical sections of ThreadPool.cc:68-176. -/
def section_ (cfg : Cfg) (s : St) (c : Who) (ptr : Bool) : Op → Ev × St
  | .add name start =>
      if isFull cfg s then (.full c, s.setC c .idle)
      else if s.dying then (.expired c, s.setC c .idle)
      else
        let t : Task := ⟨s.nextId, name, start⟩
        (.added c t, { s with
          pending := s.pending ++ [t]
          nextId := (s.nextId + 1) % 2 ^ 64
          fut := fun k => if k = s.nextId then .waiting else s.fut k
          handle := fun k => if k = s.nextId then true else s.handle k
          valid := fun k => if k = s.nextId then true else s.valid k }.setC c (.notify ptr s.nextId))
  | .cancelAll =>
      (.cleared c s.pending.length,
        { s with pending := [], fut := breakAll s.pending s.fut }.setC c .idle)
  | .countPending => (.answer c .countPending (.num s.pending.length), s.setC c .idle)
  | .pendingNames => (.answer c .pendingNames (.names (s.pending.map Task.name)), s.setC c .idle)
  | .runningNames => (.answer c .runningNames (.names s.runNames), s.setC c .idle)
  | .isFull => (.answer c .isFull (.flag (isFull cfg s)), s.setC c .idle)
  | .isIdle => (.answer c .isIdle (.flag (s.pending.isEmpty && s.runIds.isEmpty)), s.setC c .idle)
  | .isShutdown => (.answer c .isShutdown (.flag s.shutdown), s.setC c .idle)
  | .cancel id =>
      if s.pending.any (·.id == id) then
        (.canceled c id true,
          { s with
            pending := s.pending.eraseP (·.id == id)
            fut := fun k => if k = id then .broken else s.fut k }.setC c .idle)
      else (.canceled c id false, s.setC c .idle)
  | .state id =>
      if s.runIds.contains id then (.answer c (.state id) (.state .running), s.setC c .idle)
      else if s.pending.any (·.id == id) then (.answer c (.state id) (.state .pending), s.setC c .idle)
      else (.internal, s.setC c (.check id))

/-- TaskHandle::is_complete, ThreadPool.h:204-210. -/
def isComplete (s : St) (id : Nat) : Bool := s.valid id && (s.fut id).ready

/-- A thread that can call: any outside thread, or a task that is being executed. -/
def canCall (cfg : Cfg) (s : St) : Who → Prop
  | .ext _ => True
  | .task w => w < cfg.threads ∧ ∃ id, s.wpc w = .exec id

/-- A thread that is in a call made through a shared pointer. -/
def usesPtr : Cpc → Bool
  | .call ptr _ => ptr
  | .notify ptr _ => ptr
  | _ => false

def isSleep : Wpc → Bool
  | .sleep _ => true
  | _ => false

/-- std::condition_variable, ThreadPool.cc:213, 230. -/
def wake : Wpc → Wpc
  | .sleep _ => .want
  | p => p

/-- The interleavings of ThreadPool.cc:51-266. -/
inductive Step (cfg : Cfg) : St → Ev → St → Prop
  -- environment
  | tick (s t) : Step cfg s (.tick t) { s with clock := t }
  -- calls of the member functions of the pool; outside threads own a shared pointer
  | begin (s c ptr op) (hi : s.cpc c = .idle) (hc : canCall cfg s c) (hop : op.handle = false)
      (hext : ∀ k, c = .ext k → ptr = true) (hp : ptr = true → s.dying = false) :
      Step cfg s (.begin c op) (s.setC c (.call ptr op))
  | body (s c ptr op) (h : s.cpc c = .call ptr op) (ho : s.owner = none) :
      Step cfg s (section_ cfg s c ptr op).1 (section_ cfg s c ptr op).2
  -- the same, but an exception ends the critical section; that this leaves the pool as it was is shown for
  -- every point at which one can occur in Verif/ThreadPool/Failure.lean
  | fail (s c ptr op) (h : s.cpc c = .call ptr op) (ho : s.owner = none) (ha : op.allocates = true) :
      Step cfg s (.failed c op) (s.setC c .idle)
  -- cv_.notify_one(), ThreadPool.h:338
  | notifyOne (s c ptr id w) (h : s.cpc c = .notify ptr id) (hw : w < cfg.threads)
      (hs : isSleep (s.wpc w) = true) : Step cfg s .internal ((s.setW w .want).setC c .idle)
  | notifyNone (s c ptr id) (h : s.cpc c = .notify ptr id)
      (hs : ∀ w, w < cfg.threads → isSleep (s.wpc w) = false) : Step cfg s .internal (s.setC c .idle)
  -- TaskHandle::cancel, ThreadPool.h:173-177: line 175
  | handleCancel (s c id) (hk : s.handle id = true) (hi : s.cpc c = .idle) (hc : canCall cfg s c) :
      Step cfg s (.emptied c id)
        ({ s with valid := fun k => if k = id then false else s.valid k }.setC c (.cancelLock id))
  -- line 176: lock_pool_or_throw, ThreadPool.cc:35-42
  | handleCancelLock (s c id) (h : s.cpc c = .cancelLock id) (hd : s.dying = false) :
      Step cfg s .internal (s.setC c (.call true (.cancel id)))
  | handleCancelThrow (s c id) (h : s.cpc c = .cancelLock id) (hd : s.dying = true) :
      Step cfg s (.expired c) (s.setC c .idle)
  -- TaskHandle::get_state, ThreadPool.h:224-236
  | handleState (s c id) (hk : s.handle id = true) (hi : s.cpc c = .idle) (hc : canCall cfg s c) :
      Step cfg s (.begin c (.state id)) (s.setC c (.stateLock id))
  | handleStateLock (s c id) (h : s.cpc c = .stateLock id) (hd : s.dying = false) :
      Step cfg s .internal (s.setC c (.call true (.state id)))
  | handleStateThrow (s c id) (h : s.cpc c = .stateLock id) (hd : s.dying = true) :
      Step cfg s (.expired c) (s.setC c .idle)
  | handleCheck (s c id) (h : s.cpc c = .check id) :
      Step cfg s (.answer c (.state id) (.state (if isComplete s id then .complete else .canceled)))
        (s.setC c .idle)
  -- TaskHandle::is_complete, ThreadPool.h:204-210
  | handleComplete (s c id) (hk : s.handle id = true) (hi : s.cpc c = .idle) (hc : canCall cfg s c) :
      Step cfg s (.complete c id (isComplete s id)) s
  -- TaskHandle::get_result, ThreadPool.h:185-190; it blocks until the future is ready
  | handleNoResult (s c id) (hk : s.handle id = true) (hi : s.cpc c = .idle) (hc : canCall cfg s c)
      (hv : s.valid id = false) :
      Step cfg s (.result c id none) s
  | handleResult (s c id) (hk : s.handle id = true) (hi : s.cpc c = .idle) (hc : canCall cfg s c)
      (hv : s.valid id = true) (hr : (s.fut id).ready = true) :
      Step cfg s (.result c id (some (s.fut id)))
        { s with valid := fun k => if k = id then false else s.valid k }
  -- perform_work, ThreadPool.cc:185-265
  | lock (s w) (hw : w < cfg.threads) (h : s.wpc w = .want) (ho : s.owner = none) :
      Step cfg s .internal ({ s with owner := some w }.setW w .head)
  | leave (s w) (hw : w < cfg.threads) (h : s.wpc w = .head) (hs : s.shutdown = true) :
      Step cfg s .internal ({ s with owner := none }.setW w .over)
  | wait (s w) (hw : w < cfg.threads) (h : s.wpc w = .head) (hs : s.shutdown = false)
      (hp : s.pending = []) : Step cfg s .internal ({ s with owner := none }.setW w (.sleep none))
  | read (s w) (hw : w < cfg.threads) (h : s.wpc w = .head) (hs : s.shutdown = false)
      (hp : s.pending ≠ []) : Step cfg s .internal (s.setW w (.scan s.clock))
  | waitUntil (s w now) (hw : w < cfg.threads) (h : s.wpc w = .scan now)
      (hp : pick now s.pending = none) :
      Step cfg s .internal ({ s with owner := none }.setW w (.sleep (earliest s.pending)))
  | start (s w now t rest) (hw : w < cfg.threads) (h : s.wpc w = .scan now)
      (hp : pick now s.pending = some (t, rest)) :
      Step cfg s (.started w t.id now) ({ s with
        owner := none
        pending := rest
        runIds := s.runIds ++ [t.id]
        runNames := s.runNames ++ [t.name] }.setW w (.exec t.id))
  | finish (s w id o) (hw : w < cfg.threads) (h : s.wpc w = .exec id) (hc : s.cpc (.task w) = .idle) :
      Step cfg s (.ended w id o)
        ({ s with fut := fun k => if k = id then .done o else s.fut k }.setW w (.done id))
  | retire (s w id) (hw : w < cfg.threads) (h : s.wpc w = .done id) (ho : s.owner = none) :
      Step cfg s (.retired w id) ({ s with
        owner := some w
        runIds := (retire id s.runIds s.runNames).1
        runNames := (retire id s.runIds s.runNames).2 }.setW w .head)
  | timeout (s w d) (hw : w < cfg.threads) (h : s.wpc w = .sleep (some d)) (hd : d ≤ s.clock) :
      Step cfg s (.timeout w) (s.setW w .want)
  | spurious (s w) (hw : w < cfg.threads) (h : isSleep (s.wpc w) = true) :
      Step cfg s (.spurious w) (s.setW w .want)
  -- the last shared pointer is released: ~ThreadPool, ThreadPool.cc:68-80
  | release (s c) (hi : s.cpc c = .idle) (hc : canCall cfg s c) (hd : s.dying = false)
      (hu : ∀ c', usesPtr (s.cpc c') = false) :
      Step cfg s (.release c) ({ s with dying := true }.setC c .dtorLock)
  | dtorLock (s c) (h : s.cpc c = .dtorLock) (ho : s.owner = none) :
      Step cfg s (.shutdown c) ({ s with shutdown := true }.setC c .dtorNotify)
  | dtorNotify (s c) (h : s.cpc c = .dtorNotify) :
      Step cfg s .internal ({ s with wpc := fun w => wake (s.wpc w) }.setC c .dtorJoin)
  | dtorJoin (s c) (h : s.cpc c = .dtorJoin) (ho : ∀ w, w < cfg.threads → s.wpc w = .over) :
      Step cfg s (.destroyed c) ({ s with
        destroyed := true
        pending := []
        fut := breakAll s.pending s.fut }.setC c .idle)
  -- std::thread::join() called by the thread itself throws; the destructor is noexcept
  | dtorSelf (s w) (h : s.cpc (.task w) = .dtorJoin) (hw : w < cfg.threads)
      (ho : ∀ w', w' < w → s.wpc w' = .over) :
      Step cfg s (.terminate (.task w)) (s.setC (.task w) .aborted)

/-- A new pool, ThreadPool.cc:51-66, ThreadPool.h:505-524. -/
def init : St where
  owner := none
  wpc := fun _ => .want
  cpc := fun _ => .idle
  pending := []
  runIds := []
  runNames := []
  nextId := 0
  shutdown := false
  dying := false
  destroyed := false
  clock := 0
  fut := fun _ => .waiting
  handle := fun _ => false
  valid := fun _ => false

/-- Executions, with their events. The interleavings of ThreadPool.cc:51-266. -/
inductive Run (cfg : Cfg) : List Ev → St → Prop
  | init (h : make cfg.threads cfg.cap = .ok cfg) : Run cfg [] init
  | step {es : List Ev} {s s' : St} {e : Ev} (h : Run cfg es s) (hs : Step cfg s e s') :
      Run cfg (es ++ [e]) s'

end Gul14.Pool
