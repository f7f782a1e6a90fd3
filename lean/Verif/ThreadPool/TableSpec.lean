import Verif.Basic

/-!
# A thread pool as a table of tasks, on which one thing happens at a time

Nothing here refers to the code: the functions of the pool, what each of them does to the table of tasks, and the
histories in which every call takes effect at one instant between its beginning and its end.
-/
namespace Gul14.Spec.TaskTable

structure Task where
  id : Nat
  name : List UInt8
  start : Int
  deriving DecidableEq, Repr

/-- The functions of the pool.  `cancel` and `state` are called by task handles; `shutdown` is the first thing that the destructor does. -/
inductive Op where
  | add (name : List UInt8) (start : Int)
  | cancel (id : Nat)
  | cancelAll
  | countPending
  | pendingNames
  | runningNames
  | isFull
  | isIdle
  | isShutdown
  | state (id : Nat)
  | shutdown
  deriving DecidableEq, Repr

inductive Phase where
  | running | pending | unknown
  deriving DecidableEq, Repr

/-- What they return. -/
inductive Ans where
  | task (id : Nat)
  /-- an exception because there are too many tasks -/
  | full
  /-- another exception -/
  | failed
  | flag (b : Bool)
  | num (n : Nat)
  | names (l : List (List UInt8))
  | phase (p : Phase)
  | done
  deriving DecidableEq, Repr

/-- The tasks that wait, in the order in which they were added; the tasks that are running; the number of the next task; whether the pool
is being shut down. -/
structure Table where
  queue : List Task
  running : List (Nat × List UInt8)
  next : Nat
  shut : Bool

def empty : Table := ⟨[], [], 0, false⟩

/-- What a call does if nothing else happens at the same time: it takes the table from `T` to `T'` and returns `a`. -/
def Does (cap : Nat) (op : Op) (T : Table) (a : Ans) (T' : Table) : Prop :=
  match op with
  | .add name start =>
      (a = .failed ∧ T' = T) ∨ (cap ≤ T.queue.length ∧ a = .full ∧ T' = T) ∨
      (T.queue.length < cap ∧ a = .task T.next ∧
        T' = { T with queue := T.queue ++ [⟨T.next, name, start⟩], next := (T.next + 1) % 2 ^ 64 })
  | .cancel id =>
      ((∀ t ∈ T.queue, t.id ≠ id) ∧ a = .flag false ∧ T' = T) ∨
      ∃ l t r, T.queue = l ++ t :: r ∧ (∀ x ∈ l, x.id ≠ id) ∧ t.id = id ∧ a = .flag true ∧ T' = { T with queue := l ++ r }
  | .cancelAll => a = .num T.queue.length ∧ T' = { T with queue := [] }
  | .countPending => a = .num T.queue.length ∧ T' = T
  | .pendingNames => (a = .names (T.queue.map Task.name) ∨ a = .failed) ∧ T' = T
  | .runningNames => (a = .names (T.running.map Prod.snd) ∨ a = .failed) ∧ T' = T
  | .isFull => a = .flag (decide (cap ≤ T.queue.length)) ∧ T' = T
  | .isIdle => a = .flag (decide (T.queue = [] ∧ T.running = [])) ∧ T' = T
  | .isShutdown => a = .flag T.shut ∧ T' = T
  | .state id => T' = T ∧ a = .phase (if ∃ x ∈ T.running, x.1 = id then .running else if ∃ t ∈ T.queue, t.id = id then .pending else .unknown)
  | .shutdown => a = .done ∧ T' = { T with shut := true }

/-- A worker takes the first task that is due at the time `now`; not when the pool is being shut down. -/
def Takes (now : Int) (T : Table) (t : Task) (T' : Table) : Prop :=
  T.shut = false ∧ ∃ l r, T.queue = l ++ t :: r ∧ (∀ x ∈ l, now < x.start) ∧ t.start ≤ now ∧
    T' = { T with queue := l ++ r, running := T.running ++ [(t.id, t.name)] }

/-- A task is over: it is not running any more. -/
def Drops (id : Nat) (T T' : Table) : Prop :=
  ((∀ x ∈ T.running, x.1 ≠ id) ∧ T' = T) ∨
  ∃ l x r, T.running = l ++ x :: r ∧ (∀ y ∈ l, y.1 ≠ id) ∧ x.1 = id ∧ T' = { T with running := l ++ r }

/-- Who calls: a thread of the user, or the task that worker `w` executes. -/
inductive Who where
  | ext (k : Nat)
  | task (w : Nat)
  deriving DecidableEq, Repr

/-- What can be seen from outside: calls and returns, and the beginnings and ends of the functions of the tasks. -/
inductive Event where
  | call (c : Who) (op : Op)
  | ret (c : Who) (a : Ans)
  | started (w : Nat) (id : Nat)
  | ended (w : Nat) (id : Nat)
  deriving DecidableEq, Repr

/-- A caller: it is not in a call, has called, or its call has taken effect. -/
inductive Caller where
  | idle
  | called (op : Op)
  | answered (a : Ans)

/-- A worker: it has no task, has taken one, executes its function, or the function has ended. -/
inductive Worker where
  | free
  | took (t : Task)
  | busy (t : Task)
  | over (t : Task)

structure State where
  table : Table
  caller : Who → Caller
  worker : Nat → Worker

def State.setC (s : State) (c : Who) (x : Caller) : State := { s with caller := fun k => if k = c then x else s.caller k }
def State.setW (s : State) (w : Nat) (x : Worker) : State := { s with worker := fun k => if k = w then x else s.worker k }

/-- Tasks call functions of the pool only while they are executed. -/
def MayCall (s : State) : Who → Prop
  | .ext _ => True
  | .task w => ∃ t, s.worker w = .busy t

/-- The histories of a table that is changed by one thing at a time: a call takes effect at one instant after its beginning, and it returns
what was decided then.  `n`: the number of workers. -/
inductive Atomic (n cap : Nat) : List Event → State → Prop
  | init : Atomic n cap [] ⟨empty, fun _ => .idle, fun _ => .free⟩
  | call {h s c op} (hr : Atomic n cap h s) (hi : s.caller c = .idle) (hm : MayCall s c) : Atomic n cap (h ++ [.call c op]) (s.setC c (.called op))
  | effect {h s c op a T'} (hr : Atomic n cap h s) (hc : s.caller c = .called op) (hd : Does cap op s.table a T') :
      Atomic n cap h ({ s with table := T' }.setC c (.answered a))
  | ret {h s c a} (hr : Atomic n cap h s) (hc : s.caller c = .answered a) : Atomic n cap (h ++ [.ret c a]) (s.setC c .idle)
  | take {h s w now t T'} (hr : Atomic n cap h s) (hw : w < n) (hf : s.worker w = .free) (hd : Takes now s.table t T') :
      Atomic n cap h ({ s with table := T' }.setW w (.took t))
  | start {h s w t} (hr : Atomic n cap h s) (hf : s.worker w = .took t) : Atomic n cap (h ++ [.started w t.id]) (s.setW w (.busy t))
  | finish {h s w t} (hr : Atomic n cap h s) (hf : s.worker w = .busy t) (hi : s.caller (.task w) = .idle) :
      Atomic n cap (h ++ [.ended w t.id]) (s.setW w (.over t))
  | drop {h s w t T'} (hr : Atomic n cap h s) (hf : s.worker w = .over t) (hd : Drops t.id s.table T') :
      Atomic n cap h ({ s with table := T' }.setW w .free)

end Gul14.Spec.TaskTable
