import Verif.ThreadPool.Model

/-!
# What the events of an execution say about the tasks

The definitions only use the list of events, not the state of the pool.
-/
namespace Gul14.Spec.Pool
open Gul14.Pool

/-- The tasks accepted by add_task, in order. -/
def accepted : List Ev → List Task
  | [] => []
  | .added _ t :: es => t :: accepted es
  | _ :: es => accepted es

/-- The ids of the tasks that were started, in order. -/
def startedIds : List Ev → List Nat
  | [] => []
  | .started _ id _ :: es => id :: startedIds es
  | _ :: es => startedIds es

/-- What has happened to a task. -/
inductive Fate where
  /-- not added so far -/
  | unknown
  | pending
  | running
  /-- its function has returned or thrown, the worker has not yet taken note of that -/
  | ended (o : Outcome)
  | finished (o : Outcome)
  /-- removed from the queue -/
  | canceled
  deriving DecidableEq, Repr

/-- The life of a task.  `none`: this must not happen. -/
def next (id : Nat) (f : Fate) : Ev → Option Fate
  | .added _ t => if t.id = id then (if f = .unknown then some .pending else none) else some f
  | .started _ i _ => if i = id then (if f = .pending then some .running else none) else some f
  | .ended _ i o => if i = id then (if f = .running then some (.ended o) else none) else some f
  | .retired _ i => if i = id then (match f with | .ended o => some (.finished o) | _ => none) else some f
  | .canceled _ i true => if i = id then (if f = .pending then some .canceled else none) else some f
  | .canceled _ i false => if i = id ∧ f = .pending then none else some f
  | .cleared _ _ => if f = .pending then some .canceled else some f
  | .destroyed _ => if f = .pending then some .canceled else some f
  | _ => some f

def lifeFrom (id : Nat) (f : Fate) : List Ev → Option Fate
  | [] => some f
  | e :: es => match next id f e with
    | none => none
    | some f' => lifeFrom id f' es

/-- What has happened to task `id`, or `none` if the events are contradictory. -/
def fate (es : List Ev) (id : Nat) : Option Fate := lifeFrom id .unknown es

/-- The queue: the accepted tasks that are pending, in the order in which they were added. -/
def queue (es : List Ev) : List Task := (accepted es).filter (fun t => fate es t.id = some .pending)

/-- The task is listed as running. -/
def Listed : Option Fate → Bool
  | some .running | some (.ended _) => true
  | _ => false

/-- The tasks that are listed as running, in the order in which they were started. -/
def running (es : List Ev) : List Nat := (startedIds es).filter (fun id => Listed (fate es id))

/-- Shutdown was requested. -/
def shut : List Ev → Bool
  | [] => false
  | .shutdown _ :: _ => true
  | _ :: es => shut es

/-- The last reading of the clock. -/
def clockAfter (t : Int) : List Ev → Int
  | [] => t
  | .tick t' :: es => clockAfter t' es
  | _ :: es => clockAfter t es

/-- The future of the handle of task `id` was given away by cancel() or get_result(). -/
def consumed (id : Nat) : List Ev → Bool
  | [] => false
  | .emptied _ i :: es => i == id || consumed id es
  | .result _ i (some _) :: es => i == id || consumed id es
  | _ :: es => consumed id es

/-- What a future shows. -/
def promised : Fate → Fut
  | .unknown | .pending | .running => .waiting
  | .ended o | .finished o => .done o
  | .canceled => .broken

/-- Task ids have not been exhausted. -/
def Small (es : List Ev) : Prop := (accepted es).length ≤ 2 ^ 64

/-- What the query functions report. -/
def Reports (cap : Nat) (es : List Ev) : Op → Ans → Prop
  | .countPending, r => r = .num (queue es).length
  | .pendingNames, r => r = .names ((queue es).map Task.name)
  | .runningNames, r => ∃ l : List Task, l.map Task.id = running es ∧ (∀ t, t ∈ l → t ∈ accepted es) ∧
      r = .names (l.map Task.name)
  | .isFull, r => r = .flag (decide ((queue es).length = cap))
  | .isIdle, r => r = .flag (decide (queue es = [] ∧ running es = []))
  | .isShutdown, r => r = .flag (shut es)
  | _, _ => False

end Gul14.Spec.Pool
