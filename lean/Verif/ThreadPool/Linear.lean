import Verif.ThreadPool.TableSpec

/-!
# ThreadPool, statement by statement

Every function of the pool as a sequence of locks, unlocks, reads and writes; any thread can do something between any two of them.  The
condition variable only matters in that a wait unlocks the mutex and locks it again.
-/
namespace Gul14.Pool.Linear
open Gul14.Spec.TaskTable

/-- The protected members, ThreadPool.h:519-524. -/
structure Mem where
  pending : List Task
  runIds : List Nat
  runNames : List (List UInt8)
  nextId : Nat
  shutdown : Bool

/-- What a thread has to do.  A read looks at the members, and the rest depends on what was found. The statements of ThreadPool.h:313-338 and
ThreadPool.cc:68-265. -/
inductive Prog where
  /-- the function returns -/
  | done (a : Ans)
  | lock (p : Prog)
  | unlock (p : Prog)
  | rd (k : Mem → Prog)
  | wr (f : Mem → Mem) (p : Prog)
  /-- system_clock::now() -/
  | clock (k : Int → Prog)
  /-- the function of the task, about to be called -/
  | run (t : Task) (p : Prog)
  /-- the function of the task, being executed -/
  | running (t : Task) (p : Prog)
  /-- the head of the loop of perform_work -/
  | again
  /-- the end of perform_work -/
  | exit

/-- Where an exception occurs: making the text of the message, making the task, taking a shared pointer to the pool that is being
destroyed, growing the queue. ThreadPool.h:315-331. -/
inductive Point where
  | message | make | expired | queue
  deriving DecidableEq, Repr

/-- add_task, ThreadPool.h:313-338.  `fail`: the point where an exception occurs.  (That is decided when the call begins; before it
occurs, it has no influence on anything.) The exception unlocks the mutex. -/
def add (cap : Nat) (name : List UInt8) (start : Int) (fail : Option Point) : Prog :=
  .lock <| .rd fun m =>                                                                          -- 313, 315
    if m.pending.length ≥ cap then
      .rd fun _ => if fail = some .message then .unlock (.done .failed) else .unlock (.done .full) -- 317-319
    else if fail = some .make then .unlock (.done .failed)                                       -- 324
    else .rd fun m => let id := m.nextId                                                         -- 327
      if fail = some .expired then .unlock (.done .failed)                                       -- 328
      else if fail = some .queue then .unlock (.done .failed)
      else .rd fun m => let id' := m.nextId
        .wr (fun m => { m with pending := m.pending ++ [⟨id', name, start⟩] }) <|                -- 330
        .wr (fun m => { m with nextId := (m.nextId + 1) % 2 ^ 64 }) <|                           -- 333
        .unlock (.done (.task id))                                                               -- 335

/-- cancel_pending_task, ThreadPool.cc:82-95. -/
def cancel (id : Nat) : Prog :=
  .lock <| .rd fun m => match m.pending.findIdx? (·.id == id) with
    | some i => .wr (fun m => { m with pending := m.pending.eraseIdx i }) <| .unlock (.done (.flag true))
    | none => .unlock (.done (.flag false))

/-- cancel_pending_tasks, ThreadPool.cc:97-105. -/
def cancelAll : Prog :=
  .lock <| .rd fun m => let n := m.pending.length
    .wr (fun m => { m with pending := [] }) <| .unlock (.done (.num n))

/-- count_pending, ThreadPool.cc:107-111. -/
def countPending : Prog := .lock <| .rd fun m => .unlock (.done (.num m.pending.length))

/-- The loop in get_pending_task_names, ThreadPool.cc:125-126: `n` names to copy, from index `i` on. -/
def copyNames : Nat → Nat → List (List UInt8) → Prog
  | 0, _, l => .unlock (.done (.names l))
  | n + 1, i, l => .rd fun m => copyNames n (i + 1) (l ++ [((m.pending[i]?).map Task.name).getD []])

/-- get_pending_task_names, ThreadPool.cc:118-129.  `fail`: memory runs out. -/
def pendingNames (fail : Bool) : Prog :=
  .lock <| .rd fun m => if fail then .unlock (.done .failed) else copyNames m.pending.length 0 []

/-- get_running_task_names, ThreadPool.cc:131-135. -/
def runningNames (fail : Bool) : Prog :=
  .lock <| .rd fun m => if fail then .unlock (.done .failed) else .unlock (.done (.names m.runNames))

/-- is_full, ThreadPool.cc:137-146. -/
def isFull (cap : Nat) : Prog := .lock <| .rd fun m => .unlock (.done (.flag (decide (m.pending.length ≥ cap))))

/-- is_idle, ThreadPool.cc:148-152. -/
def isIdle : Prog :=
  .lock <| .rd fun m =>
    if m.pending.isEmpty then .rd fun m => .unlock (.done (.flag m.runIds.isEmpty)) else .unlock (.done (.flag false))

/-- is_shutdown_requested, ThreadPool.cc:172-176. -/
def isShutdown : Prog := .lock <| .rd fun m => .unlock (.done (.flag m.shutdown))

/-- get_task_state, ThreadPool.cc:154-170. -/
def state (id : Nat) : Prog :=
  .lock <| .rd fun m =>
    if m.runIds.contains id then .unlock (.done (.phase .running))
    else .rd fun m => if m.pending.any (·.id == id) then .unlock (.done (.phase .pending)) else .unlock (.done (.phase .unknown))

/-- The beginning of the destructor, ThreadPool.cc:70-72. -/
def shutdown : Prog := .lock <| .wr (fun m => { m with shutdown := true }) <| .unlock (.done .done)

/-- The functions of the pool, ThreadPool.h:300-394. -/
def prog (cap : Nat) (fail : Option Point) : Op → Prog
  | .add name start => add cap name start fail
  | .cancel id => cancel id
  | .cancelAll => cancelAll
  | .countPending => countPending
  | .pendingNames => pendingNames fail.isSome
  | .runningNames => runningNames fail.isSome
  | .isFull => isFull cap
  | .isIdle => isIdle
  | .isShutdown => isShutdown
  | .state id => state id
  | .shutdown => shutdown

/-- The end of a round, ThreadPool.cc:255-263: the mutex is locked and the task removed from the lists. -/
def retire (id : Nat) : Prog :=
  .rd fun m => match m.runIds.findIdx? (· == id) with
    | some i => .wr (fun m => { m with runIds := m.runIds.eraseIdx i }) <|
        .wr (fun m => { m with runNames := m.runNames.eraseIdx i }) .again
    | none => .again

/-- After the clock has been read, ThreadPool.cc:218-246: wait until a task is due, or run the first one that is. -/
def afterClock (now : Int) : Prog :=
  .rd fun m => match m.pending.findIdx? (fun t => decide (t.start ≤ now)) with
    | none => .rd fun _ => .unlock (.lock .again)                                                 -- 221-231
    | some i => .rd fun m => match m.pending[i]? with                                             -- 234-236
      | none => .exit -- does not happen
      | some t => .wr (fun m => { m with pending := m.pending.eraseIdx i }) <|                    -- 237
          .wr (fun m => { m with runIds := m.runIds ++ [t.id] }) <|                               -- 239
          .wr (fun m => { m with runNames := m.runNames ++ [t.name] }) <|                         -- 240
          .unlock (.run t (.lock (retire t.id)))                                                  -- 242-255

/-- One round of the loop, ThreadPool.cc:208-216. -/
def round : Prog :=
  .rd fun m => if m.shutdown then .unlock .exit
    else .rd fun m => if m.pending.isEmpty then .unlock (.lock .again) else .clock afterClock

/-- A worker, ThreadPool.cc:206. -/
def worker : Prog := .lock .again

/-- The threads: callers and workers. -/
inductive Thr where
  | caller (c : Who)
  | worker (w : Nat)
  deriving DecidableEq, Repr

/-- The members, the owner of the mutex, and what each thread has to do (`none`: nothing). ThreadPool.h:505-524. -/
structure St where
  mem : Mem
  owner : Option Thr
  pc : Thr → Option Prog

def St.set (s : St) (c : Thr) (p : Option Prog) : St := { s with pc := fun k => if k = c then p else s.pc k }

/-- Tasks call functions of the pool only while they are executed. -/
def mayCall (s : St) : Who → Prop
  | .ext _ => True
  | .task w => ∃ t p, s.pc (.worker w) = some (.running t p)

/-- One step of thread `c`, with what is seen from outside. The interleavings of ThreadPool.h:300-341 and ThreadPool.cc:68-265. -/
inductive Step (cap : Nat) : St → List Event → St → Prop
  | call {s} {c : Who} (op : Op) (fail : Option Point) (h : s.pc (.caller c) = none) (hm : mayCall s c) :
      Step cap s [.call c op] (s.set (.caller c) (some (prog cap fail op)))
  | ret {s} {c : Who} (a : Ans) (h : s.pc (.caller c) = some (.done a)) : Step cap s [.ret c a] (s.set (.caller c) none)
  | lock {s c} (p : Prog) (h : s.pc c = some (.lock p)) (ho : s.owner = none) : Step cap s [] ({ s with owner := some c }.set c (some p))
  | unlock {s c} (p : Prog) (h : s.pc c = some (.unlock p)) : Step cap s [] ({ s with owner := none }.set c (some p))
  | rd {s c} (k : Mem → Prog) (h : s.pc c = some (.rd k)) : Step cap s [] (s.set c (some (k s.mem)))
  | wr {s c} (f : Mem → Mem) (p : Prog) (h : s.pc c = some (.wr f p)) : Step cap s [] ({ s with mem := f s.mem }.set c (some p))
  | clock {s c} (k : Int → Prog) (now : Int) (h : s.pc c = some (.clock k)) : Step cap s [] (s.set c (some (k now)))
  | again {s c} (h : s.pc c = some .again) : Step cap s [] (s.set c (some round))
  | start {s w} (t : Task) (p : Prog) (h : s.pc (.worker w) = some (.run t p)) :
      Step cap s [.started w t.id] (s.set (.worker w) (some (.running t p)))
  | finish {s w} (t : Task) (p : Prog) (h : s.pc (.worker w) = some (.running t p)) (hi : s.pc (.caller (.task w)) = none) :
      Step cap s [.ended w t.id] (s.set (.worker w) (some p))

/-- A pool with `n` workers, ThreadPool.cc:51-66. -/
def init (n : Nat) : St where
  mem := ⟨[], [], [], 0, false⟩
  owner := none
  pc := fun c => match c with
    | .caller _ => none
    | .worker w => if w < n then some worker else none

/-- Executions, with what is seen from outside. ThreadPool.h:300-341 and ThreadPool.cc:51-265. -/
inductive Run (n cap : Nat) : List Event → St → Prop
  | init : Run n cap [] (init n)
  | step {h e s s'} (hr : Run n cap h s) (hs : Step cap s e s') : Run n cap (h ++ e) s'

/-! ### The rest of a critical section -/

/-- What the members are, and what is left to do, when a thread goes on until it unlocks the mutex, reads the clock or comes to the head of
the loop. -/
def finish : Prog → Mem → Mem × Prog
  | .rd k, m => finish (k m) m
  | .wr f p, m => finish p (f m)
  | p, m => (m, p)

/-- The members represent the table. -/
structure Abs (m : Mem) (T : Table) : Prop where
  queue : m.pending = T.queue
  ids : m.runIds = T.running.map Prod.fst
  names : m.runNames = T.running.map Prod.snd
  next : m.nextId = T.next
  shut : m.shutdown = T.shut

/-- A critical section that does the operation. -/
def Good (cap : Nat) (op : Op) (p : Prog) : Prop :=
  ∃ q, p = .lock q ∧ ∀ m T, Abs m T → ∃ a T', Does cap op T a T' ∧ Abs (finish q m).1 T' ∧ (finish q m).2 = .unlock (.done a)

theorem findIdx_split {α : Type} (p : α → Bool) : ∀ (l : List α) (i : Nat), l.findIdx? p = some i →
    ∃ a x b, l = a ++ x :: b ∧ (∀ y ∈ a, p y = false) ∧ p x = true ∧ a.length = i := by
  intro l
  induction l with
  | nil => intro i h; simp at h
  | cons y l ih =>
    intro i h
    rw [List.findIdx?_cons] at h
    by_cases hy : p y = true
    · rw [if_pos hy] at h
      cases h
      exact ⟨[], y, l, rfl, by simp, hy, rfl⟩
    · rw [if_neg hy] at h
      rcases hl : l.findIdx? p with _ | j <;> rw [hl] at h
      · cases h
      · cases h
        obtain ⟨a, x, b, rfl, h1, h2, h3⟩ := ih j hl
        refine ⟨y :: a, x, b, rfl, ?_, h2, by simp [h3]⟩
        intro z hz
        rcases List.mem_cons.mp hz with rfl | hz
        · simpa using hy
        · exact h1 z hz

theorem erase_mid {α : Type} (a : List α) (x : α) (b : List α) : (a ++ x :: b).eraseIdx a.length = a ++ b := by
  induction a with
  | nil => rfl
  | cons y a ih => simp [List.eraseIdx_cons_succ, ih]

theorem copyNames_finish (n : Nat) : ∀ (i : Nat) (l : List (List UInt8)) (m : Mem), i + n = m.pending.length →
    finish (copyNames n i l) m = (m, .unlock (.done (.names (l ++ (m.pending.drop i).map Task.name)))) := by
  induction n with
  | zero =>
    intro i l m h
    simp [copyNames, finish, List.drop_eq_nil_of_le (show m.pending.length ≤ i by omega)]
  | succ n ih =>
    intro i l m h
    have hi : i < m.pending.length := by omega
    simp only [copyNames, finish]
    rw [ih (i + 1) _ m (by omega), List.drop_eq_getElem_cons hi, List.getElem?_eq_getElem hi]
    simp only [Option.map_some, Option.getD_some, List.map_cons, List.append_assoc, List.singleton_append]

theorem good_prog (cap : Nat) (fail : Option Point) (op : Op) : Good cap op (prog cap fail op) := by
  cases op with
  | add name start =>
    refine ⟨_, rfl, fun m T h => ?_⟩
    simp only [finish]
    by_cases h1 : m.pending.length ≥ cap
    · rw [if_pos h1]
      simp only [finish]
      by_cases h2 : fail = some .message
      · rw [if_pos h2]; exact ⟨_, _, Or.inl ⟨rfl, rfl⟩, h, rfl⟩
      · rw [if_neg h2]; exact ⟨_, _, Or.inr (Or.inl ⟨h.queue ▸ h1, rfl, rfl⟩), h, rfl⟩
    · rw [if_neg h1]
      by_cases h2 : fail = some .make
      · rw [if_pos h2]; exact ⟨_, _, Or.inl ⟨rfl, rfl⟩, h, rfl⟩
      rw [if_neg h2]
      simp only [finish]
      by_cases h3 : fail = some .expired
      · rw [if_pos h3]; exact ⟨_, _, Or.inl ⟨rfl, rfl⟩, h, rfl⟩
      rw [if_neg h3]
      by_cases h4 : fail = some .queue
      · rw [if_pos h4]; exact ⟨_, _, Or.inl ⟨rfl, rfl⟩, h, rfl⟩
      rw [if_neg h4]
      simp only [finish]
      refine ⟨_, _, Or.inr (Or.inr ⟨by rw [← h.queue]; omega, rfl, rfl⟩), ⟨?_, h.ids, h.names, ?_, h.shut⟩, by rw [h.next]⟩
      · simp only [h.queue, h.next]
      · simp only [h.next]
  | cancel id =>
    refine ⟨_, rfl, fun m T h => ?_⟩
    simp only [finish]
    rcases hf : m.pending.findIdx? (·.id == id) with _ | i
    · simp only [finish, hf]
      refine ⟨_, _, Or.inl ⟨fun t ht => ?_, rfl, rfl⟩, h, rfl⟩
      rw [List.findIdx?_eq_none_iff] at hf
      have := hf t (h.queue ▸ ht)
      simpa using this
    · simp only [finish, hf]
      obtain ⟨a, x, b, e, h1, h2, rfl⟩ := findIdx_split _ _ _ hf
      refine ⟨_, _, Or.inr ⟨a, x, b, h.queue ▸ e, fun y hy => by simpa using h1 y hy, by simpa using h2, rfl, rfl⟩, ⟨?_, h.ids, h.names, h.next, h.shut⟩, rfl⟩
      show m.pending.eraseIdx a.length = a ++ b
      rw [e, erase_mid]
  | cancelAll =>
    refine ⟨_, rfl, fun m T h => ?_⟩
    simp only [finish]
    exact ⟨_, _, ⟨rfl, rfl⟩, ⟨rfl, h.ids, h.names, h.next, h.shut⟩, by rw [h.queue]⟩
  | countPending =>
    refine ⟨_, rfl, fun m T h => ?_⟩
    simp only [finish]
    exact ⟨_, _, ⟨rfl, rfl⟩, h, by rw [h.queue]⟩
  | pendingNames =>
    refine ⟨_, rfl, fun m T h => ?_⟩
    simp only [finish]
    cases fail.isSome
    · simp only [Bool.false_eq_true, if_false]
      rw [copyNames_finish _ _ _ _ (by simp)]
      exact ⟨_, _, ⟨Or.inl rfl, rfl⟩, h, by simp [h.queue]⟩
    · exact ⟨_, _, ⟨Or.inr rfl, rfl⟩, h, rfl⟩
  | runningNames =>
    refine ⟨_, rfl, fun m T h => ?_⟩
    simp only [finish]
    cases fail.isSome
    · exact ⟨_, _, ⟨Or.inl rfl, rfl⟩, h, by simp [finish, h.names]⟩
    · exact ⟨_, _, ⟨Or.inr rfl, rfl⟩, h, rfl⟩
  | isFull =>
    refine ⟨_, rfl, fun m T h => ?_⟩
    simp only [finish]
    exact ⟨_, _, ⟨rfl, rfl⟩, h, by rw [h.queue]⟩
  | isIdle =>
    refine ⟨_, rfl, fun m T h => ?_⟩
    simp only [finish]
    refine ⟨_, T, ⟨rfl, rfl⟩, ?_⟩
    rcases hq : m.pending with _ | ⟨t, l⟩
    · simp only [List.isEmpty_nil, if_true, finish]
      refine ⟨h, ?_⟩
      have e1 : T.queue = [] := h.queue ▸ hq
      have e2 := h.ids
      rcases hr : T.running with _ | ⟨x, r⟩
      · rw [hr] at e2; simp [e1, e2]
      · rw [hr] at e2; simp [e2]
    · simp only [List.isEmpty_cons, Bool.false_eq_true, if_false, finish]
      refine ⟨h, ?_⟩
      have e1 : T.queue = t :: l := h.queue ▸ hq
      simp [e1]
  | isShutdown =>
    refine ⟨_, rfl, fun m T h => ?_⟩
    simp only [finish]
    exact ⟨_, _, ⟨rfl, rfl⟩, h, by rw [h.shut]⟩
  | state id =>
    refine ⟨_, rfl, fun m T h => ?_⟩
    simp only [finish]
    refine ⟨_, T, ⟨rfl, rfl⟩, ?_⟩
    have e1 : m.runIds.contains id = true ↔ ∃ x ∈ T.running, x.1 = id := by
      rw [h.ids]; simp
    have e2 : m.pending.any (·.id == id) = true ↔ ∃ t ∈ T.queue, t.id = id := by
      rw [h.queue]; simp
    by_cases h1 : ∃ x ∈ T.running, x.1 = id
    · rw [if_pos h1, if_pos (e1.mpr h1)]
      exact ⟨h, rfl⟩
    · rw [if_neg h1, if_neg (fun h => h1 (e1.mp h))]
      simp only [finish]
      by_cases h2 : ∃ t ∈ T.queue, t.id = id
      · rw [if_pos h2, if_pos (e2.mpr h2)]
        exact ⟨h, rfl⟩
      · rw [if_neg h2, if_neg (fun h => h2 (e2.mp h))]
        exact ⟨h, rfl⟩
  | shutdown =>
    refine ⟨_, rfl, fun m T h => ?_⟩
    simp only [finish]
    exact ⟨_, _, ⟨rfl, rfl⟩, ⟨h.queue, h.ids, h.names, h.next, rfl⟩, rfl⟩

theorem retire_finish {id : Nat} {m : Mem} {T : Table} (h : Abs m T) :
    ∃ T', Drops id T T' ∧ Abs (finish (retire id) m).1 T' ∧ (finish (retire id) m).2 = .again := by
  simp only [retire, finish]
  rcases hf : m.runIds.findIdx? (· == id) with _ | i
  · refine ⟨T, Or.inl ⟨fun x hx => ?_, rfl⟩, h, rfl⟩
    rw [List.findIdx?_eq_none_iff] at hf
    have := hf x.1 (by rw [h.ids]; exact List.mem_map_of_mem hx)
    simpa using this
  · simp only [finish]
    rw [h.ids, List.findIdx?_map] at hf
    obtain ⟨a, x, b, e, h1, h2, rfl⟩ := findIdx_split _ _ _ hf
    refine ⟨_, Or.inr ⟨a, x, b, e, fun y hy => by simpa using h1 y hy, by simpa using h2, rfl⟩, ⟨h.queue, ?_, ?_, h.next, h.shut⟩, trivial⟩
    · simp only [h.ids, e, List.map_append, List.map_cons]
      have := erase_mid (a.map Prod.fst) x.1 (b.map Prod.fst)
      rwa [List.length_map] at this
    · simp only [h.names, e, List.map_append, List.map_cons]
      have := erase_mid (a.map Prod.snd) x.2 (b.map Prod.snd)
      rwa [List.length_map] at this

/-- What a worker without a task does next with the mutex. -/
def Free (q : Prog) : Prop := q = .again ∨ q = .unlock .exit ∨ q = .unlock (.lock .again) ∨ q = .clock afterClock

theorem round_finish (m : Mem) : (finish round m).1 = m ∧ Free (finish round m).2 ∧ ((finish round m).2 = .clock afterClock → m.shutdown = false) := by
  simp only [round, finish]
  rcases hs : m.shutdown with _ | _
  · simp only [Bool.false_eq_true, if_false, finish]
    rcases hp : m.pending.isEmpty with _ | _
    · exact ⟨rfl, Or.inr (Or.inr (Or.inr rfl)), fun _ => trivial⟩
    · exact ⟨rfl, Or.inr (Or.inr (Or.inl rfl)), fun _ => trivial⟩
  · exact ⟨rfl, Or.inr (Or.inl rfl), fun h => by simp [finish] at h⟩

theorem afterClock_finish {now : Int} {m : Mem} {T : Table} (h : Abs m T) (hs : m.shutdown = false) :
    ((finish (afterClock now) m).1 = m ∧ (finish (afterClock now) m).2 = .unlock (.lock .again)) ∨
    ∃ t T', Takes now T t T' ∧ Abs (finish (afterClock now) m).1 T' ∧ (finish (afterClock now) m).2 = .unlock (.run t (.lock (retire t.id))) := by
  simp only [afterClock, finish]
  rcases hf : m.pending.findIdx? (fun t => decide (t.start ≤ now)) with _ | i
  · exact Or.inl ⟨by simp only [finish, hf], by simp only [finish, hf]⟩
  · right
    obtain ⟨a, x, b, e, h1, h2, rfl⟩ := findIdx_split _ _ _ hf
    have hx : m.pending[a.length]? = some x := by rw [e]; simp
    simp only [finish, hf, hx]
    refine ⟨x, _, ⟨h.shut ▸ hs, a, b, h.queue ▸ e, fun y hy => by have := h1 y hy; simp at this; omega, by simpa using h2, rfl⟩,
      ⟨?_, ?_, ?_, h.next, h.shut⟩, rfl⟩
    · simp only [e, erase_mid]
    · simp [h.ids]
    · simp [h.names]

/-! ### The simulation -/

/-- The members when the thread that has the mutex is at the end of its critical section. -/
def cur (s : St) : Mem :=
  match s.owner with
  | none => s.mem
  | some c => match s.pc c with
    | none => s.mem
    | some p => (finish p s.mem).1

def CRel (cap : Nat) (owns : Prop) (m : Mem) (pc : Option Prog) (x : Caller) : Prop :=
  (owns ∧ ∃ p b, pc = some p ∧ (finish p m).2 = .unlock (.done b) ∧ x = .answered b) ∨
  (¬ owns ∧ ((pc = none ∧ x = .idle) ∨ (∃ op fail, pc = some (prog cap fail op) ∧ x = .called op) ∨
    ∃ b, pc = some (.done b) ∧ x = .answered b))

def WRel (owns : Prop) (lt : Prop) (m : Mem) (pc : Option Prog) (x : Worker) : Prop :=
  (owns ∧ ∃ p, pc = some p ∧ lt ∧
    ((Free (finish p m).2 ∧ ((finish p m).2 = .clock afterClock → (finish p m).1.shutdown = false) ∧ x = .free) ∨
     ∃ t, (finish p m).2 = .unlock (.run t (.lock (retire t.id))) ∧ x = .took t)) ∨
  (¬ owns ∧ ((pc = none ∧ x = .free) ∨ (pc = some (.lock .again) ∧ x = .free ∧ lt) ∨ (pc = some .exit ∧ x = .free) ∨
    (∃ t, pc = some (.run t (.lock (retire t.id))) ∧ x = .took t ∧ lt) ∨ (∃ t, pc = some (.running t (.lock (retire t.id))) ∧ x = .busy t ∧ lt) ∨
    ∃ t, pc = some (.lock (retire t.id)) ∧ x = .over t ∧ lt))

structure Rel (n cap : Nat) (f : St) (a : State) : Prop where
  tab : Abs (cur f) a.table
  cal : ∀ c, CRel cap (f.owner = some (.caller c)) f.mem (f.pc (.caller c)) (a.caller c)
  wor : ∀ w, WRel (f.owner = some (.worker w)) (w < n) f.mem (f.pc (.worker w)) (a.worker w)

theorem CRel.frame {cap : Nat} {o o' : Prop} {m m' : Mem} {pc : Option Prog} {x : Caller} (h : CRel cap o m pc x) (ho : o' ↔ o)
    (hm : o → m' = m) : CRel cap o' m' pc x := by
  rcases h with ⟨h1, h2⟩ | ⟨h1, h2⟩
  · rw [hm h1]; exact Or.inl ⟨ho.mpr h1, h2⟩
  · exact Or.inr ⟨fun h => h1 (ho.mp h), h2⟩

theorem WRel.frame {o o' lt : Prop} {m m' : Mem} {pc : Option Prog} {x : Worker} (h : WRel o lt m pc x) (ho : o' ↔ o)
    (hm : o → m' = m) : WRel o' lt m' pc x := by
  rcases h with ⟨h1, h2⟩ | ⟨h1, h2⟩
  · rw [hm h1]; exact Or.inl ⟨ho.mpr h1, h2⟩
  · exact Or.inr ⟨fun h => h1 (ho.mp h), h2⟩

theorem rel_caller {n cap : Nat} {f f' : St} {a a' : State} (h : Rel n cap f a) (c : Who)
    (hpc : ∀ k, k ≠ .caller c → f'.pc k = f.pc k) (ha : ∀ k, k ≠ c → a'.caller k = a.caller k) (hw : a'.worker = a.worker)
    (ho : ∀ k, k ≠ .caller c → (f'.owner = some k ↔ f.owner = some k)) (hm : f'.mem = f.mem ∨ f.owner = some (.caller c))
    (ht : Abs (cur f') a'.table) (hc : CRel cap (f'.owner = some (.caller c)) f'.mem (f'.pc (.caller c)) (a'.caller c)) :
    Rel n cap f' a' := by
  refine ⟨ht, fun k => ?_, fun w => ?_⟩
  · by_cases hk : k = c
    · rw [hk]; exact hc
    · have hk' : Thr.caller k ≠ .caller c := fun e => hk (Thr.caller.inj e)
      rw [hpc _ hk', ha _ hk]
      refine (h.cal k).frame (ho _ hk') fun h2 => ?_
      rcases hm with hm | hm
      · exact hm
      · rw [h2] at hm; exact absurd (Option.some.inj hm) hk'
  · have hk' : Thr.worker w ≠ .caller c := by intro e; cases e
    rw [hpc _ hk', hw]
    refine (h.wor w).frame (ho _ hk') fun h2 => ?_
    rcases hm with hm | hm
    · exact hm
    · rw [h2] at hm; exact absurd (Option.some.inj hm) hk'

theorem rel_worker {n cap : Nat} {f f' : St} {a a' : State} (h : Rel n cap f a) (w : Nat)
    (hpc : ∀ k, k ≠ .worker w → f'.pc k = f.pc k) (ha : a'.caller = a.caller) (hw : ∀ k, k ≠ w → a'.worker k = a.worker k)
    (ho : ∀ k, k ≠ .worker w → (f'.owner = some k ↔ f.owner = some k)) (hm : f'.mem = f.mem ∨ f.owner = some (.worker w))
    (ht : Abs (cur f') a'.table) (hc : WRel (f'.owner = some (.worker w)) (w < n) f'.mem (f'.pc (.worker w)) (a'.worker w)) :
    Rel n cap f' a' := by
  refine ⟨ht, fun k => ?_, fun k => ?_⟩
  · have hk' : Thr.caller k ≠ .worker w := by intro e; cases e
    rw [hpc _ hk', ha]
    refine (h.cal k).frame (ho _ hk') fun h2 => ?_
    rcases hm with hm | hm
    · exact hm
    · rw [h2] at hm; exact absurd (Option.some.inj hm) hk'
  · by_cases hk : k = w
    · rw [hk]; exact hc
    · have hk' : Thr.worker k ≠ .worker w := fun e => hk (Thr.worker.inj e)
      rw [hpc _ hk', hw _ hk]
      refine (h.wor k).frame (ho _ hk') fun h2 => ?_
      rcases hm with hm | hm
      · exact hm
      · rw [h2] at hm; exact absurd (Option.some.inj hm) hk'

/-- A thread that does something to the members, reads the clock, is at the head of the loop or unlocks the mutex has the mutex. -/
def Inner : Prog → Prop
  | .unlock _ | .rd _ | .wr _ _ | .clock _ | .again => True
  | _ => False

theorem inner_owner {n cap : Nat} {f : St} {a : State} (h : Rel n cap f a) {c : Thr} {p : Prog} (hp : f.pc c = some p) (hi : Inner p) :
    f.owner = some c := by
  cases c with
  | caller c =>
    rcases h.cal c with ⟨h1, _⟩ | ⟨_, h2⟩
    · exact h1
    · rw [hp] at h2
      rcases h2 with ⟨h2, _⟩ | ⟨op, fl, h2, _⟩ | ⟨b, h2, _⟩
      · cases h2
      · obtain ⟨q, hq, _⟩ := good_prog cap fl op
        rw [hq] at h2; cases h2; exact hi.elim
      · cases h2; exact hi.elim
  | worker w =>
    rcases h.wor w with ⟨h1, _⟩ | ⟨_, h2⟩
    · exact h1
    · rw [hp] at h2
      rcases h2 with ⟨h2, _⟩ | ⟨h2, _⟩ | ⟨h2, _⟩ | ⟨t, h2, _⟩ | ⟨t, h2, _⟩ | ⟨t, h2, _⟩
      · cases h2
      all_goals cases h2; exact hi.elim

theorem cur_own {s : St} {c : Thr} {p : Prog} (ho : s.owner = some c) (hp : s.pc c = some p) : cur s = (finish p s.mem).1 := by
  simp only [cur, ho, hp]

theorem cur_free {s : St} (ho : s.owner = none) : cur s = s.mem := by simp only [cur, ho]

/-- A thread goes on in its critical section. -/
theorem advance {n cap : Nat} {f : St} {a : State} (h : Rel n cap f a) {c : Thr} {p p' : Prog} {m' : Mem} (ho : f.owner = some c)
    (hp : f.pc c = some p) (he : finish p' m' = finish p f.mem) : Rel n cap ({ f with mem := m' }.set c (some p')) a := by
  have ht : Abs (cur ({ f with mem := m' }.set c (some p'))) a.table := by
    have hq : (St.set { f with mem := m' } c (some p')).pc c = some p' := by simp [St.set]
    rw [cur_own (s := St.set { f with mem := m' } c (some p')) (c := c) (p := p') ho hq]
    show Abs (finish p' m').1 _
    rw [he, ← cur_own (s := f) ho hp]
    exact h.tab
  cases c with
  | caller c =>
    refine rel_caller h c (fun k hk => by simp [St.set, hk]) (fun _ _ => rfl) rfl (fun _ _ => Iff.rfl) (Or.inr ho) ht ?_
    rcases h.cal c with ⟨_, q, b, h2, h3, h4⟩ | ⟨h1, _⟩
    · rw [hp] at h2; cases h2
      exact Or.inl ⟨ho, p', b, by simp [St.set], by rw [← h3, ← he]; rfl, h4⟩
    · exact absurd ho h1
  | worker w =>
    refine rel_worker h w (fun k hk => by simp [St.set, hk]) rfl (fun _ _ => rfl) (fun _ _ => Iff.rfl) (Or.inr ho) ht ?_
    rcases h.wor w with ⟨_, q, h2, h3, h4⟩ | ⟨h1, _⟩
    · rw [hp] at h2; cases h2
      refine Or.inl ⟨ho, p', by simp [St.set], h3, ?_⟩
      show (Free (finish p' m').2 ∧ ((finish p' m').2 = .clock afterClock → (finish p' m').1.shutdown = false) ∧ _) ∨ ∃ t, (finish p' m').2 = _ ∧ _
      rw [he]; exact h4
    · exact absurd ho h1

theorem sim {n cap : Nat} {f f' : St} {a : State} {h0 e : List Event} (h : Rel n cap f a) (hr : Atomic n cap h0 a) (hs : Step cap f e f') :
    ∃ a', Rel n cap f' a' ∧ Atomic n cap (h0 ++ e) a' := by
  cases hs with
  | @call c op fl hp hm =>
    have hx : f.owner ≠ some (.caller c) ∧ a.caller c = .idle := by
      rcases h.cal c with ⟨_, q, b, h2, _⟩ | ⟨h1, h2⟩
      · rw [hp] at h2; cases h2
      · rw [hp] at h2
        rcases h2 with ⟨_, h2⟩ | ⟨_, _, h2, _⟩ | ⟨_, h2, _⟩
        · exact ⟨h1, h2⟩
        · cases h2
        · cases h2
    have hm' : MayCall a c := by
      cases c with
      | ext k => trivial
      | task w =>
        obtain ⟨t, p, hw⟩ := hm
        rcases h.wor w with ⟨_, q, h2, _, h4⟩ | ⟨_, h2⟩
        · rw [hw] at h2; cases h2
          rcases h4 with ⟨h4, _⟩ | ⟨t, h4, _⟩
          · rcases h4 with h4 | h4 | h4 | h4 <;> cases h4
          · cases h4
        · rw [hw] at h2
          rcases h2 with ⟨h2, _⟩ | ⟨h2, _⟩ | ⟨h2, _⟩ | ⟨t, h2, _⟩ | ⟨t, h2, h3, _⟩ | ⟨t, h2, _⟩
          · cases h2
          · cases h2
          · cases h2
          · cases h2
          · exact ⟨t, h3⟩
          · cases h2
    refine ⟨_, ?_, .call (op := op) hr hx.2 hm'⟩
    refine rel_caller h c (fun k hk => by simp [St.set, hk]) (fun k hk => by simp [State.setC, hk]) rfl (fun _ _ => Iff.rfl) (Or.inl rfl) ?_ ?_
    · have : cur (f.set (.caller c) (some (prog cap fl op))) = cur f := by
        simp only [cur, St.set]
        rcases ho : f.owner with _ | k
        · rfl
        · have hk : k ≠ .caller c := fun e => hx.1 (by rw [ho, e])
          simp [hk]
      rw [this]; exact h.tab
    · exact Or.inr ⟨hx.1, Or.inr (Or.inl ⟨op, fl, by simp [St.set], by simp [State.setC]⟩)⟩
  | @ret c b hp =>
    have hx : f.owner ≠ some (.caller c) ∧ a.caller c = .answered b := by
      rcases h.cal c with ⟨_, q, b', h2, h3, _⟩ | ⟨h1, h2⟩
      · rw [hp] at h2; cases h2; cases h3
      · rw [hp] at h2
        rcases h2 with ⟨h2, _⟩ | ⟨op, fl, h2, _⟩ | ⟨_, h2, h3⟩
        · cases h2
        · obtain ⟨q, hq, _⟩ := good_prog cap fl op
          rw [hq] at h2; cases h2
        · cases h2; exact ⟨h1, h3⟩
    refine ⟨_, ?_, .ret hr hx.2⟩
    refine rel_caller h c (fun k hk => by simp [St.set, hk]) (fun k hk => by simp [State.setC, hk]) rfl (fun _ _ => Iff.rfl) (Or.inl rfl) ?_ ?_
    · have : cur (f.set (.caller c) none) = cur f := by
        simp only [cur, St.set]
        rcases ho : f.owner with _ | k
        · rfl
        · have hk : k ≠ .caller c := fun e => hx.1 (by rw [ho, e])
          simp [hk]
      rw [this]; exact h.tab
    · exact Or.inr ⟨hx.1, Or.inl ⟨by simp [St.set], by simp [State.setC]⟩⟩
  | @lock c p hp ho =>
    rw [List.append_nil]
    have htab := h.tab
    rw [cur_free ho] at htab
    cases c with
    | caller c =>
      rcases h.cal c with ⟨h1, _⟩ | ⟨_, h2⟩
      · rw [ho] at h1; cases h1
      · rw [hp] at h2
        rcases h2 with ⟨h2, _⟩ | ⟨op, fl, h2, h3⟩ | ⟨_, h2, _⟩
        · cases h2
        · obtain ⟨q, hq, hg⟩ := good_prog cap fl op
          rw [hq] at h2; cases h2
          obtain ⟨b, T', hd, hA, hf⟩ := hg _ _ htab
          refine ⟨_, ?_, .effect hr h3 hd⟩
          refine rel_caller h c (fun k hk => by simp [St.set, hk]) (fun k hk => by simp [State.setC, hk]) rfl (fun k hk => ?_) (Or.inl rfl) ?_ ?_
          · show some (Thr.caller c) = some k ↔ f.owner = some k
            rw [ho]
            exact ⟨fun e => absurd (Option.some.inj e).symm hk, fun e => nomatch e⟩
          · rw [cur_own (c := .caller c) (p := p) rfl (by simp [St.set])]
            exact hA
          · exact Or.inl ⟨rfl, p, b, by simp [St.set], hf, by simp [State.setC]⟩
        · cases h2
    | worker w =>
      have hown : ∀ k, k ≠ Thr.worker w → (some (Thr.worker w) = some k ↔ f.owner = some k) := by
        intro k hk
        rw [ho]
        exact ⟨fun e => absurd (Option.some.inj e).symm hk, fun e => nomatch e⟩
      rcases h.wor w with ⟨h1, _⟩ | ⟨_, h2⟩
      · rw [ho] at h1; cases h1
      · rw [hp] at h2
        rcases h2 with ⟨h2, _⟩ | ⟨h2, h3, h4⟩ | ⟨h2, _⟩ | ⟨t, h2, _⟩ | ⟨t, h2, h3, _⟩ | ⟨t, h2, h3, h4⟩
        · cases h2
        · cases h2
          refine ⟨a, ?_, hr⟩
          refine rel_worker h w (fun k hk => by simp [St.set, hk]) rfl (fun _ _ => rfl) hown (Or.inl rfl) ?_ ?_
          · rw [cur_own (c := .worker w) (p := .again) rfl (by simp [St.set])]
            exact htab
          · exact Or.inl ⟨rfl, .again, by simp [St.set], h4, Or.inl ⟨Or.inl rfl, (fun e => nomatch e), h3⟩⟩
        · cases h2
        · cases h2
        · cases h2
        · cases h2
          obtain ⟨T', hd, hA, hf⟩ := retire_finish (id := t.id) htab
          refine ⟨_, ?_, .drop hr h3 hd⟩
          refine rel_worker h w (fun k hk => by simp [St.set, hk]) rfl (fun k hk => by simp [State.setW, hk]) hown (Or.inl rfl) ?_ ?_
          · rw [cur_own (c := .worker w) (p := retire t.id) rfl (by simp [St.set])]
            exact hA
          · refine Or.inl ⟨rfl, retire t.id, by simp [St.set], h4, Or.inl ⟨?_, ?_, by simp [State.setW]⟩⟩
            · show Free (finish (retire t.id) f.mem).2
              rw [hf]; exact Or.inl rfl
            · show (finish (retire t.id) f.mem).2 = _ → _
              rw [hf]; intro e; cases e
  | @unlock c p hp =>
    rw [List.append_nil]
    have ho := inner_owner h hp trivial
    have htab := h.tab
    rw [cur_own ho hp] at htab
    refine ⟨a, ?_, hr⟩
    have hown : ∀ k, k ≠ c → ((none : Option Thr) = some k ↔ f.owner = some k) := by
      intro k hk
      rw [ho]
      exact ⟨fun e => (by cases e), fun e => absurd (Option.some.inj e).symm hk⟩
    cases c with
    | caller c =>
      refine rel_caller h c (fun k hk => by simp [St.set, hk]) (fun _ _ => rfl) rfl hown (Or.inl rfl) htab ?_
      rcases h.cal c with ⟨_, q, b, h2, h3, h4⟩ | ⟨h1, _⟩
      · rw [hp] at h2; cases h2; cases h3
        exact Or.inr ⟨(fun e => nomatch e), Or.inr (Or.inr ⟨b, by simp [St.set], h4⟩)⟩
      · exact absurd ho h1
    | worker w =>
      refine rel_worker h w (fun k hk => by simp [St.set, hk]) rfl (fun _ _ => rfl) hown (Or.inl rfl) htab ?_
      rcases h.wor w with ⟨_, q, h2, h3, h4⟩ | ⟨h1, _⟩
      · rw [hp] at h2; cases h2
        refine Or.inr ⟨(fun e => nomatch e), ?_⟩
        rcases h4 with ⟨h4, _, h5⟩ | ⟨t, h4, h5⟩
        · rcases h4 with h4 | h4 | h4 | h4
          · cases h4
          · cases h4; exact Or.inr (Or.inr (Or.inl ⟨by simp [St.set], h5⟩))
          · cases h4; exact Or.inr (Or.inl ⟨by simp [St.set], h5, h3⟩)
          · cases h4
        · cases h4; exact Or.inr (Or.inr (Or.inr (Or.inl ⟨t, by simp [St.set], h5, h3⟩)))
      · exact absurd ho h1
  | @rd c k hp =>
    rw [List.append_nil]
    exact ⟨a, advance (m' := f.mem) h (inner_owner h hp trivial) hp rfl, hr⟩
  | @wr c g p hp =>
    rw [List.append_nil]
    exact ⟨a, advance h (inner_owner h hp trivial) hp rfl, hr⟩
  | @clock c k now hp =>
    rw [List.append_nil]
    have ho := inner_owner h hp trivial
    have htab := h.tab
    rw [cur_own ho hp] at htab
    cases c with
    | caller c =>
      rcases h.cal c with ⟨_, q, b, h2, h3, h4⟩ | ⟨h1, _⟩
      · rw [hp] at h2; cases h2; cases h3
      · exact absurd ho h1
    | worker w =>
      rcases h.wor w with ⟨_, q, h2, h3, h4⟩ | ⟨h1, _⟩
      · rw [hp] at h2; cases h2
        rcases h4 with ⟨h4, h6, h5⟩ | ⟨t, h4, h5⟩
        · rcases h4 with h4 | h4 | h4 | h4
          · cases h4
          · cases h4
          · cases h4
          · have hsh := h6 h4
            cases h4
            rcases afterClock_finish (now := now) htab hsh with ⟨g1, g2⟩ | ⟨t, T', g1, g2, g3⟩
            · refine ⟨a, ?_, hr⟩
              refine rel_worker h w (fun k hk => by simp [St.set, hk]) rfl (fun _ _ => rfl) (fun _ _ => Iff.rfl) (Or.inl rfl) ?_ ?_
              · rw [cur_own (s := f.set (.worker w) (some (afterClock now))) (c := .worker w) (p := afterClock now) ho (by simp [St.set])]
                show Abs (finish (afterClock now) f.mem).1 _
                rw [show (finish (afterClock now) f.mem).1 = f.mem from g1]; exact htab
              · refine Or.inl ⟨ho, afterClock now, by simp [St.set], h3, Or.inl ⟨?_, ?_, h5⟩⟩
                · show Free (finish (afterClock now) f.mem).2
                  rw [show (finish (afterClock now) f.mem).2 = _ from g2]; exact Or.inr (Or.inr (Or.inl rfl))
                · show (finish (afterClock now) f.mem).2 = _ → _
                  rw [show (finish (afterClock now) f.mem).2 = _ from g2]; intro e; cases e
            · refine ⟨_, ?_, .take hr h3 h5 g1⟩
              refine rel_worker h w (fun k hk => by simp [St.set, hk]) rfl (fun k hk => by simp [State.setW, hk]) (fun _ _ => Iff.rfl) (Or.inl rfl) ?_ ?_
              · rw [cur_own (s := f.set (.worker w) (some (afterClock now))) (c := .worker w) (p := afterClock now) ho (by simp [St.set])]
                exact g2
              · exact Or.inl ⟨ho, afterClock now, by simp [St.set], h3, Or.inr ⟨t, g3, by simp [State.setW]⟩⟩
        · cases h4
      · exact absurd ho h1
  | @again c hp =>
    rw [List.append_nil]
    have ho := inner_owner h hp trivial
    have htab := h.tab
    rw [cur_own ho hp] at htab
    refine ⟨a, ?_, hr⟩
    cases c with
    | caller c =>
      rcases h.cal c with ⟨_, q, b, h2, h3, h4⟩ | ⟨h1, _⟩
      · rw [hp] at h2; cases h2; cases h3
      · exact absurd ho h1
    | worker w =>
      rcases h.wor w with ⟨_, q, h2, h3, h4⟩ | ⟨h1, _⟩
      · rw [hp] at h2; cases h2
        obtain ⟨g1, g2, g3⟩ := round_finish f.mem
        have h5 : a.worker w = .free := by
          rcases h4 with ⟨_, _, h5⟩ | ⟨t, h4, h5⟩
          · exact h5
          · cases h4
        refine rel_worker h w (fun k hk => by simp [St.set, hk]) rfl (fun _ _ => rfl) (fun _ _ => Iff.rfl) (Or.inl rfl) ?_ ?_
        · rw [cur_own (s := f.set (.worker w) (some round)) (c := .worker w) (p := round) ho (by simp [St.set])]
          show Abs (finish round f.mem).1 _
          rw [g1]; exact htab
        · refine Or.inl ⟨ho, round, by simp [St.set], h3, Or.inl ⟨g2, fun e => ?_, h5⟩⟩
          show (finish round f.mem).1.shutdown = false
          rw [g1]; exact g3 e
      · exact absurd ho h1
  | @start w t p hp =>
    have hx : f.owner ≠ some (.worker w) ∧ a.worker w = .took t ∧ p = .lock (retire t.id) ∧ w < n := by
      rcases h.wor w with ⟨_, q, h2, _, h4⟩ | ⟨h1, h2⟩
      · rw [hp] at h2; cases h2
        rcases h4 with ⟨h4, _⟩ | ⟨t, h4, _⟩
        · rcases h4 with h4 | h4 | h4 | h4 <;> cases h4
        · cases h4
      · rw [hp] at h2
        rcases h2 with ⟨h2, _⟩ | ⟨h2, _⟩ | ⟨h2, _⟩ | ⟨t, h2, h3, h4⟩ | ⟨t, h2, h3, _⟩ | ⟨t, h2, _⟩
        · cases h2
        · cases h2
        · cases h2
        · cases h2; exact ⟨h1, h3, rfl, h4⟩
        · cases h2
        · cases h2
    obtain ⟨hx1, hx2, rfl, hx3⟩ := hx
    refine ⟨_, ?_, .start hr hx2⟩
    refine rel_worker h w (fun k hk => by simp [St.set, hk]) rfl (fun k hk => by simp [State.setW, hk]) (fun _ _ => Iff.rfl) (Or.inl rfl) ?_ ?_
    · have : cur (f.set (.worker w) (some (.running t (.lock (retire t.id))))) = cur f := by
        simp only [cur, St.set]
        rcases ho : f.owner with _ | k
        · rfl
        · have hk : k ≠ .worker w := fun e => hx1 (by rw [ho, e])
          simp [hk]
      rw [this]; exact h.tab
    · exact Or.inr ⟨hx1, Or.inr (Or.inr (Or.inr (Or.inr (Or.inl ⟨t, by simp [St.set], by simp [State.setW], hx3⟩))))⟩
  | @finish w t p hp hi =>
    have hx : f.owner ≠ some (.worker w) ∧ a.worker w = .busy t ∧ p = .lock (retire t.id) ∧ w < n := by
      rcases h.wor w with ⟨_, q, h2, _, h4⟩ | ⟨h1, h2⟩
      · rw [hp] at h2; cases h2
        rcases h4 with ⟨h4, _⟩ | ⟨t, h4, _⟩
        · rcases h4 with h4 | h4 | h4 | h4 <;> cases h4
        · cases h4
      · rw [hp] at h2
        rcases h2 with ⟨h2, _⟩ | ⟨h2, _⟩ | ⟨h2, _⟩ | ⟨t, h2, h3, h4⟩ | ⟨t, h2, h3, h4⟩ | ⟨t, h2, _⟩
        · cases h2
        · cases h2
        · cases h2
        · cases h2
        · cases h2; exact ⟨h1, h3, rfl, h4⟩
        · cases h2
    obtain ⟨hx1, hx2, rfl, hx3⟩ := hx
    have hidle : a.caller (.task w) = .idle := by
      rcases h.cal (.task w) with ⟨_, q, b, h2, _⟩ | ⟨_, h2⟩
      · rw [hi] at h2; cases h2
      · rw [hi] at h2
        rcases h2 with ⟨_, h2⟩ | ⟨_, _, h2, _⟩ | ⟨_, h2, _⟩
        · exact h2
        · cases h2
        · cases h2
    refine ⟨_, ?_, .finish hr hx2 hidle⟩
    refine rel_worker h w (fun k hk => by simp [St.set, hk]) rfl (fun k hk => by simp [State.setW, hk]) (fun _ _ => Iff.rfl) (Or.inl rfl) ?_ ?_
    · have : cur (f.set (.worker w) (some (.lock (retire t.id)))) = cur f := by
        simp only [cur, St.set]
        rcases ho : f.owner with _ | k
        · rfl
        · have hk : k ≠ .worker w := fun e => hx1 (by rw [ho, e])
          simp [hk]
      rw [this]; exact h.tab
    · exact Or.inr ⟨hx1, Or.inr (Or.inr (Or.inr (Or.inr (Or.inr ⟨t, by simp [St.set], by simp [State.setW], hx3⟩))))⟩

theorem rel_init (n cap : Nat) : Rel n cap (init n) ⟨empty, fun _ => .idle, fun _ => .free⟩ := by
  refine ⟨⟨rfl, rfl, rfl, rfl, rfl⟩, fun c => Or.inr ⟨(fun e => nomatch e), Or.inl ⟨rfl, rfl⟩⟩, fun w => ?_⟩
  refine Or.inr ⟨(fun e => nomatch e), ?_⟩
  by_cases hw : w < n
  · exact Or.inr (Or.inl ⟨by simp [init, hw, worker], rfl, hw⟩)
  · exact Or.inl ⟨by simp [init, hw], rfl⟩

/-- C116.  Whatever is seen from outside in an execution of the pool, with its functions interleaved statement by statement, is a history
of a table of tasks on which one thing happens at a time: every call takes effect at one instant between its beginning and its end, and so
does every worker that takes a task or gives one back. -/
theorem c116_atomic {n cap : Nat} {h : List Event} {s : St} (hr : Run n cap h s) : ∃ a, Atomic n cap h a := by
  suffices ∃ a, Rel n cap s a ∧ Atomic n cap h a by
    obtain ⟨a, _, ha⟩ := this; exact ⟨a, ha⟩
  induction hr with
  | init => exact ⟨_, rel_init n cap, .init⟩
  | step hr hs ih =>
    obtain ⟨a, h1, h2⟩ := ih
    exact sim h1 h2 hs

/-! ### An execution -/

/-- The next step of thread `c`; `now` is what the clock shows. -/
def go (c : Thr) (now : Int) (s : St) : Option (List Event × St) :=
  match c, s.pc c with
  | .caller c, some (.done a) => some ([.ret c a], s.set (.caller c) none)
  | c, some (.lock p) => if s.owner = none then some ([], { s with owner := some c }.set c (some p)) else none
  | c, some (.unlock p) => some ([], { s with owner := none }.set c (some p))
  | c, some (.rd k) => some ([], s.set c (some (k s.mem)))
  | c, some (.wr f p) => some ([], { s with mem := f s.mem }.set c (some p))
  | c, some (.clock k) => some ([], s.set c (some (k now)))
  | c, some .again => some ([], s.set c (some round))
  | .worker w, some (.run t p) => some ([.started w t.id], s.set (.worker w) (some (.running t p)))
  | .worker w, some (.running t p) =>
      if (s.pc (.caller (.task w))).isNone then some ([.ended w t.id], s.set (.worker w) (some p)) else none
  | _, _ => none

theorem go_step {cap : Nat} {c : Thr} {now : Int} {s : St} {e : List Event} {s' : St} (h : go c now s = some (e, s')) : Step cap s e s' := by
  unfold go at h
  split at h
  · rename_i hp; cases h; exact .ret _ hp
  · rename_i hp
    split at h
    · rename_i ho; cases h; exact .lock _ hp ho
    · cases h
  · rename_i hp; cases h; exact .unlock _ hp
  · rename_i hp; cases h; exact .rd _ hp
  · rename_i hp; cases h; exact .wr _ _ hp
  · rename_i hp; cases h; exact .clock _ _ hp
  · rename_i hp; cases h; exact .again hp
  · rename_i hp; cases h; exact .start _ _ hp
  · rename_i hp
    split at h
    · rename_i ho; cases h; exact .finish _ _ hp (Option.isNone_iff_eq_none.mp ho)
    · cases h
  · cases h

/-- A thread of the user calls a function, or thread `c` goes on. -/
inductive Act where
  | call (k : Nat) (op : Op)
  | go (c : Thr) (now : Int)

def play (cap : Nat) : List Act → List Event × St → Option (List Event × St)
  | [], x => some x
  | .call k op :: r, (h, s) =>
      if (s.pc (.caller (.ext k))).isNone then play cap r (h ++ [.call (.ext k) op], s.set (.caller (.ext k)) (some (prog cap none op))) else none
  | .go c now :: r, (h, s) => match go c now s with
      | some (e, s') => play cap r (h ++ e, s')
      | none => none

theorem play_run {n cap : Nat} : ∀ (l : List Act) (h : List Event) (s : St) (x : List Event × St), Run n cap h s → play cap l (h, s) = some x →
    Run n cap x.1 x.2 := by
  intro l
  induction l with
  | nil => intro h s x hr e; cases e; exact hr
  | cons a l ih =>
    intro h s x hr e
    cases a with
    | call k op =>
      simp only [play] at e
      split at e
      · rename_i hn
        exact ih _ _ _ (.step hr (.call op none (Option.isNone_iff_eq_none.mp hn) trivial)) e
      · cases e
    | go c now =>
      simp only [play] at e
      split at e
      · rename_i hg
        exact ih _ _ _ (.step hr (go_step hg)) e
      · cases e

def e0 (k : Nat) : Act := .go (.caller (.ext k)) 0
def w0 : Act := .go (.worker 0) 5

/-- Two threads add a task to a pool with capacity 1 and one of them is refused; a worker, in the middle of it, takes the task; a third thread asks
whether the pool is idle. -/
def acts : List Act :=
  [.call 0 (.add [97] 0), .call 1 (.add [98] 0), e0 1, e0 1, e0 1, .call 2 .isIdle, e0 1, e0 1, e0 1, e0 1, e0 0, e0 0, e0 0, e0 0, e0 0, w0, w0, w0,
    w0, w0, w0, w0, w0, w0, w0, e0 1, w0, w0, e0 2, e0 2, e0 2, e0 2, e0 2, w0, w0, w0, w0, w0]

example : (play 1 acts ([], init 1)).map Prod.fst =
    some [.call (.ext 0) (.add [97] 0), .call (.ext 1) (.add [98] 0), .call (.ext 2) .isIdle, .ret (.ext 0) .full, .ret (.ext 1) (.task 0),
      .started 0 0, .ret (.ext 2) (.flag false), .ended 0 0] := by decide +kernel

example : ∃ s a, Run 1 1 [.call (.ext 0) (.add [97] 0), .call (.ext 1) (.add [98] 0), .call (.ext 2) .isIdle, .ret (.ext 0) .full, .ret (.ext 1) (.task 0),
      .started 0 0, .ret (.ext 2) (.flag false), .ended 0 0] s ∧ Atomic 1 1 [.call (.ext 0) (.add [97] 0), .call (.ext 1) (.add [98] 0), .call (.ext 2) .isIdle, .ret (.ext 0) .full, .ret (.ext 1) (.task 0),
      .started 0 0, .ret (.ext 2) (.flag false), .ended 0 0] a := by
  rcases hp : play 1 acts ([], init 1) with _ | x
  · have : (play 1 acts ([], init 1)).isSome = true := by decide +kernel
    rw [hp] at this; cases this
  · have h1 := play_run (n := 1) acts [] (init 1) x .init hp
    have h2 : (play 1 acts ([], init 1)).map Prod.fst = some [.call (.ext 0) (.add [97] 0), .call (.ext 1) (.add [98] 0), .call (.ext 2) .isIdle, .ret (.ext 0) .full, .ret (.ext 1) (.task 0),
      .started 0 0, .ret (.ext 2) (.flag false), .ended 0 0] := by decide +kernel
    rw [hp] at h2
    rw [Option.some.inj h2] at h1
    obtain ⟨a, ha⟩ := c116_atomic h1
    exact ⟨x.2, a, h1, ha⟩

end Gul14.Pool.Linear
