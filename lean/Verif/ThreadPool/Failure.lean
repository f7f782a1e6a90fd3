import Verif.ThreadPool.Witness

/-!
# ThreadPool when memory or threads run out

The bodies of add_task, of the start of a task in perform_work, and of the constructor, statement by
statement, with every point at which an exception can be thrown.
-/
namespace Gul14.Pool
open Spec.Pool

/-! ### add_task -/

/-- Where an exception can occur in the critical section of add_task, ThreadPool.h:313-335. -/
inductive Point where
  /-- the text of the error message, 317-319 -/
  | message
  /-- std::packaged_task: memory for the shared state, or the move of the function object, 325 -/
  | package
  /-- std::make_unique, 324; the constructor of NamedTaskImpl only moves, 480-483 -/
  | unique
  /-- the growth of pending_tasks_, 330 -/
  | queue
  deriving DecidableEq, Repr

/-- A piece of a function body: it runs on the state and goes on with a value or throws. An exception
does not undo what was done to the state. Statements that may throw, as in ThreadPool.h:300-340 and
ThreadPool.cc:51-266; no code in /repo of its own. -/
def Body (α : Type) := St → (Ev ⊕ α) × St

/-- Sequence of statements; no code in /repo. -/
def Body.bind {α β : Type} (x : Body α) (f : α → Body β) : Body β := fun s => match x s with
  | (.inl e, s') => (.inl e, s')
  | (.inr a, s') => f a s'

instance : Monad Body where
  pure a := fun s => (.inr a, s)
  bind := Body.bind

/-- Throw. A throw expression; no code in /repo. -/
def raise {α : Type} (e : Ev) : Body α := fun s => (.inl e, s)

/-- An exception may occur here. A statement that may fail; no code in /repo. -/
def at_ (fail : Option Point) (p : Point) (e : Ev) : Body Unit :=
  if fail = some p then raise e else pure ()

/-- Reading the members; no code in /repo. -/
def get : Body St := fun s => (.inr s, s)
/-- Writing the members; no code in /repo. -/
def modify (f : St → St) : Body Unit := fun s => (.inr (), f s)

/-- The critical section of add_task, ThreadPool.h:311-336.  `fail`: the point at which an exception is
thrown if it is reached.  get_future() cannot fail, and emplace_back does not change the vector if it throws
because tasks are moved without exceptions.  The value is the handle's number. -/
def addBody (cfg : Cfg) (c : Who) (name : List UInt8) (start : Int) (fail : Option Point) : Body Nat := do
  let s ← get
  if isFull cfg s then
    at_ fail .message (.failed c (.add name start))                                          -- 317-319
    raise (.full c)
  at_ fail .package (.failed c (.add name start))                                            -- 325
  at_ fail .unique (.failed c (.add name start))                                             -- 324
  let s ← get
  let id := s.nextId
  if s.dying then raise (.expired c)                                                         -- 328
  at_ fail .queue (.failed c (.add name start))                                              -- 330
  modify fun s => { s with
    pending := s.pending ++ [⟨id, name, start⟩]
    fut := fun k => if k = id then .waiting else s.fut k
    handle := fun k => if k = id then true else s.handle k
    valid := fun k => if k = id then true else s.valid k }
  modify fun s => { s with nextId := (s.nextId + 1) % 2 ^ 64 }                               -- 333
  return id

/-- The step of the caller: the lock guard releases the mutex in any case, 313, and the exception leaves
add_task; otherwise notify_one() is next, 338. -/
def addCall (cfg : Cfg) (s : St) (c : Who) (ptr : Bool) (name : List UInt8) (start : Int)
    (fail : Option Point) : Ev × St :=
  match addBody cfg c name start fail s with
  | (.inl e, s') => (e, s'.setC c .idle)
  | (.inr id, s') => (.added c ⟨id, name, start⟩, s'.setC c (.notify ptr id))

theorem raise_bind {α β : Type} (e : Ev) (f : α → Body β) : (raise e : Body α) >>= f = raise e := rfl
theorem pure_bind' {α β : Type} (a : α) (f : α → Body β) : (pure a : Body α) >>= f = f a := rfl
theorem get_bind {β : Type} (f : St → Body β) (s : St) : ((get : Body St) >>= f) s = f s s := rfl
theorem modify_bind {β : Type} (g : St → St) (f : Unit → Body β) (s : St) :
    ((modify g : Body Unit) >>= f) s = f () (g s) := rfl

theorem addCall_eq (cfg : Cfg) (s : St) (c : Who) (ptr : Bool) (name : List UInt8) (start : Int)
    (fail : Option Point) :
    addCall cfg s c ptr name start fail =
      (if isFull cfg s then
        (if fail = some .message then .failed c (.add name start) else .full c, s.setC c .idle)
      else if fail = some .package ∨ fail = some .unique then (.failed c (.add name start), s.setC c .idle)
      else if s.dying then (.expired c, s.setC c .idle)
      else if fail = some .queue then (.failed c (.add name start), s.setC c .idle)
      else section_ cfg s c ptr (.add name start)) := by
  unfold addCall addBody section_
  rw [get_bind]
  by_cases h1 : isFull cfg s = true
  · by_cases h2 : fail = some .message
    · simp [h1, h2, at_, raise_bind]; rfl
    · simp [h1, h2, at_, raise_bind, pure_bind']; rfl
  · by_cases h2 : fail = some .package
    · simp [h1, h2, at_, raise_bind]; rfl
    by_cases h3 : fail = some .unique
    · simp [h1, h3, at_, raise_bind, pure_bind']; rfl
    by_cases h4 : s.dying = true
    · simp [h1, h2, h3, h4, at_, raise_bind, pure_bind', get_bind]; rfl
    by_cases h5 : fail = some .queue
    · simp [h1, h4, h5, at_, raise_bind, pure_bind', get_bind]; rfl
    simp [h1, h2, h3, h4, h5, at_, pure_bind', get_bind, modify_bind]
    rfl

/-- **C100.**  If an exception occurs anywhere in add_task, the call ends with this exception, with the
exception for a full queue, or with that for a pool that is being destroyed, and queue, running tasks, futures,
handles, and the number of the next task are as before; the caller can go on.  Otherwise the call does what
add_task does when nothing fails.  In any case this is a step of the pool, so everything that is proved about
executions (C49 to C58) holds with such calls in them. -/
theorem c100_add (cfg : Cfg) (s : St) (c : Who) (ptr : Bool) (name : List UInt8) (start : Int) (fail : Option Point)
    (hc : s.cpc c = .call ptr (.add name start)) (ho : s.owner = none) :
    let r := addCall cfg s c ptr name start fail
    Step cfg s r.1 r.2 ∧
    (fail = none → r = section_ cfg s c ptr (.add name start)) ∧
    ((∃ t, r.1 = .added c t) ∨
      (r.1 = .failed c (.add name start) ∨ r.1 = .full c ∨ r.1 = .expired c) ∧
      r.2 = { s with cpc := fun k => if k = c then .idle else s.cpc k }) := by
  have hb := Step.body (cfg := cfg) s c ptr (.add name start) hc ho
  have hf := Step.fail (cfg := cfg) s c ptr (.add name start) hc ho rfl
  have he : (section_ cfg s c ptr (.add name start)) =
      if isFull cfg s then (.full c, s.setC c .idle) else if s.dying then (.expired c, s.setC c .idle)
      else (section_ cfg s c ptr (.add name start)) := by
    by_cases h1 : isFull cfg s = true
    · simp [section_, h1]
    · by_cases h2 : s.dying = true
      · simp [section_, h1, h2]
      · simp [h1, h2]
  intro r
  have hr : r = _ := addCall_eq cfg s c ptr name start fail
  clear_value r
  subst hr
  by_cases h1 : isFull cfg s = true
  · rw [if_pos h1]
    rw [he, if_pos h1] at hb
    by_cases h2 : fail = some .message
    · rw [if_pos h2]
      exact ⟨hf, fun h => by simp [h] at h2, .inr ⟨.inl rfl, rfl⟩⟩
    · rw [if_neg h2]
      exact ⟨hb, fun _ => by rw [he, if_pos h1], .inr ⟨.inr (.inl rfl), rfl⟩⟩
  rw [if_neg h1]
  by_cases h2 : fail = some .package ∨ fail = some .unique
  · rw [if_pos h2]
    exact ⟨hf, fun h => by simp [h] at h2, .inr ⟨.inl rfl, rfl⟩⟩
  rw [if_neg h2]
  by_cases h3 : s.dying = true
  · rw [if_pos h3]
    rw [he, if_neg h1, if_pos h3] at hb
    exact ⟨hb, fun _ => by rw [he, if_neg h1, if_pos h3], .inr ⟨.inr (.inr rfl), rfl⟩⟩
  rw [if_neg h3]
  by_cases h4 : fail = some .queue
  · rw [if_pos h4]
    exact ⟨hf, fun h => by simp [h] at h4, .inr ⟨.inl rfl, rfl⟩⟩
  · rw [if_neg h4]
    refine ⟨hb, fun _ => rfl, .inl ⟨⟨s.nextId, name, start⟩, ?_⟩⟩
    simp [section_, h1, h3]

/-- **C100.**  An exception is passed on at each of the four points: whenever the point is reached, the call
ends with it. -/
theorem c100_add_points (cfg : Cfg) (s : St) (c : Who) (ptr : Bool) (name : List UInt8) (start : Int) (p : Point) :
    (addCall cfg s c ptr name start (some p)).1 = .failed c (.add name start) ↔
      match p with
      | .message => s.pending.length ≥ cfg.cap
      | .package | .unique => s.pending.length < cfg.cap
      | .queue => s.pending.length < cfg.cap ∧ s.dying = false := by
  rw [addCall_eq]
  have hfull : isFull cfg s = true ↔ s.pending.length ≥ cfg.cap := by simp [isFull]
  unfold section_
  by_cases h1 : isFull cfg s = true
  · have := hfull.mp h1
    cases p <;> simp [h1] <;> omega
  · have : s.pending.length < cfg.cap := by
      have : ¬ s.pending.length ≥ cfg.cap := fun h => h1 (hfull.mpr h)
      omega
    have hd : s.dying = true ∨ s.dying = false := by cases s.dying <;> simp
    rcases hd with hd | hd <;> cases p <;> simp [h1, hd, this]

/-- get_pending_task_names, ThreadPool.cc:118-129: the vector of names is resized and the names are copied one
after the other.  `fail`: the numbers of the allocations that fail, 0 is the vector.  The vector is local. -/
def namesBody (c : Who) (fail : Nat → Bool) : Body (List (List UInt8)) := do
  let s ← get
  if fail 0 then raise (.failed c .pendingNames)
  let rec copy : Nat → List Task → Body (List (List UInt8))
    | _, [] => pure []
    | k, t :: ts => do
        if fail k then raise (.failed c .pendingNames)
        let l ← copy (k + 1) ts
        pure (t.name :: l)
  copy 1 s.pending

/-- The step of the caller. -/
def namesCall (s : St) (c : Who) (fail : Nat → Bool) : Ev × St :=
  match namesBody c fail s with
  | (.inl e, s') => (e, s'.setC c .idle)
  | (.inr l, s') => (.answer c .pendingNames (.names l), s'.setC c .idle)

theorem copy_eq (c : Who) (fail : Nat → Bool) : ∀ (l : List Task) (k : Nat) (s : St),
    namesBody.copy c fail k l s =
      (if (List.range l.length).any (fun i => fail (k + i)) then (.inl (.failed c .pendingNames), s)
       else (.inr (l.map Task.name), s)) := by
  intro l
  induction l with
  | nil => intro k s; rfl
  | cons t ts ih =>
      intro k s
      unfold namesBody.copy
      by_cases h : fail k = true
      · have : (List.range (t :: ts).length).any (fun i => fail (k + i)) = true := by
          rw [List.any_eq_true]
          exact ⟨0, by simp, by simpa using h⟩
        rw [if_pos h, if_pos this]
        rfl
      · have hb : ((namesBody.copy c fail (k + 1) ts >>= fun l => (pure (t.name :: l) : Body _)) : Body _) s =
            (if (List.range ts.length).any (fun i => fail (k + 1 + i)) then (.inl (.failed c .pendingNames), s)
             else (.inr ((t :: ts).map Task.name), s)) := by
          show Body.bind _ _ s = _
          unfold Body.bind
          rw [ih (k + 1) s]
          by_cases hx : (List.range ts.length).any (fun i => fail (k + 1 + i)) = true
          · rw [if_pos hx, if_pos hx]
          · rw [if_neg hx, if_neg hx]
            rfl
        have hr : (List.range (t :: ts).length).any (fun i => fail (k + i)) =
            (List.range ts.length).any (fun i => fail (k + 1 + i)) := by
          rw [List.length_cons, List.range_succ_eq_map, List.any_cons, List.any_map]
          simp only [Nat.add_zero, h, Bool.false_or]
          congr 1
          funext i
          simp only [Function.comp]
          congr 1
          omega
        rw [if_neg h, hr]
        exact hb

/-- **C100.**  get_pending_task_names either throws or returns all names, and changes nothing. -/
theorem c100_names (cfg : Cfg) (s : St) (c : Who) (ptr : Bool) (fail : Nat → Bool)
    (hc : s.cpc c = .call ptr .pendingNames) (ho : s.owner = none) :
    let r := namesCall s c fail
    Step cfg s r.1 r.2 ∧
    r.1 = (if ∃ i, i ≤ s.pending.length ∧ fail i = true then .failed c .pendingNames
           else .answer c .pendingNames (.names (s.pending.map Task.name))) ∧
    r.2 = { s with cpc := fun k => if k = c then .idle else s.cpc k } := by
  have hb := Step.body (cfg := cfg) s c ptr .pendingNames hc ho
  have hf := Step.fail (cfg := cfg) s c ptr .pendingNames hc ho rfl
  have key : namesCall s c fail = (if ∃ i, i ≤ s.pending.length ∧ fail i = true then .failed c .pendingNames
           else .answer c .pendingNames (.names (s.pending.map Task.name)), s.setC c .idle) := by
    unfold namesCall namesBody
    rw [get_bind]
    by_cases h0 : fail 0 = true
    · rw [if_pos h0, if_pos ⟨0, Nat.zero_le _, h0⟩]
      rfl
    · rw [if_neg h0]
      show (match namesBody.copy c fail 1 s.pending s with
        | (.inl e, s') => (e, s'.setC c .idle)
        | (.inr l, s') => (.answer c .pendingNames (.names l), s'.setC c .idle)) = _
      rw [copy_eq]
      by_cases hx : (List.range s.pending.length).any (fun i => fail (1 + i)) = true
      · rw [if_pos hx]
        obtain ⟨i, hi, hfi⟩ := List.any_eq_true.mp hx
        rw [if_pos ⟨1 + i, by have := List.mem_range.mp hi; omega, hfi⟩]
      · rw [if_neg hx]
        rw [if_neg]
        rintro ⟨i, hi, hfi⟩
        apply hx
        rw [List.any_eq_true]
        refine ⟨i - 1, ?_, ?_⟩
        · rw [List.mem_range]
          have : i ≠ 0 := fun h => h0 (h ▸ hfi)
          omega
        · have : i ≠ 0 := fun h => h0 (h ▸ hfi)
          rw [show 1 + (i - 1) = i by omega]
          exact hfi
  intro r
  have hr : r = _ := key
  clear_value r
  subst hr
  refine ⟨?_, rfl, rfl⟩
  split
  · exact hf
  · exact hb

/-! ### The start of a task -/

/-- perform_work, ThreadPool.cc:234-242: the task is erased from the queue, its id and its name are appended to
the two lists, the mutex is unlocked.  `failId`, `failName`: push_back throws; the name is copied.  There is no
handler, the exception leaves the function of a std::thread. -/
def startTask (s : St) (w : Nat) (now : Int) (t : Task) (rest : List Task) (failId failName : Bool) : Res (Ev × St) :=
  let s := { s with pending := rest }                                                    -- 237
  if failId then .terminate else
  let s := { s with runIds := s.runIds ++ [t.id] }                                       -- 239
  if failName then .terminate else
  let s := { s with runNames := s.runNames ++ [t.name] }                                 -- 240
  .ok (.started w t.id now, { s with owner := none }.setW w (.exec t.id))                -- 242

/-- **C100.**  A worker that finds a task starts it, unless the memory for its id or its name runs out. -/
theorem c100_worker_partial (cfg : Cfg) (s : St) (w : Nat) (now : Int) (t : Task) (rest : List Task)
    (hw : w < cfg.threads) (h : s.wpc w = .scan now) (hp : pick now s.pending = some (t, rest)) :
    ∃ s', startTask s w now t rest false false = .ok (.started w t.id now, s') ∧
      Step cfg s (.started w t.id now) s' :=
  ⟨_, rfl, Step.start (cfg := cfg) s w now t rest hw h hp⟩

/-! ### The constructor -/

/-- The loop of the constructor, ThreadPool.cc:64-65.  `fails k`: the constructor of the thread with the number
`k` throws (system_error, or bad_alloc).  Then the members are destroyed, and ~thread() of a thread that was
started, which is joinable, calls std::terminate. -/
def startThreads (n : Nat) (fails : Nat → Option Exc) : Nat → Nat → Res Nat
  | 0, _ => .diverge
  | fuel + 1, k =>
      if k < n then
        match fails k with
        | some e => if k = 0 then .throw e else .terminate
        | none => startThreads n fails fuel (k + 1)
      else .ok k

/-- The constructor, ThreadPool.cc:51-66.  `res`: the exception of reserve, 63. -/
def construct (threads cap : Nat) (res : Option Exc) (fails : Nat → Option Exc) : Res Cfg := do
  let cfg ← make threads cap
  match res with
  | some e => .throw e
  | none => do
      let n ← startThreads threads fails (threads + 1) 0
      .ok { cfg with threads := n }

theorem startThreads_eq (n : Nat) (fails : Nat → Option Exc) : ∀ fuel k, n < k + fuel → k ≤ n →
    (∀ i, i < k → fails i = none) →
    ((∀ i, i < n → fails i = none) → startThreads n fails fuel k = .ok n) ∧
    (∀ i e, i < n → fails i = some e → (∀ j, j < i → fails j = none) →
      startThreads n fails fuel k = if i = 0 then .throw e else .terminate) := by
  intro fuel
  induction fuel with
  | zero => intro k h1 h2 h3; omega
  | succ f ih =>
      intro k h1 h2 h3
      unfold startThreads
      by_cases hk : k < n
      · rw [if_pos hk]
        cases hf : fails k with
        | none =>
            have h4 : ∀ i, i < k + 1 → fails i = none := by
              intro i hi
              rcases Nat.lt_succ_iff_lt_or_eq.mp hi with h | h
              · exact h3 i h
              · rw [h]; exact hf
            obtain ⟨a, b⟩ := ih (k + 1) (by omega) (by omega) h4
            exact ⟨a, b⟩
        | some e =>
            refine ⟨fun h => by simp [h k hk] at hf, ?_⟩
            intro i e' hi hie hj
            have : i = k := by
              rcases Nat.lt_trichotomy i k with h | h | h
              · simp [h3 i h] at hie
              · exact h
              · simp [hj k h] at hf
            subst this
            rw [hf] at hie
            cases hie
            rfl
      · rw [if_neg hk]
        have : k = n := by omega
        subst this
        refine ⟨fun _ => rfl, ?_⟩
        intro i e hi hie
        simp [h3 i hi] at hie

/-- **C100.**  The constructor throws for invalid arguments, before anything is allocated; with valid ones it
makes a pool with the requested number of threads and the requested capacity, or throws if the memory for the
threads or the first thread cannot be had. -/
theorem c100_construct_partial (threads cap : Nat) (res : Option Exc) (fails : Nat → Option Exc) :
    (¬ (1 ≤ threads ∧ threads ≤ 10000 ∧ 1 ≤ cap ∧ cap ≤ 10000000) →
      construct threads cap res fails = .throw .invalidArgument) ∧
    ((1 ≤ threads ∧ threads ≤ 10000 ∧ 1 ≤ cap ∧ cap ≤ 10000000) →
      (∀ e, res = some e → construct threads cap res fails = .throw e) ∧
      (∀ e, res = none → fails 0 = some e → construct threads cap res fails = .throw e) ∧
      (res = none → (∀ i, i < threads → fails i = none) →
        construct threads cap res fails = .ok ⟨threads, cap⟩ ∧ Run ⟨threads, cap⟩ [] init)) := by
  have hm : make threads cap = if threads = 0 ∨ threads > 10000 then .throw .invalidArgument
      else if cap = 0 ∨ cap > 10000000 then .throw .invalidArgument else .ok ⟨threads, cap⟩ := rfl
  refine ⟨fun h => ?_, fun h => ?_⟩
  · have : make threads cap = .throw .invalidArgument := by
      rw [hm]
      by_cases h1 : threads = 0 ∨ threads > 10000
      · rw [if_pos h1]
      · rw [if_neg h1, if_pos (by omega)]
    unfold construct
    rw [this]
    rfl
  · have hmk : make threads cap = .ok ⟨threads, cap⟩ := by
      rw [hm, if_neg (by omega), if_neg (by omega)]
    obtain ⟨a, b⟩ := startThreads_eq threads fails (threads + 1) 0 (by omega) (by omega) (by omega)
    refine ⟨?_, ?_, ?_⟩
    · rintro e rfl
      unfold construct
      rw [hmk]; rfl
    · rintro e rfl he
      unfold construct
      rw [hmk]
      show (startThreads threads fails (threads + 1) 0 >>= fun n => Res.ok (⟨n, cap⟩ : Cfg)) = _
      rw [b 0 e (by omega) he (by omega)]
      rfl
    · rintro rfl hn
      unfold construct
      rw [hmk]
      refine ⟨?_, .init hmk⟩
      show (startThreads threads fails (threads + 1) 0 >>= fun n => Res.ok (⟨n, cap⟩ : Cfg)) = _
      rw [a hn]
      rfl

/-- **C100, violated.**  If the system cannot start one of the threads but the first, the constructor does not
throw but ends the program. -/
theorem c100_construct_violated (threads cap k : Nat) (e : Exc) (fails : Nat → Option Exc)
    (ht : threads ≤ 10000) (hc : 1 ≤ cap ∧ cap ≤ 10000000) (hk : 1 ≤ k ∧ k < threads)
    (hf : fails k = some e) (hj : ∀ j, j < k → fails j = none) :
    construct threads cap none fails = .terminate := by
  have hmk : make threads cap = .ok ⟨threads, cap⟩ := by
    unfold make
    rw [if_neg (by omega), if_neg (by omega)]
  obtain ⟨_, b⟩ := startThreads_eq threads fails (threads + 1) 0 (by omega) (by omega) (by omega)
  unfold construct
  rw [hmk]
  show (startThreads threads fails (threads + 1) 0 >>= fun n => Res.ok (⟨n, cap⟩ : Cfg)) = _
  rw [b k e hk.2 hf hj, if_neg (by omega)]
  rfl

private abbrev f0 : Who := .ext 0
private def isStarted : Ev → Bool
  | .started _ _ _ => true
  | _ => false

/-- **C100, violated.**  A task has been accepted.  A worker takes it from the queue when no task has ever been
started, so that the two lists have no memory yet; if there is none to be had, the program ends. -/
theorem c100_worker_violated : ∃ cfg es s w now t rest,
    Run cfg es s ∧ Ev.added (.ext 0) t ∈ es ∧ (∀ w id now, Ev.started w id now ∉ es) ∧ s.runIds = [] ∧
    w < cfg.threads ∧ s.wpc w = .scan now ∧ pick now s.pending = some (t, rest) ∧
    startTask s w now t rest true false = .terminate ∧ startTask s w now t rest false true = .terminate := by
  obtain ⟨es, s, hr, _, h1, h2, h3, h4, h5⟩ := play_exists (cfg := ⟨1, 4⟩) (L := [f0])
    [.begin f0 true (.add [65] 0), .body f0, .notifyNone f0, .worker 0, .worker 0]
    (P := fun es s => Ev.added (.ext 0) ⟨0, [65], 0⟩ ∈ es ∧ (es.all fun e => !isStarted e) = true ∧ s.runIds = [] ∧
      s.wpc 0 = .scan 0 ∧ pick 0 s.pending = some (⟨0, [65], 0⟩, []))
    (by decide +kernel)
  refine ⟨⟨1, 4⟩, es, s, 0, 0, ⟨0, [65], 0⟩, [], hr, h1, ?_, h3, by decide, h4, h5, rfl, rfl⟩
  intro w id now hm
  have := List.all_eq_true.mp h2 _ hm
  cases this

/-! ### Examples -/

-- a call of add_task fails, the next one succeeds and gets the number that the first one would have got
example : ∃ es s, Run ⟨1, 2⟩ es s ∧ Ev.failed f0 (.add [65] 0) ∈ es ∧ Ev.added f0 ⟨0, [66], 0⟩ ∈ es := by
  obtain ⟨es, s, hr, _, h⟩ := play_exists (cfg := ⟨1, 2⟩) (L := [f0])
    [.begin f0 true (.add [65] 0), .fail f0, .begin f0 true (.add [66] 0), .body f0]
    (P := fun es _ => Ev.failed f0 (.add [65] 0) ∈ es ∧ Ev.added f0 ⟨0, [66], 0⟩ ∈ es) (by decide +kernel)
  exact ⟨es, s, hr, h⟩

-- the points in a new pool
example : [Point.message, .package, .unique, .queue].map
    (fun p => (addCall ⟨1, 2⟩ (init.setC f0 (.call true (.add [65] 0))) f0 true [65] 0 (some p)).1) =
    [.added f0 ⟨0, [65], 0⟩, .failed f0 (.add [65] 0), .failed f0 (.add [65] 0), .failed f0 (.add [65] 0)] := by
  decide +kernel

example : construct 3 5 none (fun _ => none) = .ok ⟨3, 5⟩ := by decide +kernel
example : construct 3 5 none (fun k => if k = 2 then some (.user 1) else none) = .terminate := by decide +kernel
example : construct 3 5 none (fun k => if k = 0 then some (.user 1) else none) = .throw (.user 1) := by decide +kernel
example : construct 3 5 (some (.user 0)) (fun _ => none) = .throw (.user 0) := by decide +kernel
example : construct 0 5 (some (.user 0)) (fun _ => none) = .throw .invalidArgument := by decide +kernel

end Gul14.Pool
