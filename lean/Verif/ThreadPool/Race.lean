import Verif.Basic
import Mathlib.Tactic.ByContra

/-!
# ThreadPool: no data races

What each function of the pool reads and writes, and with the mutex or without, from the constructor to the
destructor.  The contents of the variables are left out (`Model.lean`): at a branch, every way is possible at any time, except that
a worker finds a task only if add_task has been called.
-/
namespace Gul14.Pool.Race

/-- The threads: those of the user and the workers of the pool. ThreadPool.h:511. -/
inductive Thr where
  | ext (k : Nat)
  | worker (w : Nat)
  deriving DecidableEq, Repr

/-- The members of the pool, ThreadPool.h:505-524; `self` is the weak pointer in std::enable_shared_from_this (181), `handle w` is the
std::thread of worker `w`, an element of `threads_`. -/
inductive Var where
  | capacity | threads | handle (w : Nat) | cv | mutex | pending | runIds | runNames | nextId | shutdown | self
  deriving DecidableEq, Repr

/-- What a thread does.  `acc true x` writes the variable `x` (or destroys it), `acc false x` reads it or, with the condition variable,
uses it. ThreadPool.cc:50-266. -/
inductive Act where
  | lock
  | unlock
  | acc (write : Bool) (x : Var)
  /-- The function of a task, which may call functions of the pool, ThreadPool.cc:246. -/
  | user
  /-- The loop of a worker, ThreadPool.cc:208. -/
  | work
  /-- A worker is started, ThreadPool.cc:65. -/
  | spawn (w : Nat)
  /-- Wait for the end of a worker, ThreadPool.cc:78. -/
  | join (w : Nat)
  /-- make_shared returns, ThreadPool.cc:178-183. -/
  | ready
  deriving DecidableEq, Repr

abbrev rd (x : Var) : Act := .acc false x
abbrev wr (x : Var) : Act := .acc true x

/-- The public functions of the pool and of the task handles, with the branches in them. ThreadPool.h:300-394. -/
inductive Call where
  | add (full : Bool) | cancel (found : Bool) | cancelAll | capacity | countPending | countThreads | pendingNames | runningNames
  | isFull | isIdle | taskState (running : Bool) | isShutdown
  deriving DecidableEq, Repr

/-- What they do: ThreadPool.h:300-341, 389 and 394; ThreadPool.cc:82-176. -/
def Call.acts : Call → List Act
  | .add full => -- ThreadPool.h:313-338
      if full then [.lock, rd .pending, rd .capacity, rd .pending, .unlock]
      else [.lock, rd .pending, rd .capacity, rd .nextId, rd .self, rd .nextId, wr .pending, wr .nextId, .unlock, rd .cv]
  | .cancel found => -- ThreadPool.cc:84-94
      if found then [.lock, rd .pending, wr .pending, .unlock] else [.lock, rd .pending, .unlock]
  | .cancelAll => [.lock, rd .pending, wr .pending, .unlock] -- 99-104
  | .capacity => [rd .capacity] -- ThreadPool.h:389
  | .countPending => [.lock, rd .pending, .unlock] -- 109-110
  | .countThreads => [rd .threads] -- 115
  | .pendingNames => [.lock, rd .pending, .unlock] -- 120-128
  | .runningNames => [.lock, rd .runNames, .unlock] -- 133-134
  | .isFull => [.lock, rd .pending, rd .capacity, .unlock] -- 139-145
  | .isIdle => [.lock, rd .pending, rd .runIds, .unlock] -- 150-151
  | .taskState running => -- 156-169
      if running then [.lock, rd .runIds, .unlock] else [.lock, rd .runIds, rd .pending, .unlock]
  | .isShutdown => [.lock, rd .shutdown, .unlock] -- 174-175

/-- The ways through the loop of a worker, ThreadPool.cc:208-265. -/
inductive Round where
  | leave | sleep | task
  deriving DecidableEq, Repr

/-- One round of the loop, ThreadPool.cc:208-265: the worker leaves it and unlocks (266), or sleeps on the condition variable, which
unlocks and locks the mutex (213 and 229), or runs a task. -/
def Round.acts : Round → List Act
  | .leave => [rd .shutdown, .unlock]
  | .sleep => [rd .shutdown, rd .pending, rd .cv, .unlock, .lock, .work]
  | .task => [rd .shutdown, rd .pending, wr .pending, wr .runIds, wr .runNames, .unlock, .user, .lock,
      rd .runIds, wr .runIds, wr .runNames, .work]

/-- perform_work from its beginning, ThreadPool.cc:206. -/
def worker : List Act := [.lock, .work]

/-- The constructor and make_shared, ThreadPool.cc:50-66 and 178-183: the members are initialised, then the threads are started
(a thread runs before its handle is counted as an element of the vector), then the shared pointer is made. -/
def ctor (n : Nat) : List Act :=
  [wr .capacity, wr .threads, wr .cv, wr .mutex, wr .pending, wr .runIds, wr .runNames, wr .nextId, wr .shutdown, wr .self, rd .threads, wr .threads] ++
  ((List.range n).flatMap fun w => [rd .threads, wr (.handle w), .spawn w, wr .threads]) ++ [wr .self, .ready]

/-- The destructor, ThreadPool.cc:68-80: the workers are told and joined, then the members are destroyed. -/
def dtor (n : Nat) : List Act :=
  [.lock, wr .shutdown, .unlock, rd .cv, rd .threads] ++ ((List.range n).flatMap fun w => [rd (.handle w), .join w, wr (.handle w)]) ++
  [wr .shutdown, wr .nextId, wr .runNames, wr .runIds, wr .pending, wr .mutex, wr .cv, wr .threads, wr .capacity, wr .self]

/-- The life of the pool: thread `c` constructs it, everybody may use it, thread `c` destroys it. ThreadPool.cc:50-80. -/
inductive Phase where
  | building (c : Nat)
  | alive
  | ending (c : Nat)
  deriving DecidableEq, Repr

/-- The phase, the owner of the mutex, what each thread still has to do, and whether a task has been added. The members of
ThreadPool.h:505-524. -/
structure St where
  phase : Phase
  owner : Option Thr
  todo : Thr → List Act
  added : Bool

/-- Thread `c` has to do `l` next. -/
def St.set (s : St) (c : Thr) (l : List Act) : St := { s with todo := fun k => if k = c then l else s.todo k }

/-- The calls of add_task, ThreadPool.h:302. -/
def Call.adds : Call → Bool
  | .add _ => true
  | _ => false

/-- One step of thread `c` with a pool of `n` workers.  Threads of the user call functions of the pool while it is alive; tasks do so at any
time.  The destructor is called when no thread of the user is in a function of the pool: these threads have shared pointers to it. (A task that has the last shared pointer is in C57.) The
interleavings of ThreadPool.h:300-341 and ThreadPool.cc:50-266. -/
inductive Step (n : Nat) : St → Thr → St → Prop
  | call {s} {k} (a : Call) (hp : s.phase = .alive) (h : s.todo (.ext k) = []) :
      Step n s (.ext k) ({ s with added := s.added || a.adds }.set (.ext k) (Call.acts a))
  | nested {s c} (r : List Act) (a : Call) (h : s.todo c = .user :: r) : Step n s c ({ s with added := s.added || a.adds }.set c (Call.acts a ++ Act.user :: r))
  | back {s c} (r : List Act) (h : s.todo c = .user :: r) : Step n s c (s.set c r)
  | lock {s c} (r : List Act) (h : s.todo c = .lock :: r) (ho : s.owner = none) : Step n s c ({ s with owner := some c }.set c r)
  | unlock {s c} (r : List Act) (h : s.todo c = .unlock :: r) : Step n s c ({ s with owner := none }.set c r)
  | acc {s c} (w : Bool) (x : Var) (r : List Act) (h : s.todo c = .acc w x :: r) : Step n s c (s.set c r)
  | work {s c} (r : List Act) (b : Round) (h : s.todo c = .work :: r) (hb : b = Round.task → s.added = true) : Step n s c (s.set c (Round.acts b ++ r))
  | spawn {s c} (w : Nat) (r : List Act) (h : s.todo c = .spawn w :: r) : Step n s c ((s.set c r).set (.worker w) worker)
  | join {s c} (w : Nat) (r : List Act) (h : s.todo c = .join w :: r) (hw : s.todo (.worker w) = []) : Step n s c (s.set c r)
  | ready {s c} (r : List Act) (h : s.todo c = .ready :: r) : Step n s c ({ s with phase := .alive }.set c r)
  | destroy {s} {c} (hp : s.phase = .alive) (h : ∀ k, s.todo (.ext k) = []) :
      Step n s (.ext c) ({ s with phase := .ending c }.set (.ext c) (dtor n))

/-- The states that can be reached, with a pool of `n` workers that thread `c` constructs. ThreadPool.cc:50-266. -/
inductive Run (n : Nat) : St → Prop
  | init (c : Nat) : Run n ⟨.building c, none, fun k => if k = .ext c then ctor n else [], false⟩
  | step {s s' : St} {c : Thr} (h : Run n s) (hs : Step n s c s') : Run n s'

/-! ### Specification -/

/-- The variable that the next action uses, and whether it writes it; to lock and unlock uses the mutex. -/
def uses : List Act → Option (Bool × Var)
  | .acc w x :: _ => some (w, x)
  | .lock :: _ => some (false, .mutex)
  | .unlock :: _ => some (false, .mutex)
  | _ => none

/-- Two threads are about to use the same variable, and one of them writes it. -/
def DataRace (s : St) : Prop :=
  ∃ c k x w w', c ≠ k ∧ uses (s.todo c) = some (w, x) ∧ uses (s.todo k) = some (w', x) ∧ (w = true ∨ w' = true)

/-! ### Invariant -/

/-- ThreadPool.h:519-524, "Protects the following variables". -/
def Protected : Var → Bool
  | .pending | .runIds | .runNames | .nextId | .shutdown => true
  | _ => false

/-- The code of functions and workers, by a thread that owns the mutex (`b`) or not: the protected variables only with the mutex, the others
are not written, and the handles of the threads not used.  `q`: neither user code nor the vector of threads. -/
def fine (q : Bool) : Bool → List Act → Bool
  | b, [] => !b
  | b, .lock :: r => !b && fine q true r
  | b, .unlock :: r => b && fine q false r
  | b, .acc w x :: r => (if Protected x then b else !w && (match x with | .handle _ => false | .threads => !q | .self => !q | _ => true)) && fine q b r
  | b, .user :: r => !b && !q && fine q b r
  | b, .work :: r => b && r.isEmpty
  | _, _ => false

theorem fine_append {q : Bool} : ∀ {b : Bool} {l : List Act}, fine q b l = true → (∀ a ∈ l, a ≠ .work) → ∀ r, fine q b (l ++ r) = fine q false r
  | b, [], h, _, r => by cases b <;> simp_all [fine]
  | b, .lock :: l, h, hw, r => by
      simp only [fine, Bool.and_eq_true] at h
      simp only [List.cons_append, fine, h.1, Bool.true_and]
      exact fine_append h.2 (fun a ha => hw a (by simp [ha])) r
  | b, .unlock :: l, h, hw, r => by
      simp only [fine, Bool.and_eq_true] at h
      simp only [List.cons_append, fine, h.1, Bool.true_and]
      exact fine_append h.2 (fun a ha => hw a (by simp [ha])) r
  | b, .acc w x :: l, h, hw, r => by
      simp only [fine, Bool.and_eq_true] at h
      simp only [List.cons_append, fine, h.1, Bool.true_and]
      exact fine_append h.2 (fun a ha => hw a (by simp [ha])) r
  | b, .user :: l, h, hw, r => by
      simp only [fine, Bool.and_eq_true] at h
      simp only [List.cons_append, fine, h.1, Bool.true_and]
      exact fine_append h.2 (fun a ha => hw a (by simp [ha])) r
  | b, .work :: l, h, hw, r => absurd rfl (hw .work (by simp))
  | b, .spawn w :: l, h, _, r => by simp [fine] at h
  | b, .join w :: l, h, _, r => by simp [fine] at h
  | b, .ready :: l, h, _, r => by simp [fine] at h

theorem fine_call (a : Call) : fine false false a.acts = true ∧ ∀ x ∈ a.acts, x ≠ .work := by
  cases a with
  | add f => cases f <;> decide
  | cancel f => cases f <;> decide
  | taskState f => cases f <;> decide
  | _ => decide

theorem fine_quiet : ∀ {b : Bool} {l : List Act}, fine true b l = true → fine false b l = true
  | b, [], h => h
  | b, .lock :: l, h => by
      simp only [fine, Bool.and_eq_true] at h ⊢; exact ⟨h.1, fine_quiet h.2⟩
  | b, .unlock :: l, h => by
      simp only [fine, Bool.and_eq_true] at h ⊢; exact ⟨h.1, fine_quiet h.2⟩
  | b, .acc w x :: l, h => by
      simp only [fine, Bool.and_eq_true] at h ⊢
      refine ⟨?_, fine_quiet h.2⟩
      cases x <;> simp_all [Protected]
  | b, .user :: l, h => by simp [fine] at h
  | b, .work :: l, h => h
  | b, .spawn w :: l, h => by simp [fine] at h
  | b, .join w :: l, h => by simp [fine] at h
  | b, .ready :: l, h => by simp [fine] at h

/-- The constructor: an access is before the start of all threads, or it concerns the handles, their vector or the pointer to the pool. -/
def Building (n : Nat) : List Act → Prop
  | [] => False
  | .acc _ x :: r => ((∀ w < n, .spawn w ∈ r) ∨ x = .threads ∨ x = .self ∨ ∃ w, x = .handle w) ∧ Building n r
  | .spawn w :: r => w < n ∧ .spawn w ∉ r ∧ Building n r
  | .ready :: r => r = []
  | _ => False

/-- The destructor: an access is after the end of all threads, or concerns protected variables with the mutex, or the handles, or it reads
the vector of handles or uses the condition variable. -/
def Ending (n : Nat) : Bool → List Act → Prop
  | b, [] => b = false
  | b, .lock :: r => b = false ∧ Ending n true r
  | b, .unlock :: r => b = true ∧ Ending n false r
  | b, .acc w x :: r => ((∀ v < n, .join v ∉ r) ∨ (Protected x = true ∧ b = true) ∨ (x = .threads ∧ w = false) ∨ (x = .cv ∧ w = false) ∨ ∃ v, x = .handle v) ∧
      Ending n b r
  | b, .join _ :: r => Ending n b r
  | _, _ => False

/-! ### The parts of the invariant -/

theorem fine_uses {q b : Bool} {l : List Act} (h : fine q b l = true) {w : Bool} {x : Var} (hu : uses l = some (w, x)) :
    (Protected x = true → b = true) ∧ (Protected x = false → w = false) ∧ (∀ v, x ≠ .handle v) ∧ (q = true → x ≠ .threads ∧ x ≠ .self) := by
  cases l with
  | nil => simp [uses] at hu
  | cons a r =>
    cases a with
    | acc w' x' =>
        simp only [uses, Option.some.injEq, Prod.mk.injEq] at hu
        obtain ⟨rfl, rfl⟩ := hu
        simp only [fine, Bool.and_eq_true] at h
        cases w' <;> cases x' <;> simp_all [Protected]
    | lock =>
        simp only [uses, Option.some.injEq, Prod.mk.injEq] at hu
        obtain ⟨rfl, rfl⟩ := hu
        simp [Protected]
    | unlock =>
        simp only [uses, Option.some.injEq, Prod.mk.injEq] at hu
        obtain ⟨rfl, rfl⟩ := hu
        simp [Protected]
    | _ => simp [uses] at hu

/-- A thread owns the mutex. -/
def St.has (s : St) (c : Thr) : Bool := decide (s.owner = some c)

theorem step_fine {n : Nat} {q : Bool} {s s' : St} {c : Thr} (hs : Step n s c s') (hf : fine q (s.has c) (s.todo c) = true)
    (hne : s.todo c ≠ []) (ha : q = true → s.added = false) :
    s'.phase = s.phase ∧ (∀ d, d ≠ c → s'.todo d = s.todo d ∧ s'.has d = s.has d) ∧ fine q (s'.has c) (s'.todo c) = true ∧
      (q = true → s'.added = false) := by
  cases hs with
  | call a hp h => exact absurd h hne
  | destroy hp h => exact absurd (h _) hne
  | nested r a h =>
      have hq : q = false := by
        rw [h] at hf; simp only [fine, Bool.and_eq_true, Bool.not_eq_true'] at hf; exact hf.1.2
      subst hq
      refine ⟨rfl, fun d hd => ⟨by simp [St.set, hd], rfl⟩, ?_, by simp⟩
      have hb : s.has c = false := by
        rw [h] at hf; simp only [fine, Bool.and_eq_true, Bool.not_eq_true'] at hf; exact hf.1.1
      have e : ({ s with added := s.added || a.adds }.set c (Call.acts a ++ Act.user :: r)).has c = s.has c := rfl
      rw [e, hb]
      simp only [St.set, if_true]
      rw [fine_append (fine_call a).1 (fine_call a).2]
      rw [h, hb] at hf; exact hf
  | back r h =>
      refine ⟨rfl, fun d hd => ⟨by simp [St.set, hd], rfl⟩, ?_, ha⟩
      have e : (s.set c r).has c = s.has c := rfl
      rw [h] at hf; simp only [fine, Bool.and_eq_true] at hf
      simp only [e, St.set, if_true]; exact hf.2
  | lock r h ho =>
      refine ⟨rfl, fun d hd => ⟨by simp [St.set, hd], ?_⟩, ?_, ha⟩
      · simp only [St.has, St.set, ho, Option.some.injEq, reduceCtorEq, decide_false, decide_eq_false_iff_not]
        exact fun e => hd e.symm
      · rw [h] at hf; simp only [fine, Bool.and_eq_true] at hf
        simpa [St.has, St.set] using hf.2
  | unlock r h =>
      rw [h] at hf; simp only [fine, Bool.and_eq_true] at hf
      have ho : s.owner = some c := by simpa [St.has] using hf.1
      refine ⟨rfl, fun d hd => ⟨by simp [St.set, hd], ?_⟩, ?_, ha⟩
      · simp only [St.has, St.set, ho, Option.some.injEq, reduceCtorEq, decide_false]
        exact (decide_eq_false (fun e => hd e.symm)).symm
      · simpa [St.has, St.set] using hf.2
  | acc w x r h =>
      refine ⟨rfl, fun d hd => ⟨by simp [St.set, hd], rfl⟩, ?_, ha⟩
      have e : (s.set c r).has c = s.has c := rfl
      rw [h] at hf; simp only [fine, Bool.and_eq_true] at hf
      simp only [e, St.set, if_true]; exact hf.2
  | work r b h hb =>
      refine ⟨rfl, fun d hd => ⟨by simp [St.set, hd], rfl⟩, ?_, ha⟩
      rw [h] at hf; simp only [fine, Bool.and_eq_true, List.isEmpty_iff] at hf
      obtain ⟨h1, rfl⟩ := hf
      have e : (s.set c (Round.acts b ++ [])).has c = true := h1
      rw [e]
      simp only [St.set, if_true, List.append_nil]
      cases b with
      | leave => cases q <;> decide
      | sleep => cases q <;> decide
      | task =>
          cases q with
          | false => decide
          | true => exact absurd (hb rfl) (by simp [ha rfl])
  | spawn w r h => rw [h] at hf; simp [fine] at hf
  | join w r h hw => rw [h] at hf; simp [fine] at hf
  | ready r h => rw [h] at hf; simp [fine] at hf

theorem fine_nil {q b : Bool} (h : fine q b [] = true) : b = false := by simpa [fine] using h

/-- The threads are started in turn. -/
theorem building_threads (n : Nat) : ∀ (k i : Nat), i + k = n →
    Building n (((List.range' i k).flatMap fun w => [rd .threads, wr (.handle w), .spawn w, wr .threads]) ++ [wr .self, .ready])
  | 0, i, h => by simp [Building]
  | k + 1, i, h => by
      have ih := building_threads n k (i + 1) (by omega)
      simp only [List.range'_succ, List.flatMap_cons, List.cons_append, List.nil_append, Building]
      refine ⟨Or.inr (Or.inl trivial), Or.inr (Or.inr (Or.inr ⟨i, rfl⟩)), by omega, ?_, Or.inr (Or.inl trivial), ih⟩
      simp; omega

theorem spawn_mem (n w : Nat) (hw : w < n) (l : List Act) :
    Act.spawn w ∈ ((List.range n).flatMap fun w => [rd .threads, wr (.handle w), .spawn w, wr .threads]) ++ l := by
  simp only [List.mem_append, List.mem_flatMap]
  exact Or.inl ⟨w, List.mem_range.2 hw, by simp⟩

theorem building_ctor (n : Nat) : Building n (ctor n) := by
  have h := building_threads n n 0 (by omega)
  rw [← List.range_eq_range'] at h
  have hm : ∀ w < n, Act.spawn w ∈ ((List.range n).flatMap fun w => [rd .threads, wr (.handle w), .spawn w, wr .threads]) ++ [wr .self, .ready] :=
    fun w hw => spawn_mem n w hw _
  simp only [ctor, List.append_assoc]
  revert h hm
  generalize ((List.range n).flatMap fun w => [rd .threads, wr (.handle w), .spawn w, wr .threads]) ++ [wr .self, .ready] = l
  intro h hm
  simp only [List.cons_append, List.nil_append, Building, List.mem_cons, reduceCtorEq, false_or]
  simp only [h, and_true]
  exact ⟨Or.inl hm, Or.inl hm, Or.inl hm, Or.inl hm, Or.inl hm, Or.inl hm, Or.inl hm, Or.inl hm, Or.inl hm, Or.inl hm, Or.inl hm, Or.inl hm⟩

theorem ending_threads (n : Nat) : ∀ (k i : Nat), i + k = n →
    Ending n false (((List.range' i k).flatMap fun w => [rd (.handle w), .join w, wr (.handle w)]) ++
      [wr .shutdown, wr .nextId, wr .runNames, wr .runIds, wr .pending, wr .mutex, wr .cv, wr .threads, wr .capacity, wr .self])
  | 0, i, h => by simp [Ending]
  | k + 1, i, h => by
      have ih := ending_threads n k (i + 1) (by omega)
      simp only [List.range'_succ, List.flatMap_cons, List.cons_append, List.nil_append, Ending]
      exact ⟨Or.inr (Or.inr (Or.inr (Or.inr ⟨i, rfl⟩))), Or.inr (Or.inr (Or.inr (Or.inr ⟨i, rfl⟩))), ih⟩

theorem ending_dtor (n : Nat) : Ending n false (dtor n) := by
  have h := ending_threads n n 0 (by omega)
  rw [← List.range_eq_range'] at h
  simp only [dtor, List.append_assoc]
  simp only [List.cons_append, List.nil_append, Ending]
  simp [h, Protected]

theorem join_mem (n w : Nat) (hw : w < n) : Act.join w ∈ dtor n := by
  simp only [dtor, List.mem_append, List.mem_flatMap]
  exact Or.inl (Or.inr ⟨w, List.mem_range.2 hw, by simp⟩)

/-- What holds at any time. -/
structure Inv (n : Nat) (s : St) : Prop where
  few : ∀ w, n ≤ w → s.todo (.worker w) = []
  workers : ∀ w, fine (match s.phase with | .building _ => true | _ => false) (s.has (.worker w)) (s.todo (.worker w)) = true
  users : match s.phase with
    | .alive => ∀ k, fine false (s.has (.ext k)) (s.todo (.ext k)) = true
    | .building c => s.added = false ∧ (∀ k, k ≠ c → s.todo (.ext k) = []) ∧ (∀ k, s.has (.ext k) = false) ∧ Building n (s.todo (.ext c)) ∧
        ∀ w, .spawn w ∈ s.todo (.ext c) → s.todo (.worker w) = []
    | .ending c => (∀ k, k ≠ c → s.todo (.ext k) = [] ∧ s.has (.ext k) = false) ∧ Ending n (s.has (.ext c)) (s.todo (.ext c)) ∧
        ∀ w < n, .join w ∈ s.todo (.ext c) ∨ s.todo (.worker w) = []

theorem inv_init (n c : Nat) : Inv n ⟨.building c, none, fun k => if k = .ext c then ctor n else [], false⟩ := by
  refine ⟨fun w _ => by simp, fun w => by simp [St.has, fine], ?_⟩
  refine ⟨rfl, fun k hk => by simp [hk], fun k => by simp [St.has], ?_, fun w _ => by simp⟩
  simpa using building_ctor n

/-- A thread with nothing to do calls a function or destroys the pool. -/
theorem step_nil {n : Nat} {s s' : St} {c : Thr} (hs : Step n s c s') (h : s.todo c = []) : s.phase = .alive ∧ ∃ k, c = .ext k := by
  cases hs with
  | call a hp h => exact ⟨hp, _, rfl⟩
  | destroy hp h => exact ⟨hp, _, rfl⟩
  | nested r a h' => rw [h] at h'; cases h'
  | back r h' => rw [h] at h'; cases h'
  | lock r h' => rw [h] at h'; cases h'
  | unlock r h' => rw [h] at h'; cases h'
  | acc w x r h' => rw [h] at h'; cases h'
  | work r b h' => rw [h] at h'; cases h'
  | spawn w r h' => rw [h] at h'; cases h'
  | join w r h' => rw [h] at h'; cases h'
  | ready r h' => rw [h] at h'; cases h'

theorem inv_worker {n : Nat} {s s' : St} {w : Nat} (hs : Step n s (.worker w) s') (hi : Inv n s) : Inv n s' := by
  obtain ⟨hw, hf, hu⟩ := hi
  by_cases h0 : s.todo (.worker w) = []
  · obtain ⟨_, k, hk⟩ := step_nil hs h0
    cases hk
  have hn : ¬ n ≤ w := fun h => h0 (hw w h)
  have key := step_fine hs (hf w) h0 (by
    intro hq
    split at hq
    · rename_i c hp
      rw [hp] at hu; exact hu.1
    · cases hq)
  obtain ⟨h1, h2, h3, h4⟩ := key
  refine ⟨?_, ?_, ?_⟩
  · intro v hv
    rw [(h2 (.worker v) (by intro e; injection e with e; omega)).1]
    exact hw v hv
  · intro v
    rw [h1]
    by_cases e : v = w
    · subst e; exact h3
    · obtain ⟨a, b⟩ := h2 (.worker v) (by simpa using e)
      rw [a, b]; exact hf v
  · rw [h1]
    cases hp : s.phase with
    | alive =>
        rw [hp] at hu
        intro k
        obtain ⟨a, b⟩ := h2 (.ext k) (by simp)
        rw [a, b]; exact hu k
    | building c =>
        rw [hp] at hu h4
        obtain ⟨u1, u2, u3, u4, u5⟩ := hu
        refine ⟨h4 rfl, fun k hk => ?_, fun k => ?_, ?_, fun v hv => ?_⟩
        · rw [(h2 (.ext k) (by simp)).1]; exact u2 k hk
        · rw [(h2 (.ext k) (by simp)).2]; exact u3 k
        · rw [(h2 (.ext c) (by simp)).1]; exact u4
        · rw [(h2 (.ext c) (by simp)).1] at hv
          have hv' := u5 v hv
          have e : v ≠ w := by rintro rfl; exact h0 hv'
          rw [(h2 (.worker v) (by simpa using e)).1]; exact hv'
    | ending c =>
        rw [hp] at hu
        obtain ⟨u1, u2, u3⟩ := hu
        refine ⟨fun k hk => ?_, ?_, fun v hv => ?_⟩
        · obtain ⟨a, b⟩ := h2 (.ext k) (by simp)
          rw [a, b]; exact u1 k hk
        · obtain ⟨a, b⟩ := h2 (.ext c) (by simp)
          rw [a, b]; exact u2
        · rw [(h2 (.ext c) (by simp)).1]
          rcases u3 v hv with h | h
          · exact Or.inl h
          · right
            have e : v ≠ w := by rintro rfl; exact h0 h
            rw [(h2 (.worker v) (by simpa using e)).1]; exact h

/-- A step of a thread of the user while the pool is alive. -/
theorem inv_alive {n : Nat} {s s' : St} {k : Nat} (hs : Step n s (.ext k) s') (hp : s.phase = .alive) (hi : Inv n s) : Inv n s' := by
  obtain ⟨hw, hf, hu⟩ := hi
  rw [hp] at hu
  simp only [hp] at hf
  by_cases h0 : s.todo (.ext k) = []
  · have hb := hu k
    rw [h0] at hb
    have hb := fine_nil hb
    cases hs with
    | call a _ h =>
        refine ⟨fun v hv => by simpa [St.set] using hw v hv, fun v => ?_, ?_⟩
        · have := hf v
          simpa [St.set, St.has, hp] using this
        · simp only [St.set, hp]
          intro j
          by_cases e : j = k
          · subst e
            have e2 : decide (s.owner = some (Thr.ext j)) = false := hb
            simp only [St.has, e2, if_true]; exact (fine_call a).1
          · have := hu j
            simpa [St.has, e] using this
    | destroy _ h =>
        have hno : ∀ j, s.has (.ext j) = false := by
          intro j
          have := hu j
          rw [h j] at this
          exact fine_nil this
        refine ⟨fun v hv => by simpa [St.set] using hw v hv, fun v => ?_, ?_⟩
        · have := hf v
          simpa [St.set, St.has] using this
        · simp only [St.set]
          refine ⟨fun j hj => ⟨by simpa [hj] using h j, hno j⟩, ?_, fun v hv => ?_⟩
          · have e2 : decide (s.owner = some (Thr.ext k)) = false := hb
            simp only [St.has, e2, if_true]; exact ending_dtor n
          · left; simpa using join_mem n v hv
    | nested r a h' => rw [h0] at h'; cases h'
    | back r h' => rw [h0] at h'; cases h'
    | lock r h' => rw [h0] at h'; cases h'
    | unlock r h' => rw [h0] at h'; cases h'
    | acc w x r h' => rw [h0] at h'; cases h'
    | work r b h' => rw [h0] at h'; cases h'
    | spawn w r h' => rw [h0] at h'; cases h'
    | join w r h' => rw [h0] at h'; cases h'
    | ready r h' => rw [h0] at h'; cases h'
  · obtain ⟨h1, h2, h3, h4⟩ := step_fine hs (hu k) h0 (by simp)
    refine ⟨fun v hv => ?_, fun v => ?_, ?_⟩
    · rw [(h2 (.worker v) (by simp)).1]; exact hw v hv
    · rw [h1]
      obtain ⟨a, b⟩ := h2 (.worker v) (by simp)
      rw [a, b, hp]; exact hf v
    · rw [h1, hp]
      intro j
      by_cases e : j = k
      · subst e; exact h3
      · obtain ⟨a, b⟩ := h2 (.ext j) (by simpa using e)
        rw [a, b]; exact hu j

/-- A step of the constructor. -/
theorem inv_building {n : Nat} {s s' : St} {c : Nat} (hs : Step n s (.ext c) s') (hp : s.phase = .building c) (hi : Inv n s) : Inv n s' := by
  obtain ⟨hw, hf, hu⟩ := hi
  rw [hp] at hu
  simp only [hp] at hf
  obtain ⟨u1, u2, u3, u4, u5⟩ := hu
  cases hs with
  | call a hp' h => rw [hp] at hp'; cases hp'
  | destroy hp' h => rw [hp] at hp'; cases hp'
  | nested r a h => rw [h] at u4; exact absurd u4 (by simp [Building])
  | back r h => rw [h] at u4; exact absurd u4 (by simp [Building])
  | lock r h => rw [h] at u4; exact absurd u4 (by simp [Building])
  | unlock r h => rw [h] at u4; exact absurd u4 (by simp [Building])
  | work r b h => rw [h] at u4; exact absurd u4 (by simp [Building])
  | join w r h => rw [h] at u4; exact absurd u4 (by simp [Building])
  | acc w x r h =>
      rw [h] at u4
      simp only [Building] at u4
      refine ⟨fun v hv => by simpa [St.set] using hw v hv, fun v => by simpa [St.set, St.has, hp] using hf v, ?_⟩
      simp only [St.set, hp]
      refine ⟨u1, fun j hj => by simpa [hj] using u2 j hj, u3, by simpa using u4.2, fun v hv => ?_⟩
      simp only [if_true] at hv
      simpa using u5 v (by rw [h]; exact List.mem_cons_of_mem _ hv)
  | spawn w r h =>
      rw [h] at u4
      simp only [Building] at u4
      obtain ⟨hwn, hnot, hb⟩ := u4
      have hw0 : s.todo (.worker w) = [] := u5 w (by rw [h]; simp)
      have hown : s.has (.worker w) = false := by
        have := hf w
        rw [hw0] at this
        exact fine_nil this
      refine ⟨fun v hv => ?_, fun v => ?_, ?_⟩
      · have e : v ≠ w := by omega
        simpa [St.set, e] using hw v hv
      · simp only [St.set, hp]
        by_cases e : v = w
        · subst e
          have e2 : decide (s.owner = some (Thr.worker v)) = false := hown
          simp only [St.has, e2, if_true]; decide
        · simpa [St.has, e] using hf v
      · simp only [St.set, hp]
        refine ⟨u1, fun j hj => by simpa [hj] using u2 j hj, u3, by simpa using hb, fun v hv => ?_⟩
        have hv : Act.spawn v ∈ r := by simpa using hv
        have e : v ≠ w := by rintro rfl; exact hnot hv
        simpa [e] using u5 v (by rw [h]; exact List.mem_cons_of_mem _ hv)
  | ready r h =>
      rw [h] at u4
      simp only [Building] at u4
      subst u4
      refine ⟨fun v hv => by simpa [St.set] using hw v hv, fun v => ?_, ?_⟩
      · have := fine_quiet (hf v)
        simpa [St.set, St.has] using this
      · simp only [St.set]
        intro j
        have hj := u3 j
        simp only [St.has] at hj ⊢
        simp only [hj]
        by_cases e : j = c
        · subst e; simp [fine]
        · simp [e, u2 j e, fine]

/-- A step of the destructor. -/
theorem inv_ending {n : Nat} {s s' : St} {c : Nat} (hs : Step n s (.ext c) s') (hp : s.phase = .ending c) (hi : Inv n s) : Inv n s' := by
  obtain ⟨hw, hf, hu⟩ := hi
  rw [hp] at hu
  simp only [hp] at hf
  obtain ⟨u1, u2, u3⟩ := hu
  cases hs with
  | call a hp' h => rw [hp] at hp'; cases hp'
  | destroy hp' h => rw [hp] at hp'; cases hp'
  | nested r a h => rw [h] at u2; exact absurd u2 (by simp [Ending])
  | back r h => rw [h] at u2; exact absurd u2 (by simp [Ending])
  | work r b h => rw [h] at u2; exact absurd u2 (by simp [Ending])
  | spawn w r h => rw [h] at u2; exact absurd u2 (by simp [Ending])
  | ready r h => rw [h] at u2; exact absurd u2 (by simp [Ending])
  | acc w x r h =>
      rw [h] at u2
      simp only [Ending] at u2
      refine ⟨fun v hv => by simpa [St.set] using hw v hv, fun v => by simpa [St.set, St.has, hp] using hf v, ?_⟩
      simp only [St.set, hp]
      refine ⟨fun j hj => by simpa [St.has, hj] using u1 j hj, by simpa [St.has] using u2.2, fun v hv => ?_⟩
      rcases u3 v hv with h' | h'
      · left; rw [h] at h'; simpa using h'
      · right; simpa using h'
  | join w r h hw0 =>
      rw [h] at u2
      simp only [Ending] at u2
      refine ⟨fun v hv => by simpa [St.set] using hw v hv, fun v => by simpa [St.set, St.has, hp] using hf v, ?_⟩
      simp only [St.set, hp]
      refine ⟨fun j hj => by simpa [St.has, hj] using u1 j hj, by simpa [St.has] using u2, fun v hv => ?_⟩
      by_cases e : v = w
      · right; subst e; simpa using hw0
      · rcases u3 v hv with h' | h'
        · left; rw [h] at h'; simpa [e] using h'
        · right; simpa using h'
  | lock r h ho =>
      rw [h] at u2
      simp only [Ending] at u2
      refine ⟨fun v hv => by simpa [St.set] using hw v hv, fun v => ?_, ?_⟩
      · have := hf v
        simpa [St.set, St.has, hp, ho] using this
      · simp only [St.set, hp]
        refine ⟨fun j hj => ⟨by simpa [hj] using (u1 j hj).1, ?_⟩, ?_, fun v hv => ?_⟩
        · simp only [St.has, Option.some.injEq, Thr.ext.injEq, decide_eq_false_iff_not]; exact fun e => hj e.symm
        · simpa [St.has] using u2.2
        · rcases u3 v hv with h' | h'
          · left; rw [h] at h'; simpa using h'
          · right; simpa using h'
  | unlock r h =>
      rw [h] at u2
      simp only [Ending] at u2
      have ho : s.owner = some (.ext c) := by simpa [St.has] using u2.1
      refine ⟨fun v hv => by simpa [St.set] using hw v hv, fun v => ?_, ?_⟩
      · have := hf v
        simpa [St.set, St.has, hp, ho] using this
      · simp only [St.set, hp]
        refine ⟨fun j hj => ⟨by simpa [hj] using (u1 j hj).1, by simp [St.has]⟩, ?_, fun v hv => ?_⟩
        · simpa [St.has] using u2.2
        · rcases u3 v hv with h' | h'
          · left; rw [h] at h'; simpa using h'
          · right; simpa using h'

theorem inv_step {n : Nat} {s s' : St} {c : Thr} (hs : Step n s c s') (hi : Inv n s) : Inv n s' := by
  cases c with
  | worker w => exact inv_worker hs hi
  | ext k =>
      cases hp : s.phase with
      | alive => exact inv_alive hs hp hi
      | building c =>
          by_cases e : k = c
          · subst e; exact inv_building hs hp hi
          · have hu := hi.users
            rw [hp] at hu
            have := (step_nil hs (hu.2.1 k e)).1
            rw [hp] at this; cases this
      | ending c =>
          by_cases e : k = c
          · subst e; exact inv_ending hs hp hi
          · have hu := hi.users
            rw [hp] at hu
            have := (step_nil hs (hu.1 k e).1).1
            rw [hp] at this; cases this

theorem inv_run {n : Nat} {s : St} (h : Run n s) : Inv n s := by
  induction h with
  | init c => exact inv_init n c
  | step _ hs ih => exact inv_step hs ih

/-! ### No races -/

/-- Threads that keep to `fine` do not race. -/
theorem fine_fine {s : St} {q q' : Bool} {c k : Thr} (hck : c ≠ k) (h1 : fine q (s.has c) (s.todo c) = true)
    (h2 : fine q' (s.has k) (s.todo k) = true) {x : Var} {w w' : Bool} (u1 : uses (s.todo c) = some (w, x))
    (u2 : uses (s.todo k) = some (w', x)) (hw : w = true ∨ w' = true) : False := by
  have f1 := fine_uses h1 u1
  have f2 := fine_uses h2 u2
  cases hp : Protected x with
  | true =>
      have a := f1.1 hp
      have b := f2.1 hp
      simp only [St.has, decide_eq_true_eq] at a b
      rw [a] at b
      injection b with b
      exact hck b
  | false =>
      rw [f1.2.1 hp, f2.2.1 hp] at hw
      simp at hw

/-- The constructor and the workers. -/
theorem building_worker {n : Nat} {s : St} {c v : Nat} (hp : s.phase = .building c) (hi : Inv n s) {x : Var} {w w' : Bool}
    (u1 : uses (s.todo (.ext c)) = some (w, x)) (u2 : uses (s.todo (.worker v)) = some (w', x)) : False := by
  obtain ⟨hw, hf, hu⟩ := hi
  rw [hp] at hu
  simp only [hp] at hf
  obtain ⟨_, _, _, u4, u5⟩ := hu
  have f2 := fine_uses (hf v) u2
  revert u1 u4 u5
  cases s.todo (.ext c) with
  | nil => intro u1; simp [uses] at u1
  | cons a r =>
      cases a with
      | acc w1 x1 =>
          intro u1 u4 u5
          simp only [uses, Option.some.injEq, Prod.mk.injEq] at u1
          obtain ⟨rfl, rfl⟩ := u1
          simp only [Building] at u4
          rcases u4.1 with h | h | h | ⟨w, h⟩
          · by_cases hv : v < n
            · have := u5 v (List.mem_cons_of_mem _ (h v hv))
              rw [this] at u2; simp [uses] at u2
            · rw [hw v (by omega)] at u2; simp [uses] at u2
          · exact (f2.2.2.2 rfl).1 h
          · exact (f2.2.2.2 rfl).2 h
          · exact f2.2.2.1 w h
      | _ => simp [uses, Building]

/-- The destructor and the workers. -/
theorem ending_worker {n : Nat} {s : St} {c v : Nat} (hp : s.phase = .ending c) (hi : Inv n s) {x : Var} {w w' : Bool}
    (u1 : uses (s.todo (.ext c)) = some (w, x)) (u2 : uses (s.todo (.worker v)) = some (w', x)) (hww : w = true ∨ w' = true) : False := by
  obtain ⟨hw, hf, hu⟩ := hi
  rw [hp] at hu
  simp only [hp] at hf
  obtain ⟨_, u4, u5⟩ := hu
  have f2 := fine_uses (hf v) u2
  revert u1 u4 u5
  generalize hb : s.has (.ext c) = b
  cases s.todo (.ext c) with
  | nil => intro u1; simp [uses] at u1
  | cons a r =>
      cases a with
      | acc w1 x1 =>
          intro u1 u4 u5
          simp only [uses, Option.some.injEq, Prod.mk.injEq] at u1
          obtain ⟨rfl, rfl⟩ := u1
          simp only [Ending] at u4
          rcases u4.1 with h | ⟨h, h'⟩ | ⟨h, h'⟩ | ⟨h, h'⟩ | ⟨w, h⟩
          · by_cases hv : v < n
            · rcases u5 v hv with h' | h'
              · simp only [List.mem_cons, reduceCtorEq, false_or] at h'
                exact h v hv h'
              · rw [h'] at u2; simp [uses] at u2
            · rw [hw v (by omega)] at u2; simp [uses] at u2
          · have a := f2.1 h
            rw [h'] at hb
            simp only [St.has, decide_eq_true_eq] at a hb
            rw [a] at hb; cases hb
          · subst h; subst h'
            have := f2.2.1 rfl
            simp [this] at hww
          · subst h; subst h'
            have := f2.2.1 rfl
            simp [this] at hww
          · exact f2.2.2.1 w h
      | lock =>
          intro u1 _ _
          simp only [uses, Option.some.injEq, Prod.mk.injEq] at u1
          obtain ⟨rfl, rfl⟩ := u1
          have := f2.2.1 rfl
          simp [this] at hww
      | unlock =>
          intro u1 _ _
          simp only [uses, Option.some.injEq, Prod.mk.injEq] at u1
          obtain ⟨rfl, rfl⟩ := u1
          have := f2.2.1 rfl
          simp [this] at hww
      | _ => simp [uses]

theorem no_race {n : Nat} {s : St} (hi : Inv n s) {c k : Thr} {x : Var} {w w' : Bool} (hck : c ≠ k)
    (u1 : uses (s.todo c) = some (w, x)) (u2 : uses (s.todo k) = some (w', x)) (hww : w = true ∨ w' = true) : False := by
  have nil : ∀ {j x w}, s.todo j = [] → uses (s.todo j) = some (w, x) → False := by
    intro j x w h h'; rw [h] at h'; simp [uses] at h'
  have hi' := hi
  obtain ⟨hw, hf, hu⟩ := hi'
  cases c with
  | worker v =>
      cases k with
      | worker v' => exact fine_fine hck (hf v) (hf v') u1 u2 hww
      | ext j =>
          cases hp : s.phase with
          | alive => rw [hp] at hu; exact fine_fine hck (hf v) (hu j) u1 u2 hww
          | building c =>
              rw [hp] at hu
              by_cases e : j = c
              · subst e; exact building_worker hp hi u2 u1
              · exact nil (hu.2.1 j e) u2
          | ending c =>
              rw [hp] at hu
              by_cases e : j = c
              · subst e; exact ending_worker hp hi u2 u1 hww.symm
              · exact nil (hu.1 j e).1 u2
  | ext i =>
      cases k with
      | worker v =>
          cases hp : s.phase with
          | alive => rw [hp] at hu; exact fine_fine hck (hu i) (hf v) u1 u2 hww
          | building c =>
              rw [hp] at hu
              by_cases e : i = c
              · subst e; exact building_worker hp hi u1 u2
              · exact nil (hu.2.1 i e) u1
          | ending c =>
              rw [hp] at hu
              by_cases e : i = c
              · subst e; exact ending_worker hp hi u1 u2 hww
              · exact nil (hu.1 i e).1 u1
      | ext j =>
          cases hp : s.phase with
          | alive => rw [hp] at hu; exact fine_fine hck (hu i) (hu j) u1 u2 hww
          | building c =>
              rw [hp] at hu
              by_cases e : i = c
              · exact nil (hu.2.1 j (by rintro rfl; exact hck (by rw [e]))) u2
              · exact nil (hu.2.1 i e) u1
          | ending c =>
              rw [hp] at hu
              by_cases e : i = c
              · exact nil (hu.1 j (by rintro rfl; exact hck (by rw [e]))).1 u2
              · exact nil (hu.1 i e).1 u1

/-- C115: there is never a data race on a member of a thread pool. Whatever functions of the pool the threads of the user and the tasks
call, and however the threads take turns, from the constructor to the destructor: no two threads are ever about to use the same member
with one of them writing or destroying it. -/
theorem c115_thread_pool {n : Nat} {s : St} (h : Run n s) : ¬ DataRace s := by
  rintro ⟨c, k, x, w, w', hck, u1, u2, hww⟩
  exact no_race (inv_run h) hck u1 u2 hww

/-- C115: the mutex is used as its documentation demands. A thread that unlocks it owns it, and a thread that locks it does not. -/
theorem c115_mutex {n : Nat} {s : St} (h : Run n s) (c : Thr) (r : List Act) :
    (s.todo c = .unlock :: r → s.owner = some c) ∧ (s.todo c = .lock :: r → s.owner ≠ some c) := by
  obtain ⟨hw, hf, hu⟩ := inv_run h
  have key : ∀ {q}, fine q (s.has c) (s.todo c) = true → (s.todo c = .unlock :: r → s.owner = some c) ∧ (s.todo c = .lock :: r → s.owner ≠ some c) := by
    intro q hq
    constructor
    · intro e
      rw [e] at hq
      simp only [fine, Bool.and_eq_true] at hq
      simpa [St.has] using hq.1
    · intro e
      rw [e] at hq
      simp only [fine, Bool.and_eq_true, Bool.not_eq_true'] at hq
      simpa [St.has] using hq.1
  cases c with
  | worker v => exact key (hf v)
  | ext k =>
      cases hp : s.phase with
      | alive => rw [hp] at hu; exact key (hu k)
      | building c =>
          rw [hp] at hu
          by_cases e : k = c
          · subst e
            have hb := hu.2.2.2.1
            constructor <;> intro e <;> rw [e] at hb <;> exact absurd hb (by simp [Building])
          · rw [hu.2.1 k e]; simp
      | ending c =>
          rw [hp] at hu
          by_cases e : k = c
          · subst e
            have hb := hu.2.1
            constructor
            · intro e
              rw [e] at hb
              simp only [Ending] at hb
              simpa [St.has] using hb.1
            · intro e
              rw [e] at hb
              simp only [Ending] at hb
              simpa [St.has] using hb.1
          · rw [(hu.1 k e).1]; simp

/-! ### A run -/

/-- A choice of the scheduler: the thread, and what it does if there is a choice. -/
inductive Go where
  | on (c : Thr)
  | call (c : Thr) (a : Call)
  | round (c : Thr) (b : Round)
  | destroy (k : Nat)

/-- The step that a choice makes; none if it is not possible. -/
def go (n : Nat) (s : St) : Go → Option St
  | .on c => match s.todo c with
      | .user :: r => some (s.set c r)
      | .lock :: r => if s.owner = none then some ({ s with owner := some c }.set c r) else none
      | .unlock :: r => some ({ s with owner := none }.set c r)
      | .acc _ _ :: r => some (s.set c r)
      | .spawn w :: r => some ((s.set c r).set (.worker w) worker)
      | .join w :: r => if s.todo (.worker w) = [] then some (s.set c r) else none
      | .ready :: r => some ({ s with phase := .alive }.set c r)
      | _ => none
  | .call (.ext k) a =>
      if s.phase = .alive ∧ s.todo (.ext k) = [] then some ({ s with added := s.added || a.adds }.set (.ext k) (Call.acts a)) else none
  | .call (.worker w) a => match s.todo (.worker w) with
      | .user :: r => some ({ s with added := s.added || a.adds }.set (.worker w) (Call.acts a ++ Act.user :: r))
      | _ => none
  | .round c b => match s.todo c with
      | .work :: r => if b = .task → s.added = true then some (s.set c (Round.acts b ++ r)) else none
      | _ => none
  | .destroy k => if s.phase = .alive ∧ s.todo (.ext 0) = [] ∧ s.todo (.ext 1) = [] ∧ s.todo (.ext 2) = [] then some ({ s with phase := .ending k }.set (.ext k) (dtor n)) else none

def gos (n : Nat) : St → List Go → Option St
  | s, [] => some s
  | s, g :: l => match go n s g with
      | some s' => gos n s' l
      | none => none

theorem go_step {n : Nat} {s s' : St} {g : Go} (hs : ∀ j, 3 ≤ j → s.todo (.ext j) = []) (h : go n s g = some s') : ∃ c, Step n s c s' := by
  cases g with
  | on c =>
      simp only [go] at h
      split at h
      · rename_i r hr; cases h; exact ⟨_, .back r hr⟩
      · rename_i r hr
        split at h
        · rename_i ho; cases h; exact ⟨_, .lock r hr ho⟩
        · cases h
      · rename_i r hr; cases h; exact ⟨_, .unlock r hr⟩
      · rename_i w x r hr; cases h; exact ⟨_, .acc w x r hr⟩
      · rename_i w r hr; cases h; exact ⟨_, .spawn w r hr⟩
      · rename_i w r hr
        split at h
        · rename_i ho; cases h; exact ⟨_, .join w r hr ho⟩
        · cases h
      · rename_i r hr; cases h; exact ⟨_, .ready r hr⟩
      · cases h
  | call c a =>
      cases c with
      | ext k =>
          simp only [go] at h
          split at h
          · rename_i hh; cases h; exact ⟨_, .call a hh.1 hh.2⟩
          · cases h
      | worker w =>
          simp only [go] at h
          split at h
          · rename_i r hr; cases h; exact ⟨_, .nested r a hr⟩
          · cases h
  | round c b =>
      simp only [go] at h
      split at h
      · rename_i r hr
        split at h
        · rename_i hb; cases h; exact ⟨_, .work r b hr hb⟩
        · cases h
      · cases h
  | destroy k =>
      simp only [go] at h
      split at h
      · rename_i hh
        cases h
        refine ⟨_, .destroy hh.1 fun j => ?_⟩
        by_cases hj : j < 3
        · rcases (show j = 0 ∨ j = 1 ∨ j = 2 by omega) with rfl | rfl | rfl
          · exact hh.2.1
          · exact hh.2.2.1
          · exact hh.2.2.2
        · exact hs j (by omega)
      · cases h

/-- Only the first three threads of the user have something to do. -/
def Go.small : Go → Bool
  | .on (.ext j) => j < 3
  | .call (.ext j) _ => j < 3
  | .round (.ext j) _ => j < 3
  | .destroy j => j < 3
  | _ => true

theorem go_small {n : Nat} {s s' : St} {g : Go} (hg : g.small = true) (hs : ∀ j, 3 ≤ j → s.todo (.ext j) = []) (h : go n s g = some s') :
    ∀ j, 3 ≤ j → s'.todo (.ext j) = [] := by
  intro j hj
  have key : ∀ c, (∀ i, c = Thr.ext i → i < 3) → Thr.ext j ≠ c := by
    intro c hc e; have := hc j e.symm; omega
  cases g with
  | on c =>
      have hc : Thr.ext j ≠ c := key c (by rintro i rfl; simpa [Go.small] using hg)
      simp only [go] at h
      split at h
      all_goals (try split at h) <;> first | cases h | skip
      all_goals simp [St.set, hc, hs j hj]
  | call c a =>
      cases c with
      | ext k =>
          have hk : j ≠ k := by have : k < 3 := by simpa [Go.small] using hg
                                omega
          simp only [go] at h
          split at h <;> cases h
          simp [St.set, hk, hs j hj]
      | worker w =>
          simp only [go] at h
          split at h <;> cases h
          simp [St.set, hs j hj]
  | round c b =>
      have hc : Thr.ext j ≠ c := key c (by rintro i rfl; simpa [Go.small] using hg)
      simp only [go] at h
      split at h
      · split at h <;> cases h
        simp [St.set, hc, hs j hj]
      · cases h
  | destroy k =>
      have hk : j ≠ k := by have : k < 3 := by simpa [Go.small] using hg
                            omega
      simp only [go] at h
      split at h <;> cases h
      simp [St.set, hk, hs j hj]

theorem gos_run {n : Nat} : ∀ {l : List Go} {s s' : St}, Run n s → (∀ j, 3 ≤ j → s.todo (.ext j) = []) → (∀ g ∈ l, g.small = true) →
    gos n s l = some s' → Run n s'
  | [], s, s', hr, _, _, h => by simp only [gos, Option.some.injEq] at h; exact h ▸ hr
  | g :: l, s, s', hr, hs, hl, h => by
      simp only [gos] at h
      split at h
      · rename_i s1 h1
        obtain ⟨c, hc⟩ := go_step hs h1
        exact gos_run (Run.step hr hc) (go_small (hl g (by simp)) hs h1) (fun x hx => hl x (by simp [hx])) h
      · cases h

/-- The state after a run, if it is possible; thread 0 constructs the pool. -/
def after (n : Nat) (l : List Go) : Option St := gos n ⟨.building 0, none, fun k => if k = .ext 0 then ctor n else [], false⟩ l

theorem after_run {n : Nat} {l : List Go} {s : St} (hl : ∀ g ∈ l, g.small = true) (h : after n l = some s) : Run n s :=
  gos_run (Run.init 0) (fun j hj => by simp [show j ≠ 0 by omega]) hl h

theorem after_exists {n : Nat} {l : List Go} (p : St → Bool) (hl : l.all Go.small = true) (h : (after n l).any p = true) :
    ∃ s, Run n s ∧ p s = true := by
  cases hs : after n l with
  | none => rw [hs] at h; simp at h
  | some s =>
      rw [hs] at h
      exact ⟨s, after_run (fun g hg => List.all_eq_true.1 hl g hg) hs, by simpa using h⟩

/-- The constructor of a pool with two workers; the first sleeps before the second is started. Then thread 1 adds a task. -/
def start : List Go :=
  List.replicate 15 (.on (.ext 0)) ++ [.on (.worker 0), .round (.worker 0) .sleep] ++ List.replicate 4 (.on (.worker 0)) ++
  List.replicate 7 (.on (.ext 0)) ++ [.call (.ext 1) (.add false)] ++ List.replicate 10 (.on (.ext 1))

/-- Then worker 1 takes the task, the task calls add_task and is about to change the queue, while worker 0, thread 1 and thread 2 want the
mutex, and then the task ends and the pool is destroyed. -/
def middle : List Go :=
  start ++ [.on (.worker 1), .round (.worker 1) .task] ++ List.replicate 6 (.on (.worker 1)) ++ [.call (.worker 1) (.add false)] ++
  List.replicate 7 (.on (.worker 1)) ++ [.call (.ext 1) .isIdle, .call (.ext 2) .countThreads]

/-- The task ends, the threads of the user return, and thread 2 destroys the pool: all workers have left, and the members are destroyed. -/
def ending : List Go :=
  middle ++ List.replicate 3 (.on (.worker 1)) ++ List.replicate 4 (.on (.ext 1)) ++ [.on (.ext 2), .destroy 2] ++ List.replicate 5 (.on (.ext 2)) ++
  List.replicate 5 (.on (.worker 1)) ++ [.round (.worker 1) .leave] ++ List.replicate 2 (.on (.worker 1)) ++
  [.on (.worker 0), .round (.worker 0) .leave] ++ List.replicate 2 (.on (.worker 0)) ++ List.replicate 6 (.on (.ext 2))

example : ∃ s, Run 2 s ∧ uses (s.todo (.worker 1)) = some (true, .nextId) ∧ uses (s.todo (.worker 0)) = some (false, .mutex) ∧
    uses (s.todo (.ext 1)) = some (false, .mutex) ∧ uses (s.todo (.ext 2)) = some (false, .threads) := by
  simpa using after_exists (n := 2) (l := middle) (fun s => decide (uses (s.todo (.worker 1)) = some (true, .nextId) ∧
    uses (s.todo (.worker 0)) = some (false, .mutex) ∧ uses (s.todo (.ext 1)) = some (false, .mutex) ∧
    uses (s.todo (.ext 2)) = some (false, .threads))) (by decide +kernel) (by decide +kernel)

example : ∃ s, Run 2 s ∧ uses (s.todo (.ext 2)) = some (true, .shutdown) ∧ s.todo (.worker 0) = [] ∧ s.todo (.worker 1) = [] := by
  simpa using after_exists (n := 2) (l := ending) (fun s => decide (uses (s.todo (.ext 2)) = some (true, .shutdown) ∧
    s.todo (.worker 0) = [] ∧ s.todo (.worker 1) = [])) (by decide +kernel) (by decide +kernel)

end Gul14.Pool.Race
