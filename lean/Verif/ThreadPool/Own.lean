import Verif.ThreadPool.Model

/-!
# ThreadPool: which thread runs the destructor

The shared pointers to a pool, one by one.  The main model (`Model.lean`) lets a thread release the last shared
pointer between two calls; here the temporary pointers inside the calls are followed as well: the one that
shared_from_this() returns in add_task (ThreadPool.h:328), which is destroyed at the end of this statement because
TaskHandle's constructor (ThreadPool.h:158-162) takes it by value and makes a weak pointer of it, and the one of
lock_pool_or_throw in the functions of TaskHandle (ThreadPool.h:176, 226).
-/
namespace Gul14.Pool.Own

/-- What a thread does to the pointers and to the mutex. -/
inductive Act where
  /-- a new shared pointer: a copy, shared_from_this(), or weak_ptr::lock() -/
  | acquire
  /-- a shared pointer is destroyed -/
  | drop
  | lock
  | unlock
  deriving DecidableEq, Repr

/-- What users call. -/
inductive Api where
  /-- copy a shared pointer to the pool -/
  | copy
  /-- destroy one -/
  | reset
  /-- add_task -/
  | addTask
  /-- another member function of the pool -/
  | member
  /-- TaskHandle::cancel or TaskHandle::get_state -/
  | viaHandle
  /-- not a call: the end of a task whose function owns a shared pointer (and whose handle is gone) -/
  | endTask
  deriving DecidableEq, Repr

/-- The calls, action by action.  add_task: ThreadPool.h:313 (lock), 328 (shared_from_this, TaskHandle), 336
(unlock).  Other members: ThreadPool.cc:82-176, one critical section.  Handles: ThreadPool.h:176 and 226 with
ThreadPool.cc:35-42 and the critical section of ThreadPool.cc:82-95 or 154-170; the temporary lives until the end
of the statement.  End of a task: ThreadPool.cc:255 (lock) and 264, where `named_task_ptr` is destroyed with the
function that it owns, before the mutex is unlocked (in 213, 230 or 242, or at the end). -/
def Api.acts : Api → List Act
  | .copy => [.acquire]
  | .reset => [.drop]
  | .addTask => [.lock, .acquire, .drop, .unlock]
  | .member => [.lock, .unlock]
  | .viaHandle => [.acquire, .lock, .unlock, .drop]
  | .endTask => [.lock, .drop, .unlock]

/-- `count`: the use count; `held`: the shared pointers each thread has; `dtor`: the thread that has
entered the destructor, and whether it owns the mutex at this moment. Copies and releases of the
shared_ptr to the pool, ThreadPool.h:132-242, 300-390. -/
structure St where
  count : Nat
  held : Who → Nat
  owner : Option Who
  todo : Who → List Act
  dtor : Option (Who × Bool)

def upd {α : Type} (f : Who → α) (c : Who) (x : α) : Who → α := fun k => if k = c then x else f k

/-- What happens: a call, a pointer is passed on, the next action of a thread. -/
inductive Ev where
  | call (c : Who) (a : Api)
  | give (c c' : Who)
  | act (c : Who)
  deriving DecidableEq, Repr

/-- One action, until the destructor is entered. `call`: outside threads need a pointer of their own to
call the pool, tasks have a reference; `give`: a pointer is passed to another thread, e.g. in the
function of a task. Copies and releases of the shared_ptr to the pool, ThreadPool.h:132-242, 300-390. -/
inductive Step : St → Ev → St → Prop
  | call (s c a) (hd : s.dtor = none) (hi : s.todo c = [])
      (ho : ∀ k, c = .ext k → a ≠ .viaHandle → 1 ≤ s.held c) (hp : a = .copy ∨ a = .reset ∨ a = .endTask → 1 ≤ s.held c)
      (hw : a = .endTask → ∃ w, c = .task w) :
      Step s (.call c a) { s with todo := upd s.todo c a.acts }
  | give (s c c') (hd : s.dtor = none) (hi : s.todo c = []) (hp : 1 ≤ s.held c) (hn : c ≠ c') :
      Step s (.give c c') { s with held := upd (upd s.held c (s.held c - 1)) c' (s.held c' + 1) }
  | acquire (s c r) (hd : s.dtor = none) (ht : s.todo c = .acquire :: r) :
      Step s (.act c) { s with todo := upd s.todo c r, held := upd s.held c (s.held c + 1), count := s.count + 1 }
  | lock (s c r) (hd : s.dtor = none) (ht : s.todo c = .lock :: r) (ho : s.owner = none) :
      Step s (.act c) { s with todo := upd s.todo c r, owner := some c }
  | unlock (s c r) (hd : s.dtor = none) (ht : s.todo c = .unlock :: r) :
      Step s (.act c) { s with todo := upd s.todo c r, owner := none }
  | drop (s c r) (hd : s.dtor = none) (ht : s.todo c = .drop :: r) :
      Step s (.act c) { s with
        todo := upd s.todo c r
        held := upd s.held c (s.held c - 1)
        count := s.count - 1
        dtor := if s.count = 1 then some (c, decide (s.owner = some c)) else none }

/-- make_thread_pool has returned the first pointer to outside thread 0. -/
def init : St := ⟨1, upd (fun _ => 0) (.ext 0) 1, none, fun _ => [], none⟩

/-- Executions. -/
inductive Run : List Ev → St → Prop
  | init : Run [] init
  | step {es s e s'} (h : Run es s) (hs : Step s e s') : Run (es ++ [e]) s'

/-- ~ThreadPool, ThreadPool.cc:70: the first statement locks the mutex.  Undefined if the thread owns it. -/
def dtorLock (ownsMutex : Bool) : Res Unit := if ownsMutex then .ub else .ok ()

/-! ### The invariant -/

def sum (held : Who → Nat) (L : List Who) : Nat := (L.map held).sum

theorem sum_upd_not {held : Who → Nat} {c : Who} {x : Nat} : ∀ {L : List Who}, c ∉ L → sum (upd held c x) L = sum held L := by
  intro L
  induction L with
  | nil => intro _; rfl
  | cons y ys ih =>
      intro h
      simp only [List.mem_cons, not_or] at h
      simp only [sum, List.map_cons, List.sum_cons] at ih ⊢
      rw [ih h.2]
      simp [upd, Ne.symm h.1]

theorem sum_upd {held : Who → Nat} {c : Who} {x : Nat} : ∀ {L : List Who}, L.Nodup → c ∈ L →
    sum (upd held c x) L + held c = sum held L + x := by
  intro L
  induction L with
  | nil => intro _ h; cases h
  | cons y ys ih =>
      intro hn h
      rw [List.nodup_cons] at hn
      by_cases hy : y = c
      · subst hy
        have := sum_upd_not (held := held) (c := y) (x := x) hn.1
        simp only [sum, List.map_cons, List.sum_cons] at this ⊢
        rw [this]
        simp only [upd, if_true]
        omega
      · have hc : c ∈ ys := by
          rcases List.mem_cons.mp h with h | h
          · exact absurd h.symm hy
          · exact h
        have := ih hn.2 hc
        simp only [sum, List.map_cons, List.sum_cons] at this ⊢
        have : upd held c x y = held y := by simp [upd, hy]
        omega

theorem sum_le {held : Who → Nat} {c : Who} : ∀ {L : List Who}, c ∈ L → held c ≤ sum held L := by
  intro L
  induction L with
  | nil => intro h; cases h
  | cons y ys ih =>
      intro h
      simp only [sum, List.map_cons, List.sum_cons] at ih ⊢
      rcases List.mem_cons.mp h with rfl | h
      · omega
      · have := ih h; omega

/-- The use count is the number of shared pointers. -/
def Counts (s : St) (L : List Who) : Prop := L.Nodup ∧ (∀ c, c ∉ L → s.held c = 0) ∧ s.count = sum s.held L

theorem Counts.add {s : St} {L : List Who} (h : Counts s L) (c : Who) : ∃ L', c ∈ L' ∧ Counts s L' := by
  by_cases hc : c ∈ L
  · exact ⟨L, hc, h⟩
  · refine ⟨c :: L, by simp, List.nodup_cons.mpr ⟨hc, h.1⟩, fun k hk => h.2.1 k (fun h' => hk (by simp [h'])), ?_⟩
    simp only [sum, List.map_cons, List.sum_cons, h.2.1 c hc, Nat.zero_add]
    exact h.2.2

/-- The pointers that the rest of a call destroys, less those it makes: at most the pointers that the thread has,
and one less for an outside thread that is in a call of the pool. -/
inductive Rest : List Act → Nat → Bool → Bool → Prop
  | idle : Rest [] 0 false false
  | copy : Rest [.acquire] 0 false false
  | reset : Rest [.drop] 1 false false
  | add0 : Rest [.lock, .acquire, .drop, .unlock] 0 false true
  | add1 : Rest [.acquire, .drop, .unlock] 0 true true
  | add2 : Rest [.drop, .unlock] 1 true true
  | unlock : Rest [.unlock] 0 true true
  | member0 : Rest [.lock, .unlock] 0 false true
  | end0 : Rest [.lock, .drop, .unlock] 1 false true
  | handle0 : Rest [.acquire, .lock, .unlock, .drop] 0 false false
  | handle1 : Rest [.lock, .unlock, .drop] 1 false false
  | handle2 : Rest [.unlock, .drop] 1 true false

def isExt : Who → Bool
  | .ext _ => true
  | .task _ => false

structure Inv (s : St) : Prop where
  counts : ∃ L, Counts s L
  rest : s.dtor = none → ∀ c, ∃ n own inn, Rest (s.todo c) n own inn ∧ (own = true ↔ s.owner = some c) ∧
    (n + if isExt c && inn then 1 else 0) ≤ s.held c
  alive : s.dtor = none ↔ 0 < s.count
  outside : ∀ k b, s.dtor = some (.ext k, b) → b = false


theorem upd_same {α : Type} (f : Who → α) (c : Who) (x : α) : upd f c x c = x := by simp [upd]
theorem upd_other {α : Type} (f : Who → α) {c k : Who} (x : α) (h : k ≠ c) : upd f c x k = f k := by simp [upd, h]

theorem Counts.upd_held {s : St} {L : List Who} (h : Counts s L) (c : Who) (x n : Nat)
    (hn : n + s.held c = s.count + x) {s' : St} (hc : s'.count = n) (hh : s'.held = upd s.held c x) :
    ∃ L', Counts s' L' := by
  obtain ⟨L', hm, h'⟩ := h.add c
  refine ⟨L', h'.1, fun k hk => ?_, ?_⟩
  · have : k ≠ c := fun e => hk (e ▸ hm)
    rw [hh, upd_other _ _ this]
    exact h'.2.1 k hk
  · have := sum_upd (held := s.held) (c := c) (x := x) h'.1 hm
    have := h'.2.2
    rw [hh, hc]
    omega

theorem rest_acts {a : Api} : ∃ n inn, Rest a.acts n false inn ∧ (n = 1 ∧ (a = .reset ∨ a = .endTask) ∨ n = 0) ∧
    (inn = true → a ≠ .viaHandle) ∧ (a = .reset → inn = false) := by
  cases a
  · exact ⟨_, _, .copy, by simp, by simp, by simp⟩
  · exact ⟨_, _, .reset, by simp, by simp, by simp⟩
  · exact ⟨_, _, .add0, by simp, by simp, by simp⟩
  · exact ⟨_, _, .member0, by simp, by simp, by simp⟩
  · exact ⟨_, _, .handle0, by simp, by simp, by simp⟩
  · exact ⟨_, _, .end0, by simp, by simp, by simp⟩

theorem inv_init : Inv init where
  counts := ⟨[.ext 0], by simp, fun c hc => by
    have : c ≠ .ext 0 := by simpa using hc
    simp [init, upd, this], rfl⟩
  rest := fun _ c => ⟨0, false, false, .idle, by simp [init], by simp⟩
  alive := by simp [init]
  outside := by simp [init]

theorem inv_step {s s' : St} {e : Ev} (h : Inv s) (hs : Step s e s') : Inv s' := by
  obtain ⟨⟨L, hL⟩, hrest, halive, hout⟩ := h
  have hpos : ∀ c, s.held c ≤ s.count := by
    intro c
    obtain ⟨L', hm, h'⟩ := hL.add c
    rw [h'.2.2]
    exact sum_le hm
  cases hs with
  | call c a hd hi ho hp hw =>
      refine ⟨⟨L, hL⟩, fun _ k => ?_, halive, hout⟩
      by_cases hk : k = c
      · subst hk
        obtain ⟨n, inn, h1, h2, h3, h4⟩ := rest_acts (a := a)
        obtain ⟨m, own, i, r1, r2, r3⟩ := hrest hd k
        rw [hi] at r1
        cases r1
        refine ⟨n, false, inn, by simpa [upd] using h1, r2, ?_⟩
        show _ ≤ s.held k
        rcases h2 with ⟨rfl, rfl | rfl⟩ | rfl
        · rw [h4 rfl]
          simp
          exact hp (.inr (.inl rfl))
        · obtain ⟨w, rfl⟩ := hw rfl
          simp [isExt]
          exact hp (.inr (.inr rfl))
        · cases k with
          | task w => simp [isExt]
          | ext j =>
              cases inn
              · simp [isExt]
              · simp [isExt]
                exact ho j rfl (h3 rfl)
      · simpa [upd, hk] using hrest hd k
  | give c c' hd hi hp hn =>
      refine ⟨?_, fun _ k => ?_, halive, hout⟩
      · obtain ⟨L1, hL1⟩ := hL.upd_held (s' := { s with held := upd s.held c (s.held c - 1), count := s.count - 1 })
          c (s.held c - 1) (s.count - 1) (by have := hpos c; omega) rfl rfl
        refine hL1.upd_held (s' := { s with held := upd (upd s.held c (s.held c - 1)) c' (s.held c' + 1) })
          c' (s.held c' + 1) s.count ?_ rfl rfl
        have := hpos c
        show s.count + upd s.held c (s.held c - 1) c' = s.count - 1 + (s.held c' + 1)
        rw [upd_other _ _ (Ne.symm hn)]
        omega
      · obtain ⟨n, own, inn, r1, r2, r3⟩ := hrest hd k
        refine ⟨n, own, inn, r1, r2, ?_⟩
        show _ ≤ upd (upd s.held c (s.held c - 1)) c' (s.held c' + 1) k
        by_cases hk' : k = c'
        · subst hk'; rw [upd_same]; omega
        · rw [upd_other _ _ hk']
          by_cases hk : k = c
          · subst hk
            rw [hi] at r1
            cases r1
            simp
          · rw [upd_other _ _ hk]; exact r3
  | acquire c r hd ht =>
      refine ⟨hL.upd_held c (s.held c + 1) (s.count + 1) (by omega) rfl rfl, fun _ k => ?_, ?_, hout⟩
      · obtain ⟨n, own, inn, r1, r2, r3⟩ := hrest hd k
        by_cases hk : k = c
        · subst hk
          rw [ht] at r1
          simp only [upd, if_true]
          cases r1 with
          | copy => exact ⟨_, _, _, .idle, r2, by simp⟩
          | add1 => exact ⟨_, _, _, .add2, r2, by omega⟩
          | handle0 => exact ⟨_, _, _, .handle1, r2, by simp⟩
        · simp only [upd, hk, if_false]
          exact ⟨n, own, inn, r1, r2, r3⟩
      · simp [hd]
  | lock c r hd ht ho =>
      refine ⟨⟨L, hL⟩, fun _ k => ?_, halive, hout⟩
      obtain ⟨n, own, inn, r1, r2, r3⟩ := hrest hd k
      by_cases hk : k = c
      · subst hk
        rw [ht] at r1
        simp only [upd, if_true]
        cases r1 with
        | add0 => exact ⟨_, _, _, .add1, by simp, r3⟩
        | member0 => exact ⟨_, _, _, .unlock, by simp, r3⟩
        | end0 => exact ⟨_, _, _, .add2, by simp, r3⟩
        | handle1 => exact ⟨_, _, _, .handle2, by simp, r3⟩
      · simp only [upd, hk, if_false]
        refine ⟨n, own, inn, r1, ?_, r3⟩
        rw [r2, ho]
        simp [Ne.symm hk]
  | unlock c r hd ht =>
      refine ⟨⟨L, hL⟩, fun _ k => ?_, halive, hout⟩
      obtain ⟨n, own, inn, r1, r2, r3⟩ := hrest hd k
      by_cases hk : k = c
      · subst hk
        rw [ht] at r1
        simp only [upd, if_true]
        cases r1 with
        | unlock => exact ⟨_, _, _, .idle, by simp, by simp⟩
        | handle2 => exact ⟨_, _, _, .reset, by simp, r3⟩
      · simp only [upd, hk, if_false]
        refine ⟨n, own, inn, r1, ?_, r3⟩
        have hc : s.owner = some c := by
          obtain ⟨n, own, inn, q1, q2, q3⟩ := hrest hd c
          rw [ht] at q1
          cases q1 <;> exact q2.mp rfl
        rw [r2, hc]
        simp [Ne.symm hk]
  | drop c r hd ht =>
      obtain ⟨n, own, inn, q1, q2, q3⟩ := hrest hd c
      have hn : n = 1 ∧ (own = true → inn = true) := by
        rw [ht] at q1
        cases q1 <;> simp
      have hc1 : 1 ≤ s.held c := by omega
      have hcount := hpos c
      refine ⟨hL.upd_held c (s.held c - 1) (s.count - 1) (by omega) rfl rfl, fun hd' k => ?_, ?_, ?_⟩
      · by_cases hk : k = c
        · subst hk
          rw [ht] at q1
          simp only [upd, if_true]
          cases q1 with
          | reset => exact ⟨_, _, _, .idle, q2, by simp⟩
          | add2 => exact ⟨_, _, _, .unlock, q2, by omega⟩
        · simp only [upd, hk, if_false]
          exact hrest hd k
      · show (if s.count = 1 then some (c, decide (s.owner = some c)) else none) = none ↔ 0 < s.count - 1
        by_cases h1 : s.count = 1
        · simp [h1]
        · simp [h1]; omega
      · intro k b hb
        have hb : (if s.count = 1 then some (c, decide (s.owner = some c)) else none) = some (Who.ext k, b) := hb
        by_cases h1 : s.count = 1
        · rw [if_pos h1] at hb
          simp only [Option.some.injEq, Prod.mk.injEq] at hb
          obtain ⟨rfl, rfl⟩ := hb
          simp only [decide_eq_false_iff_not]
          intro ho
          have hi := hn.2 (q2.mpr ho)
          rw [hi] at q3
          simp [isExt] at q3
          omega
        · rw [if_neg h1] at hb
          cases hb

theorem inv_run {es : List Ev} {s : St} (h : Run es s) : Inv s := by
  induction h with
  | init => exact inv_init
  | step _ hs ih => exact inv_step ih hs

/-! ### Properties -/

/-- **C101.**  The destructor is entered when the last shared pointer goes, and not before. -/
theorem c101_when {es : List Ev} {s : St} (h : Run es s) :
    (∃ c b, s.dtor = some (c, b)) ↔ ∀ c, s.held c = 0 := by
  obtain ⟨⟨L, h1, h2, h3⟩, _, ha, _⟩ := inv_run h
  constructor
  · rintro ⟨c, b, hd⟩ k
    have hz : s.count = 0 := by
      have : ¬ 0 < s.count := fun hp => by rw [ha.mpr hp] at hd; cases hd
      omega
    by_cases hk : k ∈ L
    · have := sum_le (held := s.held) hk
      omega
    · exact h2 k hk
  · intro hz
    cases hd : s.dtor with
    | some p => exact ⟨p.1, p.2, rfl⟩
    | none =>
        have hp := ha.mp hd
        exfalso
        have : ∀ L : List Who, sum s.held L = 0 := by
          intro L
          induction L with
          | nil => rfl
          | cons x xs ih => simpa [sum, hz x] using ih
        rw [h3, this L] at hp
        omega

/-- **C101.**  An outside thread, or any thread, that has a shared pointer keeps the pool alive. -/
theorem c101_kept {es : List Ev} {s : St} {c : Who} (h : Run es s) (hc : 1 ≤ s.held c) : s.dtor = none := by
  cases hd : s.dtor with
  | none => rfl
  | some p =>
      have := (c101_when h).mp ⟨p.1, p.2, hd⟩ c
      omega

/-- **C101.**  If an outside thread enters the destructor, it does not own the mutex: the lock in the destructor is
defined. -/
theorem c101_outside {es : List Ev} {s : St} {k : Nat} {b : Bool} (h : Run es s)
    (hd : s.dtor = some (.ext k, b)) : dtorLock b = .ok () := by
  rw [(inv_run h).outside k b hd]
  rfl

/-- **C101.**  If a thread destroys its only shared pointer while no other thread has one, it enters the destructor;
a thread that has another one, or if another thread has one, does not. -/
theorem c101_last {es : List Ev} {s s' : St} {c : Who} {r : List Act} (h : Run es s)
    (ht : s.todo c = .drop :: r) (hs : Step s (.act c) s') :
    (∃ b, s'.dtor = some (c, b)) ↔ s.held c = 1 ∧ ∀ k, k ≠ c → s.held k = 0 := by
  have hrun' := Run.step h hs
  cases hs with
  | acquire c r1 hd ht1 => rw [ht] at ht1; cases ht1
  | lock c r1 hd ht1 => rw [ht] at ht1; cases ht1
  | unlock c r1 hd ht1 => rw [ht] at ht1; cases ht1
  | drop c r1 hd ht1 =>
      have hown : 1 ≤ s.held c := by
        obtain ⟨n, own, inn, q1, q2, q3⟩ := (inv_run h).rest hd c
        rw [ht] at q1
        cases q1 <;> omega
      have hw := c101_when hrun'
      have heq : (∃ b, (if s.count = 1 then some (c, decide (s.owner = some c)) else none) = some (c, b)) ↔
          ∃ c' b, (if s.count = 1 then some (c, decide (s.owner = some c)) else none) = some (c', b) := by
        by_cases h1 : s.count = 1 <;> simp [h1]
      refine heq.trans (hw.trans ?_)
      constructor
      · intro hz
        have hz : ∀ k, upd s.held c (s.held c - 1) k = 0 := hz
        refine ⟨by have := hz c; rw [upd_same] at this; omega, fun k hk => ?_⟩
        have := hz k
        rwa [upd_other _ _ hk] at this
      · rintro ⟨h1, h2⟩ k
        show upd s.held c (s.held c - 1) k = 0
        by_cases hk : k = c
        · subst hk; rw [upd_same]; omega
        · rw [upd_other _ _ hk]; exact h2 k hk

/-- No task gets a shared pointer, neither from another thread nor by a call of add_task or of a function of a
handle: it uses the other functions of the pool through its reference. -/
def TasksPlain (es : List Ev) : Prop :=
  ∀ e, e ∈ es → (∀ c w, e ≠ .give c (.task w)) ∧ ∀ w a, e = .call (.task w) a → a = .member

theorem plain_inv {es : List Ev} {s : St} (h : Run es s) (hp : TasksPlain es) (w : Nat) :
    s.held (.task w) = 0 ∧ (s.todo (.task w) = [] ∨ s.todo (.task w) = [.lock, .unlock] ∨ s.todo (.task w) = [.unlock]) ∧
      ∀ b, s.dtor ≠ some (.task w, b) := by
  induction h with
  | init => simp [init, upd]
  | @step es s e s' h hs ih =>
      obtain ⟨i1, i2, i3⟩ := ih (fun e he => hp e (by simp [he]))
      have hpe := hp e (by simp)
      cases hs with
      | call c a hd hi ho hh hw =>
          refine ⟨i1, ?_, i3⟩
          by_cases hc : Who.task w = c
          · subst hc
            have ha := hpe.2 w a rfl
            subst ha
            simp [upd, Api.acts]
          · simpa [upd, hc] using i2
      | give c c' hd hi hh hn =>
          refine ⟨?_, i2, i3⟩
          have hc' : Who.task w ≠ c' := fun hc => hpe.1 c w (by rw [hc])
          show upd (upd s.held c (s.held c - 1)) c' (s.held c' + 1) (.task w) = 0
          rw [upd_other _ _ hc']
          by_cases hc : Who.task w = c
          · subst hc; rw [upd_same]; omega
          · rw [upd_other _ _ hc]; exact i1
      | acquire c r hd ht =>
          by_cases hc : Who.task w = c
          · subst hc
            rcases i2 with h2 | h2 | h2 <;> rw [ht] at h2 <;> cases h2
          · exact ⟨by simpa [upd, hc] using i1, by simpa [upd, hc] using i2, i3⟩
      | lock c r hd ht =>
          refine ⟨i1, ?_, i3⟩
          by_cases hc : Who.task w = c
          · subst hc
            rcases i2 with h2 | h2 | h2 <;> rw [ht] at h2 <;> cases h2
            simp [upd]
          · simpa [upd, hc] using i2
      | unlock c r hd ht =>
          refine ⟨i1, ?_, i3⟩
          by_cases hc : Who.task w = c
          · subst hc
            rcases i2 with h2 | h2 | h2 <;> rw [ht] at h2 <;> cases h2
            simp [upd]
          · simpa [upd, hc] using i2
      | drop c r hd ht =>
          by_cases hc : Who.task w = c
          · subst hc
            rcases i2 with h2 | h2 | h2 <;> rw [ht] at h2 <;> cases h2
          · refine ⟨by simpa [upd, hc] using i1, by simpa [upd, hc] using i2, ?_⟩
            intro b
            show (if s.count = 1 then some (c, decide (s.owner = some c)) else none) ≠ some (.task w, b)
            by_cases h1 : s.count = 1
            · rw [if_pos h1]
              intro he
              simp only [Option.some.injEq, Prod.mk.injEq] at he
              exact hc he.1.symm
            · simp [h1]

/-- **C101.**  If no task gets a shared pointer, not even for the time of a call, the destructor is run by an
outside thread, and its lock is defined. -/
theorem c101_partial {es : List Ev} {s : St} {c : Who} {b : Bool} (h : Run es s) (hp : TasksPlain es)
    (hd : s.dtor = some (c, b)) : (∃ k, c = .ext k) ∧ dtorLock b = .ok () := by
  cases c with
  | task w => exact absurd hd ((plain_inv h hp w).2.2 b)
  | ext k => exact ⟨⟨k, rfl⟩, c101_outside h hd⟩

/-- **C101, violated.**  A task calls add_task; meanwhile the only outside thread destroys its shared pointer.  If
this happens between the two actions on the temporary pointer in add_task, the task enters the destructor of the
pool while it owns the mutex, which the destructor locks again: undefined behaviour. -/
theorem c101_add_task_violated : ∃ es s, Run es s ∧
    (∀ c a, Ev.call c a ∈ es → c = .task 0 ∧ a = .addTask ∨ c = .ext 0 ∧ a = .reset) ∧
    (∀ c c', Ev.give c c' ∉ es) ∧ s.dtor = some (.task 0, true) ∧ dtorLock true = .ub := by
  have h0 := Run.step .init (Step.call init (.task 0) .addTask rfl rfl (by simp) (by simp) (by simp))
  have h1 := Run.step h0 (Step.lock _ (.task 0) [.acquire, .drop, .unlock] rfl (by rfl) rfl)
  have h2 := Run.step h1 (Step.acquire _ (.task 0) [.drop, .unlock] rfl (by rfl))
  have h3 := Run.step h2 (Step.call _ (.ext 0) .reset rfl (by rfl) (by intros; decide) (by intros; decide) (by simp))
  have h4 := Run.step h3 (Step.drop _ (.ext 0) [] rfl (by rfl))
  have h5 := Run.step h4 (Step.drop _ (.task 0) [.unlock] (by rfl) (by rfl))
  refine ⟨_, _, h5, ?_, ?_, by rfl, rfl⟩
  · intro c a hm
    simp at hm
    rcases hm with ⟨rfl, rfl⟩ | ⟨rfl, rfl⟩ <;> simp
  · intro c c' hm
    simp at hm

/-- **C101, violated.**  The same with a function of a handle: the task enters the destructor, which then ends the
program when the thread joins itself (`c57_self_destruction_violated`). -/
theorem c101_handle_violated : ∃ es s, Run es s ∧
    (∀ c a, Ev.call c a ∈ es → c = .task 0 ∧ a = .viaHandle ∨ c = .ext 0 ∧ a = .reset) ∧
    (∀ c c', Ev.give c c' ∉ es) ∧ s.dtor = some (.task 0, false) := by
  have h0 := Run.step .init (Step.call init (.task 0) .viaHandle rfl rfl (by simp) (by simp) (by simp))
  have h2 := Run.step h0 (Step.acquire _ (.task 0) [.lock, .unlock, .drop] rfl (by rfl))
  have h3 := Run.step h2 (Step.call _ (.ext 0) .reset rfl (by rfl) (by intros; decide) (by intros; decide) (by simp))
  have h4 := Run.step h3 (Step.drop _ (.ext 0) [] rfl (by rfl))
  have h5 := Run.step h4 (Step.lock _ (.task 0) [.unlock, .drop] (by rfl) (by rfl) rfl)
  have h6 := Run.step h5 (Step.unlock _ (.task 0) [.drop] (by rfl) (by rfl))
  have h7 := Run.step h6 (Step.drop _ (.task 0) [] (by rfl) (by rfl))
  refine ⟨_, _, h7, ?_, ?_, by rfl⟩
  · intro c a hm
    simp at hm
    rcases hm with ⟨rfl, rfl⟩ | ⟨rfl, rfl⟩ <;> simp
  · intro c c' hm
    simp at hm

/-- **C101, violated.**  The function of a task owns the last shared pointer: it is destroyed by the worker while
it owns the mutex. -/
theorem c101_function_violated : ∃ es s, Run es s ∧
    (∀ c a, Ev.call c a ∈ es → c = .task 0 ∧ a = .endTask) ∧ s.dtor = some (.task 0, true) ∧ dtorLock true = .ub := by
  have h0 := Run.step .init (Step.give init (.ext 0) (.task 0) rfl rfl (by decide) (by decide))
  have h1 := Run.step h0 (Step.call _ (.task 0) .endTask rfl (by rfl) (by simp) (by intros; decide) (by simp))
  have h2 := Run.step h1 (Step.lock _ (.task 0) [.drop, .unlock] rfl (by rfl) (by rfl))
  have h3 := Run.step h2 (Step.drop _ (.task 0) [.unlock] (by rfl) (by rfl))
  refine ⟨_, _, h3, ?_, by rfl, rfl⟩
  intro c a hm
  simp at hm
  exact hm

/-! ### Examples -/

-- an outside thread adds a task, then destroys its pointer: it enters the destructor without the mutex
example : ∃ es s, Run es s ∧ TasksPlain es ∧ s.dtor = some (.ext 0, false) := by
  have h0 := Run.step .init (Step.call init (.ext 0) .addTask rfl rfl (by intros; decide) (by simp) (by simp))
  have h1 := Run.step h0 (Step.lock _ (.ext 0) [.acquire, .drop, .unlock] rfl (by rfl) rfl)
  have h2 := Run.step h1 (Step.acquire _ (.ext 0) [.drop, .unlock] rfl (by rfl))
  have h3 := Run.step h2 (Step.drop _ (.ext 0) [.unlock] rfl (by rfl))
  have h4 := Run.step h3 (Step.unlock _ (.ext 0) [] (by rfl) (by rfl))
  have h5 := Run.step h4 (Step.call _ (.ext 0) .reset (by rfl) (by rfl) (by intros; decide) (by intros; decide) (by simp))
  have h6 := Run.step h5 (Step.drop _ (.ext 0) [] (by rfl) (by rfl))
  refine ⟨_, _, h6, ?_, by rfl⟩
  intro e he
  simp at he
  rcases he with rfl | rfl | rfl | rfl <;> simp

end Gul14.Pool.Own
