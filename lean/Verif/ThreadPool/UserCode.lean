import Verif.ThreadPool.Model
import Mathlib.Tactic.ByContra

/-!
# ThreadPool: code of the user that the pool runs

Apart from the call of a task's function, the pool runs code of the user when it constructs the function object in
add_task and when it destroys it.  Where this happens, and whether the thread owns the mutex at this moment, is
followed here; the state of the queue is left out (`Model.lean`), so that every way through a function of the pool is
possible at any time.

A function object lives in the shared state of a std::packaged_task and of its future (libstdc++) or in the
packaged_task (libc++): it is destroyed either with the task or with the handle, and both are possible here.
-/
namespace Gul14.Pool.User

/-- The code of the user: the constructor that moves or copies a function object, its function call operator, and its
destructor. The type Function of ThreadPool.h:300-341. -/
inductive Code where
  | construct
  | run
  | destroy
  deriving DecidableEq, Repr

/-- What a thread does. -/
inductive Act where
  | lock
  | unlock
  | user (k : Code)
  deriving DecidableEq, Repr

/-- The ways through the functions of the pool. -/
inductive Way where
  /-- A member function with a critical section without code of the user: ThreadPool.cc:107-176; cancel_pending_task,
  82-95, if it does not find the task; add_task, ThreadPool.h:313-320, if the queue is full; also a worker from
  line 206 to a wait or to its end, ThreadPool.cc:206-231. -/
  | plain
  /-- add_task, ThreadPool.h:313-336: `PackagedTask{ std::move(fct) }` in line 325 is constructed under the lock.
  (`failed`: an exception is thrown later on, so that the new object is destroyed again, before the lock_guard.) -/
  | add (failed : Bool)
  /-- cancel_pending_task and cancel_pending_tasks, ThreadPool.cc:82-105: erase and clear destroy `n` function objects
  (those whose shared state is not kept by a handle). -/
  | cancel (n : Nat)
  /-- A worker, ThreadPool.cc:208-264: it finds a task (under the lock), unlocks in 242, runs it, locks in 255, and
  destroys it in 264, where `named_task_ptr` goes out of scope, unless it lives on in the shared state of a handle. -/
  | task (kept : Bool)
  /-- A handle is destroyed or loses its future, ThreadPool.h:175 and 239, after the task is gone. -/
  | handle
  /-- ~ThreadPool, ThreadPool.cc:68-80: the tasks that are left are destroyed after the threads have been joined. -/
  | pool (n : Nat)
  deriving DecidableEq, Repr

/-- The actions on each way, see `Way`, ThreadPool.h:300-341 and ThreadPool.cc:68-266. -/
def Way.acts : Way → List Act
  | .plain => [.lock, .unlock]
  | .add failed => [.lock, .user .construct] ++ (if failed then [.user .destroy] else []) ++ [.unlock]
  | .cancel n => [.lock] ++ List.replicate n (.user .destroy) ++ [.unlock]
  | .task kept => [.lock, .unlock, .user .run, .lock] ++ (if kept then [] else [.user .destroy]) ++ [.unlock]
  | .handle => [.user .destroy]
  | .pool n => [.lock, .unlock] ++ List.replicate n (.user .destroy)

/-- The owner of the mutex and what each thread still has to do. The member `mutex_`, ThreadPool.h:519. -/
structure St where
  owner : Option Who
  todo : Who → List Act

def St.set (s : St) (c : Who) (l : List Act) : St := { s with todo := fun k => if k = c then l else s.todo k }

/-- One action of thread `c`.  `calls k`: the code `k` of the user calls functions of the pool; it may do so any number
of times.  A thread that does not own the mutex waits until it is free; there is no step for a thread that locks the mutex
although it owns it (see `SelfLock`). The interleavings of ThreadPool.h:300-341 and ThreadPool.cc:68-266. -/
inductive Step (calls : Code → Bool) : St → Who → St → Prop
  | call (s c a) (h : s.todo c = []) : Step calls s c (s.set c (Way.acts a))
  | nested (s c k r a) (h : s.todo c = .user k :: r) (hk : calls k = true) :
      Step calls s c (s.set c (Way.acts a ++ .user k :: r))
  | back (s c k r) (h : s.todo c = .user k :: r) : Step calls s c (s.set c r)
  | lock (s c r) (h : s.todo c = .lock :: r) (ho : s.owner = none) :
      Step calls s c ({ s with owner := some c }.set c r)
  | unlock (s c r) (h : s.todo c = .unlock :: r) : Step calls s c ({ s with owner := none }.set c r)

inductive Run (calls : Code → Bool) : St → Prop
  | init : Run calls ⟨none, fun _ => []⟩
  | step {s s' : St} {c : Who} (h : Run calls s) (hs : Step calls s c s') : Run calls s'

/-- Any number of steps from one state to another. -/
inductive Steps (calls : Code → Bool) : St → St → Prop
  | refl (s) : Steps calls s s
  | step {s t u : St} {c : Who} (h : Steps calls s t) (hs : Step calls t c u) : Steps calls s u

/-- Thread `c` is about to lock the mutex although it owns it: the behaviour is undefined (a deadlock, in practice). -/
def SelfLock (s : St) (c : Who) : Prop := s.owner = some c ∧ ∃ r, s.todo c = .lock :: r

/-! ### Lemmas -/

/-- A thread with these actions ahead, which owns the mutex (`b`) or not, never locks it twice, and runs code that calls
the pool only without it. -/
def fine (calls : Code → Bool) : Bool → List Act → Bool
  | b, [] => !b
  | b, .lock :: r => !b && fine calls true r
  | b, .unlock :: r => b && fine calls false r
  | b, .user k :: r => (!b || !calls k) && fine calls b r

theorem fine_append {calls : Code → Bool} : ∀ {b : Bool} {l : List Act}, fine calls b l = true → ∀ r,
    fine calls b (l ++ r) = fine calls false r
  | b, [], h, r => by cases b <;> simp_all [fine]
  | b, .lock :: l, h, r => by
      simp only [fine, Bool.and_eq_true, Bool.not_eq_true'] at h
      simp only [List.cons_append, fine, h.1, Bool.not_false, Bool.true_and]
      exact fine_append h.2 r
  | b, .unlock :: l, h, r => by
      simp only [fine, Bool.and_eq_true] at h
      simp only [List.cons_append, fine, h.1, Bool.true_and]
      exact fine_append h.2 r
  | b, .user k :: l, h, r => by
      simp only [fine, Bool.and_eq_true] at h
      simp only [List.cons_append, fine, h.1, Bool.true_and]
      exact fine_append h.2 r

theorem fine_destroy {calls : Code → Bool} (h : calls .destroy = false) (b : Bool) (r : List Act) :
    ∀ n, fine calls b (List.replicate n (.user .destroy) ++ r) = fine calls b r
  | 0 => rfl
  | n + 1 => by
      simp only [List.replicate_succ, List.cons_append, fine, h, Bool.not_false, Bool.or_true, Bool.true_and]
      exact fine_destroy h b r n

theorem fine_acts {calls : Code → Bool} (h1 : calls .construct = false) (h2 : calls .destroy = false) (a : Way) :
    fine calls false a.acts = true := by
  cases a with
  | plain => rfl
  | add failed => cases failed <;> simp [Way.acts, fine, h1, h2]
  | cancel n =>
      show fine calls false (.lock :: (List.replicate n (.user .destroy) ++ [.unlock])) = true
      simp only [fine, Bool.not_false, Bool.true_and, fine_destroy h2]
  | task kept => cases kept <;> simp [Way.acts, fine, h2]
  | handle => simp [Way.acts, fine]
  | pool n =>
      have := fine_destroy h2 false [] n
      simp only [List.append_nil] at this
      simp [Way.acts, fine, this]

theorem set_same (s : St) (c : Who) (l : List Act) : (s.set c l).todo c = l := by simp [St.set]
theorem set_other (s : St) {c k : Who} (l : List Act) (h : k ≠ c) : (s.set c l).todo k = s.todo k := by
  simp [St.set, h]

/-- Every thread's actions are fine, with the mutex that it owns or does not own. -/
def Inv (calls : Code → Bool) (s : St) : Prop := ∀ c, fine calls (decide (s.owner = some c)) (s.todo c) = true

theorem inv_run {calls : Code → Bool} (h1 : calls .construct = false) (h2 : calls .destroy = false) {s : St}
    (h : Run calls s) : Inv calls s := by
  induction h with
  | init => intro c; rfl
  | @step s s' c _ hs ih =>
      intro k
      have hc := ih c
      have hk := ih k
      cases hs with
      | call a h =>
          rw [h] at hc
          by_cases e : k = c
          · subst e
            rw [set_same]
            have ho : decide (s.owner = some k) = false := by simpa [fine] using hc
            show fine calls (decide (s.owner = some k)) _ = true
            rw [ho]
            exact fine_acts h1 h2 a
          · rw [set_other _ _ e]; exact hk
      | nested k' r a h hk' =>
          rw [h] at hc
          by_cases e : k = c
          · subst e
            rw [set_same]
            show fine calls (decide (s.owner = some k)) _ = true
            have ho : decide (s.owner = some k) = false := by
              simp only [fine, hk', Bool.not_true, Bool.or_false, Bool.and_eq_true, Bool.not_eq_true'] at hc
              exact hc.1
            rw [ho] at hc ⊢
            rw [fine_append (fine_acts h1 h2 a)]
            exact hc
          · rw [set_other _ _ e]; exact hk
      | back k' r h =>
          rw [h] at hc
          by_cases e : k = c
          · subst e
            rw [set_same]
            simp only [fine, Bool.and_eq_true] at hc
            exact hc.2
          · rw [set_other _ _ e]; exact hk
      | lock r h ho =>
          rw [h] at hc
          by_cases e : k = c
          · subst e
            rw [set_same]
            simp only [fine, Bool.and_eq_true] at hc
            simpa [St.set] using hc.2
          · rw [set_other _ _ e]
            have : decide (s.owner = some k) = false := by simp [ho]
            rw [this] at hk
            simpa [St.set, Ne.symm e] using hk
      | unlock r h =>
          rw [h] at hc
          simp only [fine, Bool.and_eq_true, decide_eq_true_eq] at hc
          by_cases e : k = c
          · subst e
            rw [set_same]
            simpa [St.set] using hc.2
          · rw [set_other _ _ e]
            have : decide (s.owner = some k) = false := by simp [hc.1, Ne.symm e]
            rw [this] at hk
            simpa [St.set] using hk

theorem Steps.run {calls : Code → Bool} {s t : St} (hr : Run calls s) (h : Steps calls s t) : Run calls t := by
  induction h with
  | refl => exact hr
  | step _ hs ih => exact .step ih hs

/-- What holds whatever the code of the user does: a thread that does not own the mutex has actions in which each lock is
followed by its unlock; the owner has the same with an unlock first, or it is about to lock the mutex again. -/
def Balanced (s : St) : Prop := ∀ c,
  (s.owner ≠ some c → fine (fun _ => false) false (s.todo c) = true) ∧
  (s.owner = some c → fine (fun _ => false) true (s.todo c) = true ∨ ∃ r, s.todo c = .lock :: r)

theorem acts_cases (a : Way) : (∃ r, a.acts = .lock :: r) ∨ a.acts = [.user .destroy] := by
  cases a <;> simp [Way.acts]

theorem balanced_step {calls : Code → Bool} {s s' : St} {c : Who} (h : Balanced s) (hs : Step calls s c s') :
    Balanced s' := by
  intro k
  obtain ⟨h1, h2⟩ := h k
  obtain ⟨g1, g2⟩ := h c
  cases hs with
  | call a ht =>
      show (s.owner ≠ some k → _) ∧ (s.owner = some k → _)
      by_cases e : k = c
      · subst e
        rw [set_same]
        refine ⟨fun _ => fine_acts rfl rfl a, fun ho => ?_⟩
        rcases g2 ho with h | ⟨r, h⟩
        · rw [ht] at h; simp [fine] at h
        · rw [ht] at h; cases h
      · rw [set_other _ _ e]; exact ⟨h1, h2⟩
  | nested k' r a ht hk' =>
      show (s.owner ≠ some k → _) ∧ (s.owner = some k → _)
      by_cases e : k = c
      · subst e
        rw [set_same]
        refine ⟨fun ho => ?_, fun ho => ?_⟩
        · rw [fine_append (fine_acts rfl rfl a), ← ht]
          exact g1 ho
        · rcases acts_cases a with ⟨r', ha⟩ | ha
          · right; rw [ha]; exact ⟨_, rfl⟩
          · left
            rw [ha]
            show fine (fun _ => false) true (.user .destroy :: (.user k' :: r)) = true
            rcases g2 ho with h | ⟨r, h⟩
            · rw [ht] at h; simpa [fine] using h
            · rw [ht] at h; cases h
      · rw [set_other _ _ e]; exact ⟨h1, h2⟩
  | back k' r ht =>
      show (s.owner ≠ some k → _) ∧ (s.owner = some k → _)
      by_cases e : k = c
      · subst e
        rw [set_same]
        rw [ht] at g1 g2
        refine ⟨fun ho => by simpa [fine] using g1 ho, fun ho => ?_⟩
        rcases g2 ho with h | ⟨r, h⟩
        · left; simpa [fine] using h
        · cases h
      · rw [set_other _ _ e]; exact ⟨h1, h2⟩
  | lock r ht ho =>
      show (some c ≠ some k → _) ∧ (some c = some k → _)
      by_cases e : k = c
      · subst e
        rw [set_same]
        refine ⟨fun h => absurd rfl h, fun _ => .inl ?_⟩
        have := g1 (by simp [ho])
        rw [ht] at this
        simpa [fine] using this
      · rw [set_other _ _ e]
        refine ⟨fun _ => h1 (by simp [ho]), fun h => ?_⟩
        cases h
        exact absurd rfl e
  | unlock r ht =>
      have ho : s.owner = some c := by
        by_contra ho
        have := g1 ho
        rw [ht] at this
        simp [fine] at this
      show (none ≠ some k → _) ∧ (none = some k → _)
      refine ⟨fun _ => ?_, by simp⟩
      by_cases e : k = c
      · subst e
        rw [set_same]
        rcases g2 ho with h | ⟨r, h⟩
        · rw [ht] at h; simpa [fine] using h
        · rw [ht] at h; cases h
      · rw [set_other _ _ e]
        exact h1 (by rw [ho]; simpa using Ne.symm e)

theorem balanced_run {calls : Code → Bool} {s : St} (h : Run calls s) : Balanced s := by
  induction h with
  | init => intro c; exact ⟨fun _ => rfl, by simp⟩
  | step _ hs ih => exact balanced_step ih hs

theorem selfLock_stays {calls : Code → Bool} {s s' : St} {c k : Who} (hb : Balanced s) (h : SelfLock s c)
    (hs : Step calls s k s') : SelfLock s' c := by
  obtain ⟨ho, r, ht⟩ := h
  have hne : k ≠ c := by
    rintro rfl
    cases hs with
    | call a h => rw [ht] at h; cases h
    | nested k' r a h _ => rw [ht] at h; cases h
    | back k' r h => rw [ht] at h; cases h
    | lock r h ho' => rw [ho] at ho'; cases ho'
    | unlock r h => rw [ht] at h; cases h
  have : s'.todo c = s.todo c ∧ s'.owner = s.owner := by
    cases hs with
    | call a h => exact ⟨set_other _ _ (Ne.symm hne), rfl⟩
    | nested k' r a h _ => exact ⟨set_other _ _ (Ne.symm hne), rfl⟩
    | back k' r h => exact ⟨set_other _ _ (Ne.symm hne), rfl⟩
    | lock r h ho' => rw [ho] at ho'; cases ho'
    | unlock r h =>
        have := (hb k).1 (by rw [ho]; simpa using Ne.symm hne)
        rw [h] at this
        simp [fine] at this
  exact ⟨this.2.trans ho, r, this.1.trans ht⟩

theorem selfLock_forever {calls : Code → Bool} {s t : St} {c : Who} (hr : Run calls s) (h : SelfLock s c)
    (hs : Steps calls s t) : SelfLock t c := by
  induction hs with
  | refl => exact h
  | step h' hs ih => exact selfLock_stays (balanced_run (h'.run hr)) ih hs

theorem Steps.one {calls : Code → Bool} {s t u : St} {c : Who} (hs : Step calls s c t) (h : Steps calls t u) :
    Steps calls s u := by
  induction h with
  | refl => exact .step (.refl _) hs
  | step _ hs' ih => exact .step ih hs'

/-- The owner gets to its unlock by itself. -/
theorem unlocks {calls : Code → Bool} {c : Who} : ∀ {l : List Act} {s : St}, s.todo c = l → s.owner = some c →
    fine calls true l = true → ∃ t, Steps calls s t ∧ t.owner = none ∧ ∀ k, k ≠ c → t.todo k = s.todo k
  | [], _, _, _, h => by simp [fine] at h
  | .lock :: _, _, _, _, h => by simp [fine] at h
  | .unlock :: r, s, ht, ho, _ => ⟨_, .step (.refl _) (.unlock s c r ht), rfl, fun k hk => set_other _ _ hk⟩
  | .user k' :: r, s, ht, ho, h => by
      simp only [fine, Bool.and_eq_true] at h
      obtain ⟨t, h1, h2, h3⟩ := unlocks (calls := calls) (s := s.set c r) (set_same _ _ _) ho h.2
      exact ⟨t, .one (.back s c k' r ht) h1, h2, fun k hk => (h3 k hk).trans (set_other _ _ hk)⟩

/-! ### Properties -/

/-- **C112.**  The functions of tasks may call the pool in any way: as long as the constructors and destructors of the
function objects do not, no thread locks the mutex that it owns, whoever does what in between, and the thread that owns
the mutex can give it back without waiting for anybody. -/
theorem c112_functions_partial {calls : Code → Bool} (h1 : calls .construct = false) (h2 : calls .destroy = false)
    {s : St} (h : Run calls s) :
    (∀ c, ¬ SelfLock s c) ∧
    ∀ c, s.owner = some c → ∃ t, Steps calls s t ∧ t.owner = none ∧ ∀ k, k ≠ c → t.todo k = s.todo k := by
  have hi := inv_run h1 h2 h
  constructor
  · rintro c ⟨ho, r, ht⟩
    have := hi c
    rw [ht] at this
    simp [fine, ho] at this
  · intro c ho
    refine unlocks (l := s.todo c) rfl ho ?_
    have := hi c
    simpa [ho] using this

/-- Constructors: if the constructor of a function object (the one that moves it) calls the pool, then there is an
execution in which add_task locks the mutex that its thread owns. From then on, nobody else gets the mutex. -/
theorem c112_constructor_violated {calls : Code → Bool} (h : calls .construct = true) :
    ∃ s c, Run calls s ∧ SelfLock s c ∧ ∀ t, Steps calls s t → SelfLock t c := by
  let c : Who := .ext 0
  let s0 : St := ⟨none, fun _ => []⟩
  let s1 := s0.set c (Way.add false).acts
  let s2 := ({ s1 with owner := some c } : St).set c [.user .construct, .unlock]
  let s3 := s2.set c (Way.plain.acts ++ [.user .construct, .unlock])
  have hr : Run calls s3 :=
    .step (.step (.step .init (.call s0 c (.add false) rfl))
      (.lock s1 c [.user .construct, .unlock] (by simp [s1, Way.acts, set_same]) rfl))
      (.nested s2 c .construct [.unlock] .plain (by simp [s2, set_same]) h)
  have hl : SelfLock s3 c := ⟨rfl, _, set_same _ _ _⟩
  exact ⟨s3, c, hr, hl, fun t ht => selfLock_forever hr hl ht⟩

/-- Destructors: if the destructor of a function object calls the pool, then this can happen when a worker
destroys a task that it has executed, and when an outside thread cancels a pending task. -/
theorem c112_destructor_violated {calls : Code → Bool} (h : calls .destroy = true) :
    (∃ s w, Run calls s ∧ SelfLock s (.task w) ∧ ∀ t, Steps calls s t → SelfLock t (.task w)) ∧
    (∃ s k, Run calls s ∧ SelfLock s (.ext k) ∧ ∀ t, Steps calls s t → SelfLock t (.ext k)) := by
  constructor
  · let c : Who := .task 0
    let s0 : St := ⟨none, fun _ => []⟩
    let s1 := s0.set c (Way.task false).acts
    let s2 := ({ s1 with owner := some c } : St).set c [.unlock, .user .run, .lock, .user .destroy, .unlock]
    let s3 := ({ s2 with owner := none } : St).set c [.user .run, .lock, .user .destroy, .unlock]
    let s4 := s3.set c [.lock, .user .destroy, .unlock]
    let s5 := ({ s4 with owner := some c } : St).set c [.user .destroy, .unlock]
    let s6 := s5.set c (Way.plain.acts ++ [.user .destroy, .unlock])
    have hr : Run calls s6 :=
      .step (.step (.step (.step (.step (.step .init (.call s0 c (.task false) rfl))
        (.lock s1 c _ (set_same _ _ _) rfl)) (.unlock s2 c _ (set_same _ _ _)))
        (.back s3 c .run _ (set_same _ _ _))) (.lock s4 c _ (set_same _ _ _) rfl))
        (.nested s5 c .destroy [.unlock] .plain (set_same _ _ _) h)
    have hl : SelfLock s6 c := ⟨rfl, _, set_same _ _ _⟩
    exact ⟨s6, 0, hr, hl, fun t ht => selfLock_forever hr hl ht⟩
  · let c : Who := .ext 0
    let s0 : St := ⟨none, fun _ => []⟩
    let s1 := s0.set c (Way.cancel 1).acts
    let s2 := ({ s1 with owner := some c } : St).set c [.user .destroy, .unlock]
    let s3 := s2.set c (Way.plain.acts ++ [.user .destroy, .unlock])
    have hr : Run calls s3 :=
      .step (.step (.step .init (.call s0 c (.cancel 1) rfl)) (.lock s1 c _ (set_same _ _ _) rfl))
        (.nested s2 c .destroy [.unlock] .plain (set_same _ _ _) h)
    have hl : SelfLock s3 c := ⟨rfl, _, set_same _ _ _⟩
    exact ⟨s3, 0, hr, hl, fun t ht => selfLock_forever hr hl ht⟩

/-! ### Examples -/

/-- A task that adds another task: the worker waits for the mutex in the function of the task. -/
example : ∃ s, Run (fun k => decide (k = .run)) s ∧ s.owner = none ∧
    s.todo (.task 0) = [.lock, .user .construct, .unlock, .user .run, .lock, .unlock] := by
  let c : Who := .task 0
  let s0 : St := ⟨none, fun _ => []⟩
  let s1 := s0.set c (Way.task true).acts
  let s2 := ({ s1 with owner := some c } : St).set c [.unlock, .user .run, .lock, .unlock]
  let s3 := ({ s2 with owner := none } : St).set c [.user .run, .lock, .unlock]
  exact ⟨_, .step (.step (.step (.step .init (.call s0 c (.task true) rfl)) (.lock s1 c _ (set_same _ _ _) rfl))
    (.unlock s2 c _ (set_same _ _ _))) (.nested s3 c .run [.lock, .unlock] (.add false) (set_same _ _ _) rfl),
    rfl, set_same _ _ _⟩

end Gul14.Pool.User
